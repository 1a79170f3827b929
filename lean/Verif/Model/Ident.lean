import Verif.Model.Obj
/-
Comparison of nested objects with object identity (accessories.py:24-60 `recursive_equality_check`, used by `==` of
`EndfDict` and `EndfList`, accessories.py:518-522).

Objects are numbers referring to a heap.  Simplified: the operands and what they contain are lists, dictionaries, texts,
numbers and None (in particular no `EndfDict` objects within).
-/
namespace Verif

/-- an object on the heap -/
inductive HNode where
  | none
  | num (x : PyNum)
  | str (s : Str)
  | seq (l : List Nat)
  | map (d : List (PKey × Nat))

abbrev Heap := Nat → HNode

/-- the second operand: an object of the heap, or a character of a text when a list is compared with a text -/
inductive HRef where
  | ref (n : Nat)
  | chr (c : Char)
  deriving DecidableEq

def HRef.node (h : Heap) : HRef → HNode
  | .ref n => h n
  | .chr c => .str [c]

/-- `float(o)` as called by `EndfFloat.__eq__` (math_utils.py:52-53) -/
def HNode.float : HNode → Res ℚ
  | .num x => .ok x.val
  | .str s => match pyFloat s with
    | some d => .ok d.toRat
    | Option.none => .error .valueError
  | _ => .error .typeError

/-- `obj1 == obj2` of accessories.py:59 for objects that aren't both sequences or both mappings; `EndfFloat` on either side
converts the other operand -/
def eqOther : HNode → HNode → Res Bool
  | .num (.num (.endf v _)), b => do return decide (v = (← b.float))
  | a, .num (.num (.endf v _)) => do return decide (v = (← a.float))
  | .num a, .num b => .ok (decide (a.val = b.val))
  | .none, .none => .ok true
  | _, _ => .ok false

/-- accessories.py:46-48: the elements of two sequences -/
def eqElems (rec : Nat → HRef → List Nat → Res (Bool × List Nat)) : List Nat → List HRef → List Nat → Res (Bool × List Nat)
  | x :: l, y :: m, ids =>
    match rec x y ids with
    | .error e => .error e
    | .ok (false, ids') => .ok (false, ids')
    | .ok (true, ids') => eqElems rec l m ids'
  | _, _, ids => .ok (true, ids)

/-- accessories.py:55-57: the entries of two mappings -/
def eqEntries (rec : Nat → HRef → List Nat → Res (Bool × List Nat)) (e : List (PKey × Nat)) :
    List (PKey × Nat) → List Nat → Res (Bool × List Nat)
  | [], ids => .ok (true, ids)
  | (k, x) :: d, ids =>
    match dGet k e with
    | none => .error .keyError
    | some y =>
      match rec x (.ref y) ids with
      | .error e => .error e
      | .ok (false, ids') => .ok (false, ids')
      | .ok (true, ids') => eqEntries rec e d ids'

/-- accessories.py:24-60 `recursive_equality_check`; the first argument bounds the depth of recursion; the set `ids` is
shared by all calls -/
def eqH (h : Heap) : Nat → Nat → HRef → List Nat → Res (Bool × List Nat)
  | 0, _, _, _ => .error .recursion
  | f + 1, x, y, ids =>
    if y = .ref x then .ok (true, ids)
    else match h x, y.node h with
      | .str s, .str t => .ok (decide (s = t), ids)
      | .str _, .seq _ => .ok (false, ids)
      | .seq l, .seq m =>
        if l.length ≠ m.length then .ok (false, ids)
        else if x ∈ ids then .error .indexError
        else eqElems (eqH h f) l (m.map .ref) (x :: ids)
      | .seq l, .str s =>
        if l.length ≠ s.length then .ok (false, ids)
        else if x ∈ ids then .error .indexError
        else eqElems (eqH h f) l (s.map .chr) (x :: ids)
      | .map d, .map e =>
        if d.length ≠ e.length then .ok (false, ids)
        else if ¬ (dKeys d).all (dHas · e) then .ok (false, ids)
        else if x ∈ ids then .error .indexError
        else eqEntries (eqH h f) e d (x :: ids)
      | a, b => do return (← eqOther a b, ids)

/-- `obj1 == obj2` (accessories.py:518-522), for objects nested at most `f - 1` levels deep -/
def eqObj (h : Heap) (f x y : Nat) : Res Bool := do return (← eqH h f x (.ref y) []).1

end Verif
