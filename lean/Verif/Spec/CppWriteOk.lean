import Verif.Spec.CppOk
import Verif.Spec.Same
import Verif.Model.CppWriteFun
import Verif.Model.RecipeWrite
/-
What it means that the compiled writer writes the same as the interpreter, and conditions on the generated code under which this is
proved.  The conditions are decidable: for a given recipe they are evaluated.
-/
namespace Verif.Spec
open Verif

/-- the field at position `i` of a line has the given value -/
def FieldAs (fs : Dict Nat Val) (i : Nat) (v : Val) : Prop := ∃ u, dGet i fs = some u ∧ SameVal v u

/-- the fields from position `i` on -/
def FieldsAs (fs : Dict Nat Val) : Nat → List Val → Prop
  | _, [] => True
  | i, v :: vs => FieldAs fs i v ∧ FieldsAs fs (i + 1) vs

/-- A record of the interpreter and one of the compiled writer: same kind, same control numbers, and the same values at the same
positions.  Texts are compared if they fill the line. -/
def RecAs (r : ARec) : CRec → Prop
  | .text hl c => r.kind = .text ∧ r.ctrl = c ∧ ∃ t, r.flds = [.txt t] ∧ (t.length = 66 → hl = t)
  | .cont fs c => r.ctrl = c ∧ ((r.kind = .head ∨ r.kind = .cont) ∧ FieldsAs fs 0 r.flds ∨
      r.kind = .dir ∧ FieldsAs fs 2 r.flds ∧ dGet 0 fs = none ∧ dGet 1 fs = none)
  | .tab1 fs nbt int xs ys c => r.kind = .tab1 ∧ r.ctrl = c ∧ FieldsAs fs 0 r.flds ∧ List.Forall₂ SameVal r.tbl [nbt, int, xs, ys]
  | .tab2 fs nbt int c => r.kind = .tab2 ∧ r.ctrl = c ∧ FieldsAs fs 0 (r.flds.take 4) ∧ FieldsAs fs 5 (r.flds.drop 4) ∧
      List.Forall₂ SameVal r.tbl [nbt, int]
  | .list fs vals c => r.kind = .list ∧ r.ctrl = c ∧ FieldsAs fs 0 r.flds ∧
      ∃ l : List PyNum, r.tbl = [.lst l] ∧ List.Forall₂ SameVal (l.map Val.num) vals
  | .send c => r.kind = .send ∧ r.ctrl = c

/-! ### conditions on the code -/

/-- the second expression is the first one plus or minus an odd number -/
def oddMore (a : Expr) : Expr → Bool
  | .add c (.num (.int k)) | .sub c (.num (.int k)) => decide (c = a ∧ k % 2 = 1)
  | _ => false

/-- the half of a product of two numbers with an odd difference, such as `N*(N+1)/2` -/
def halfProd : Expr → Expr → Bool
  | .mul a b, .num (.int k) => decide (k = 2) && (oddMore a b || oddMore b a)
  | _, _ => false

/-- no remainder, and no division except for the half of numbers that are even -/
def noDiv : Expr → Bool
  | .num _ | .desired _ | .var _ | .incons _ => true
  | .neg e => noDiv e
  | .add a b | .sub a b | .mul a b => noDiv a && noDiv b
  | .div a b => noDiv a && noDiv b && halfProd a b
  | .mod _ _ => false

/-- numbers in the expression are integers -/
def intLits : Expr → Bool
  | .num (.int _) | .desired (.int _) | .var _ | .incons _ => true
  | .num _ | .desired _ => false
  | .neg e => intLits e
  | .add a b | .sub a b | .mul a b | .div a b | .mod a b => intLits a && intLits b

/-- The blocks, innermost first: the variables declared, and the ones that have been written in any case. -/
abbrev WDone := List (List VKey × List VarRef)

/-- The code for one field; `D` are the variables declared in the block. -/
def wPieceOk (depth : Nat) (D : List VKey) (p : Piece) : Bool :=
  noDiv p.e && (decide (p.kind ≠ .int) || intLits p.e) &&
  p.e.vars.all (fun r => D.contains r.key && r.idx.all idxOk) &&
  p.e.vars.all (fun r => p.e.vars.all fun r' => decide (r.name = r'.name → r = r')) &&
  p.e.vars.all (fun r => decide (r.name ≠ "cpp_val")) &&
  match p.op with
  | .check => true
  | .refuse _ v => p.e.vars.contains v
  | .put _ v sol => p.e.vars.contains v &&
    if p.kind.isNum then solShape p.kind sol && (match p.e.toX with
      | some x => (match varAssign true depth x v.xvar with
        | .ok _ => true
        | .error _ => false)
      | none => false)
    else isCppVal sol

/-- the variables written with a field -/
def putRefs (ps : List Piece) : List VarRef := ps.flatMap fun p => match p.op with
  | .put _ v _ | .refuse _ v => [v]
  | .check => []

def addRefs (rs : List VarRef) : WDone → WDone
  | [] => []
  | (D, A) :: S => (D, A ++ rs) :: S

/-- the variables declared in the current block -/
def curDefs (S : WDone) : List VKey := (S.headD ([], [])).1

def wPiecesOk (depth : Nat) (ps : List Piece) (S : WDone) : Option WDone :=
  if ps.all (wPieceOk depth (curDefs S)) then some (addRefs (putRefs ps) S) else none

/-- a variable that has been written in any case, or a loop variable -/
def surely (L : List Name) (S : WDone) (r : VarRef) : Bool :=
  L.contains r.name || match S.find? (·.1.contains r.key) with
    | some x => x.2.contains r
    | none => false

/-- the compiled writer takes a condition as false if a variable of the left side has not been written before -/
def wCondOk (L : List Name) (S : WDone) : Cond → Bool
  | .cmp _ a b => noDiv a && noDiv b && a.vars.all (surely L S)
  | .and a b | .or a b => wCondOk L S a && wCondOk L S b

def wHeadOk (L : List Name) (v : Name) (a b : Expr) : Bool :=
  noDiv a && noDiv b && startOk L a && b.vars.all fun r => decide (r.name ≠ v)

/-- a value that is not negative if its variables are not -/
def wStartOk (L : List Name) : Expr → Bool
  | .num (.int n) => decide (0 ≤ n)
  | .var r => L.contains r.name || r.idx.isEmpty
  | .add a b => wStartOk L a && wStartOk L b
  | _ => false

/-- a loop over records -/
def wLoopOk (L : List Name) (v : Name) (a b : Expr) : Bool :=
  noDiv a && noDiv b && wStartOk L a && b.vars.all fun r => decide (r.name ≠ v)

/-- names of variables with which loops over records start -/
def starts : Prog → List Name
  | .skip | .act _ | .abbr _ _ => []
  | .seq a b => starts a ++ starts b
  | .sect _ body => starts body
  | .loop _ a _ body => exprNames a ++ starts body
  | .ite _ _ t e => starts t ++ starts e

/-- variables with these names are not negative -/
def Positive (ns : List Name) (top : DDic) : Prop :=
  ∀ ch d, Nested top ch d → ∀ n ∈ ns, ∀ x, dGet (.var n) d = some (.num x) → 0 ≤ x.val

def wBodyOk (depth : Nat) : LCode → List Name → WDone → Option WDone
  | .nil, _, S => some S
  | .seq a b, L, S => (wBodyOk depth a L S).bind (wBodyOk depth b L)
  | .expr ps, _, S => wPiecesOk depth ps S
  | .loop v a b body, L, S => if wHeadOk L v a b && (wBodyOk depth body (v :: L) S).isSome then some S else none

/-- a part in a block of its own if a name is given -/
def wNamedOk (name : CName) (S : WDone) (f : WDone → Option WDone) : Option WDone :=
  match name with
  | none => f S
  | some (_, defs) => if (f ((defs, []) :: S)).isSome then some S else none

def wTextOk (depth : Nat) : List (Nat × Nat × List Piece) → WDone → Option WDone
  | [], S => some S
  | (ofs, n, ps) :: fs, S =>
    if ofs + n ≤ 66 ∧ ps.all (fun p => decide (p.kind = .txt)) then (wPiecesOk depth ps S).bind (wTextOk depth fs) else none

/-- Texts consist of one field, or of fields with their lengths given: blanks behind a field without length leave no trace in the
code (`code_generator_core.py`: only fields with a variable are passed on). -/
def plainTexts : Prog → Bool
  | .act (.text _ fs) => decide (fs.length = 1) || fs.all (·.len.isSome)
  | .seq a b => plainTexts a && plainTexts b
  | .sect _ b => plainTexts b
  | .loop _ _ _ b => plainTexts b
  | .ite _ _ a b => plainTexts a && plainTexts b
  | .skip | .act _ | .abbr _ _ => true

/-- what has been written in both branches -/
def bothRefs : WDone → WDone → WDone
  | (D, A) :: S, (_, B) :: _ => (D, A.filter (B.contains ·)) :: S
  | _, _ => []

/-- the value given to a variable that is missing in a lookahead does not meet the condition -/
def missFalse (r : Rel) (x : PyNum) : Bool := !relC r (-99999) x.val && !relC r (-999999 / 10) x.val

/-- a comparison that is false for a missing variable -/
def missAtom (r : Rel) : Expr → Expr → Option VarRef
  | .var v, .num x => if missFalse r x then some v else none
  | _, _ => none

/-- variables that are not missing if the condition holds -/
def needs : Cond → List VarRef
  | .cmp r a b => (missAtom r a b).toList
  | .and a b => needs a ++ needs b
  | .or a b => (needs a).filter ((needs b).contains ·)

/-- A condition behind a lookahead; `S` before and `S1` behind the lookahead, `K` are variables that are not missing. -/
def wLookCondOk (L : List Name) (S S1 : WDone) : Cond → List VarRef → Bool
  | .cmp r a b, K => noDiv a && noDiv b && (a.vars ++ b.vars).all (surely L S1) &&
    ((a.vars ++ b.vars).all (fun v => surely L S v || K.contains v) || (missAtom r a b).isSome)
  | .and a b, K => wLookCondOk L S S1 a (K ++ needs b) && wLookCondOk L S S1 b (K ++ needs a)
  | .or a b, K => wLookCondOk L S S1 a K && wLookCondOk L S S1 b K

/-- the number that stands for a missing variable in a field of type `k` -/
def missVal : CKind → Val
  | .int => .num (.int (-99999))
  | _ => .num (.num (.flt (-999999 / 10)))

/-- solutions in terms of the field and a number -/
def closedSol : X → Bool
  | .var y => decide (y = cppVal)
  | .div (.var y) (.num _) => decide (y = cppVal)
  | _ => false

/-- If the variable of a field is missing, the solution for the variable is again one of the two numbers. -/
def missSol (k : CKind) (e : Expr) (sol : X) : Bool :=
  match fieldR (fun _ => .ok (missVal k)) k e with
  | .ok src => (match solVal { cur := ⟨[], [], []⟩, ls := [] } e src sol with
    | .ok x => (match toKind k x with
      | .ok (.num z) => decide (z.val = -99999 ∨ z.val = -999999 / 10)
      | _ => false)
    | _ => false)
  | _ => false

/-- Fields in a lookahead; `C` are the names in the condition, `A` variables that are known.  If the unknown variable of a field is used
in the condition, the field has no other variable, and the condition sees one of the two numbers if the variable is missing. -/
def wLookPiecesOk (depth : Nat) (L : List Name) (D : List VKey) (C : List Name) : List Piece → List VarRef → Bool
  | [], _ => true
  | p :: ps, A => wPieceOk depth D p && p.kind.isNum && p.e.vars.all (fun r => !L.contains r.name) &&
    (match p.op with
      | .put g v sol => !C.contains v.name || g && A.contains v ||
        p.e.vars.all (fun r => decide (r = v)) && closedSol sol && missSol p.kind p.e sol
      | _ => true) && wLookPiecesOk depth L D C ps (A ++ putRefs [p])

/-- the variables found by a lookahead -/
def foundRefs (c : Cond) (steps : List (List Piece)) : List VarRef :=
  (putRefs steps.flatten).filter fun r => (condNames c).contains r.name

/-- The code of a section; `L` are the loop variables. -/
def wCodeOk (depth : Nat) : Code → List Name → WDone → Option WDone
  | .skip, _, S => some S
  | .seq a b, L, S => (wCodeOk depth a L S).bind (wCodeOk depth b L)
  | .text fs, _, S => wTextOk depth fs S
  | .cont ps, _, S => wPiecesOk depth ps S
  | .tab1 ps cols name, _, S | .tab2 ps cols name, _, S => (wPiecesOk depth ps S).bind fun S => wNamedOk name S (wPiecesOk depth cols)
  | .list ps body name, L, S => (wPiecesOk depth ps S).bind fun S => wNamedOk name S (wBodyOk depth body L)
  | .send, _, S => some S
  | .sect _ defs body, L, S => if (wCodeOk depth body L ((defs, []) :: S)).isSome then some S else none
  | .loop v a b body, L, S => if wLoopOk L v a b && (wCodeOk depth body (v :: L) S).isSome then some S else none
  | .ite c thn els, L, S => if wCondOk L S c then
      (match wCodeOk depth thn L S, wCodeOk depth els L S with
        | some S1, some S2 => some (bothRefs S1 S2)
        | _, _ => none)
    else none
  | .look steps c thn els, L, S =>
    if wLookPiecesOk depth L (curDefs S) (condNames c) steps.flatten (S.headD ([], [])).2 &&
        wLookCondOk L S (addRefs (foundRefs c steps) S) c [] then
      (match wCodeOk depth thn L S, wCodeOk depth els L S with
        | some S1, some S2 => some (bothRefs S1 S2)
        | _, _ => none)
    else none

end Verif.Spec
