import Verif.Model.Obj
/-
Arrays of the interpreter: as dictionaries, as lists with shifted indices (`internal_array_type` "list", user
option `array_type="list_slow"`), and dictionaries converted to lists at the end (`array_type="list"`).
-/
namespace Verif

/-! ## Conversion of a section read with dictionaries -/

/-- the integer of a key -/
def PKey.int? : PKey → Option Int
  | .int n => some n
  | .str _ => none

def minKey : List Int → Option Int
  | [] => none
  | a :: l => some (l.foldl min a)

def maxKey : List Int → Option Int
  | [] => none
  | a :: l => some (l.foldl max a)

/-- helpers.py:42-44: the list of the values for the indices from the smallest to the largest, `None` for gaps;
`min` of an empty sequence is a ValueError -/
def idxList (d : Dict PKey Obj) (ks : List Int) : Res (List Obj) :=
  match minKey ks, maxKey ks with
  | some a, some b => .ok ((List.range (b + 1 - a).toNat).map fun i : Nat => ((dGet (.int (a + (i : Int))) d).getD .none))
  | _, _ => .error .valueError

mutual
/-- helpers.py:37-45: what `array_dict_to_list` puts in the place of a value: other objects than mappings stay
(also lists), a mapping is converted inside and then becomes a list when all of its keys are integers -/
def adlO : Obj → Res Obj
  | .dic d => do
    let e ← adlD d
    match (dKeys e).mapM PKey.int? with
    | none => .ok (.dic e)
    | some ks => return .lst (← idxList e ks)
  | o => .ok o
/-- helpers.py:34-45 `array_dict_to_list` on the entries of a dictionary -/
def adlD : List (PKey × Obj) → Res (List (PKey × Obj))
  | [] => .ok []
  | (k, o) :: d => do
    let o' ← adlO o
    return (k, o') :: (← adlD d)
end

/-! ## Writing array elements -/

/-- an entry of `__startidcs`: the first index seen at this level and one entry for each index -/
inductive Info where
  | node (start : Option Int) (subs : List (Int × Info))

def Info.empty : Info := .node none []

/-- helpers.py:51-57: the loop of `shift_indices`, returning the shifted indices and the entry afterwards -/
def shiftIdx : List Int → Info → List Int × Info
  | [], f => ([], f)
  | i :: is, .node start subs =>
    let s := start.getD i
    let r := shiftIdx is ((dGet i subs).getD Info.empty)
    ((i - s) :: r.1, .node (some s) (dSet i r.2 subs))

/-- endf_mapping_utils.py:123-126 the walk over the lists: `list_setdefault` with an empty list for all but the
last index and `list_set` for the last (helpers.py:15-31). Only lists are objects to walk through. -/
def lstSet : List Int → Obj → Obj → Res Obj
  | [], _, _ => .error .indexError
  | i :: is, v, .lst l =>
    if i < 0 ∨ i > l.length then .error .indexError
    else if i = l.length then
      match is with
      | [] => .ok (.lst (l ++ [v]))
      | _ :: _ => do return .lst (l ++ [← lstSet is v (.lst [])])
    else
      match is with
      | [] => .ok (.lst (l.set i.toNat v))
      | _ :: _ => do return .lst (l.set i.toNat (← lstSet is v (l.getD i.toNat .none)))
  | _, _, _ => .error .typeError

/-- endf_mapping_utils.py:111-117 `_set_array_value_in_dict_mode` on the array: `setdefault` with an empty
dictionary for all but the last index, then assignment -/
def dicSet : List Int → Obj → Obj → Res Obj
  | [], _, _ => .error .indexError
  | i :: is, v, .dic d =>
    match is with
    | [] => .ok (.dic (dSet (.int i) v d))
    | _ :: _ => do return .dic (dSet (.int i) (← dicSet is v ((dGet (.int i) d).getD (.dic []))) d)
  | _, _, _ => .error .attributeError

/-- an assignment to an array element -/
abbrev AWrite := List Int × Obj

/-- endf_mapping_utils.py:120-126 `_set_array_value_in_list_mode` -/
def setL (s : Obj × Info) (w : AWrite) : Res (Obj × Info) := do
  let r := shiftIdx w.1 s.2
  return (← lstSet r.1 w.2 s.1, r.2)

/-- the assignments of a run to one array, in list mode; the array begins as an empty list -/
def runL : List AWrite → Obj × Info → Res (Obj × Info)
  | [], s => .ok s
  | w :: ws, s => do runL ws (← setL s w)

/-- the same in dictionary mode -/
def runD : List AWrite → Obj → Res Obj
  | [], o => .ok o
  | w :: ws, o => do runD ws (← dicSet w.1 w.2 o)

/-! ## Reading array elements -/

/-- endf_mapping_utils.py:86-95 `_get_array_value_in_list_mode` (`len` of other objects than lists not modelled) -/
def lstGet : List Int → Obj → Res Obj
  | [], o => .ok o
  | i :: is, .lst l => if 0 ≤ i ∧ i < l.length then lstGet is (l.getD i.toNat .none) else .error .unavailableIndex
  | _, _ => .error .typeError

/-- endf_mapping_utils.py:73-83 `_get_array_value_in_dict_mode` -/
def dicGet : List Int → Obj → Res Obj
  | [], o => .ok o
  | i :: is, .dic d => match dGet (.int i) d with
    | some o => dicGet is o
    | none => .error .unavailableIndex
  | _, _ => .error .typeError

/-- endf_mapping_utils.py:98-107 `get_array_value` in list mode; looking an index up records it, too -/
def getL (s : Obj × Info) (is : List Int) : Res Obj × Info :=
  let r := shiftIdx is s.2
  (lstGet r.1 s.1, r.2)

end Verif
