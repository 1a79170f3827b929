import Verif.Model.Obj
import Verif.Model.Parse
/-
Functions of `endf_parserpy/utils/user_tools.py`.
-/
namespace Verif

/-! ## locate -/

mutual
/-- user_tools.py:16-39 `locate`, the function `recfun` on a dictionary: locations relative to it -/
def locO (v : PKey) : Obj → List (List PKey)
  | .dic d => if v ∈ dKeys d then [[v]] else locD v d
  | _ => []
/-- user_tools.py:28-32: the loop over the items; only dictionaries are entered -/
def locD (v : PKey) : List (PKey × Obj) → List (List PKey)
  | [] => []
  | (k, o) :: d => (locO v o).map (k :: ·) ++ locD v d
end

/-- the walk of user_tools.py:42-49 `get_endf_values` along one location -/
def getLoc : List PKey → Obj → Res Obj
  | [], o => .ok o
  | k :: p, .dic d => match dGet k d with
    | some o => getLoc p o
    | none => .error .keyError
  | _ :: _, _ => .error .typeError

/-- user_tools.py:42-49 `get_endf_values` -/
def getValues (o : Obj) (locs : List (List PKey)) : Res (List Obj) := locs.mapM fun l => getLoc l o

/-! ## Parsed and unparsed sections -/

def Obj.isDict : Obj → Bool
  | .dic _ => true
  | _ => false

def Obj.isList : Obj → Bool
  | .lst _ => true
  | _ => false

/-- the inner loop of user_tools.py:69-72 and 93-96 -/
def listMts (kind : Obj → Bool) (mf : PKey) : List (PKey × Obj) → List (PKey × PKey)
  | [] => []
  | (mt, o) :: d => if kind o then (mf, mt) :: listMts kind mf d else listMts kind mf d

/-- the outer loop of user_tools.py:68-72 and 92-96 (`mfsec.items()` is an AttributeError for other objects) -/
def listMfs (kind : Obj → Bool) : List (PKey × Obj) → Res (List (PKey × PKey))
  | [] => .ok []
  | (mf, .dic e) :: d => do return listMts kind mf e ++ (← listMfs kind d)
  | _ :: _ => .error .attributeError

/-- user_tools.py:52-73 `list_unparsed_sections` -/
def listUnparsed (d : List (PKey × Obj)) : Res (List (PKey × PKey)) := listMfs Obj.isList d

/-- user_tools.py:76-97 `list_parsed_sections` -/
def listParsed (d : List (PKey × Obj)) : Res (List (PKey × PKey)) := listMfs Obj.isDict d

/-- a section of the result of `parse` as object: lines, or a dictionary with the variables (`emb`) -/
def secObj (emb : DDic → List (PKey × Obj)) : SecVal DDic → Obj
  | .verb ls => .lst (ls.map .str)
  | .data d => .dic (emb d)

/-- the result of `parse` (Model/Parse.lean) as object -/
def resultObj (emb : DDic → List (PKey × Obj)) (r : Dict Int (Dict Int (SecVal DDic))) : List (PKey × Obj) :=
  r.map fun (mf, d) => (.int mf, .dic (d.map fun (mt, s) => (.int mt, secObj emb s)))

/-! ## sanitize_fieldname_types -/

/-- `int(key)` (user_tools.py:126-129), `none` for any exception -/
def keyInt : PKey → Option Int
  | .int n => some n
  | .str s => pyInt s

/-- user_tools.py:125-138: the loop over the keys, as they were before -/
def sanKeys : List PKey → List (PKey × Obj) → Res (List (PKey × Obj))
  | [], d => .ok d
  | k :: ks, d =>
    match keyInt k with
    | none => sanKeys ks d
    | some n =>
      if dHas (.int n) d then .error .indexError
      else match dGet k d with
        | none => .error .keyError
        | some c => sanKeys ks (dDel k (dSet (.int n) c d))

mutual
/-- user_tools.py:122-143 `sanitize_fieldname_types` on the objects of a dictionary: other objects are left alone.

Simplified: sub-dictionaries are converted before the keys and not after them, which makes no difference except for
which changes were made before an exception, and these are not modelled. -/
def sanObj : Obj → Res Obj
  | .dic d => do
    let e ← sanVals d
    return .dic (← sanKeys (dKeys e) e)
  | o => .ok o
/-- user_tools.py:140-143: recursion into sub-dictionaries -/
def sanVals : List (PKey × Obj) → Res (List (PKey × Obj))
  | [] => .ok []
  | (k, o) :: d => do
    let o' ← sanObj o
    return (k, o') :: (← sanVals d)
end

/-- user_tools.py:100-143 `sanitize_fieldname_types` -/
def sanitize : Obj → Res Obj
  | .dic d => sanObj (.dic d)
  | _ => .error .typeError

end Verif
