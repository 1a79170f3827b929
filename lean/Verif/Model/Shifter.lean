import Verif.Model.Dict
import Verif.Model.Py

/-!
The array store of the compiled (C++) parsers: `IndexShifter` and `IndexShifterStore` of
endf_parserpy/compiler/cpp_templates/index_shifter.hpp.
-/

namespace Verif

/-- Python objects as the store sees them: a reference to an object that it does not look into, a list, a dictionary with
integer keys.  Simplified: sub-objects are values, while in Python the containers are shared references; the store is the
only one that changes them. -/
inductive CObj
  | ref (id : Nat)
  | list (xs : List CObj)
  | dict (kv : List (Int × CObj))

/-- index_shifter.hpp:14-19 the members of `IndexShifter` except `list_mode`, which is the same at all levels -/
inductive Shift
  | mk (start : Int) (accessed : Bool) (next : List Shift)

def Shift.start : Shift → Int | .mk s _ _ => s
def Shift.accessed : Shift → Bool | .mk _ a _ => a
def Shift.next : Shift → List Shift | .mk _ _ n => n

/-- index_shifter.hpp:82-86 the constructors -/
def Shift.fresh : Shift := .mk 0 false []

/-- results of C++ functions: a value, an exception, or undefined behaviour (access outside of a `std::vector`).
Simplified: after an exception the state is not modelled. -/
inductive COut (α : Type)
  | ok (a : α)
  | throws
  | ub

/-- an empty `py::list()` / `py::dict()` -/
def CObj.empty (lm : Bool) : CObj := if lm then .list [] else .dict []

/-- the cast to `py::list` / `py::dict` succeeds -/
def CObj.fits (lm : Bool) : CObj → Bool
  | .list _ => lm
  | .dict _ => !lm
  | .ref _ => false

/-- index_shifter.hpp:28-34 `key_exists`; in list mode the key is not negative -/
def keyExists (o : CObj) (key : Int) : Bool :=
  match o with
  | .list xs => decide (key.toNat < xs.length)
  | .dict d => dHas key d
  | .ref _ => false

/-- `pyobj[py::cast(key)]`, `none` for IndexError / KeyError -/
def itemAt (o : CObj) (key : Int) : Option CObj :=
  match o with
  | .list xs => xs[key.toNat]?
  | .dict d => dGet key d
  | .ref _ => none

/-- `pyobj[key] = elem` for a key that exists, or for any key of a dictionary -/
def putItem (o : CObj) (key : Int) (e : CObj) : CObj :=
  match o with
  | .list xs => .list (xs.set key.toNat e)
  | .dict d => .dict (dSet key e d)
  | .ref n => .ref n

/-- index_shifter.hpp:36-46 `insert_obj`, `none` for IndexError -/
def insertObj (o : CObj) (key : Int) (e : CObj) : Option CObj :=
  match o with
  | .list xs => if key.toNat = xs.length then some (.list (xs ++ [e]))
      else if key.toNat < xs.length then some (.list (xs.set key.toNat e)) else none
  | .dict d => some (.dict (dSet key e d))
  | .ref _ => none

/-- index_shifter.hpp:21-26 `get_next_level`: the vector after the call and the selected element; `none` if the index is
outside of the vector (undefined behaviour) -/
def nextLevel (next : List Shift) (idx : Int) : Option (List Shift × Shift) :=
  if idx = next.length then some (next ++ [.fresh], .fresh)
  else if 0 ≤ idx then
    match next[idx.toNat]? with
    | some s => some (next, s)
    | none => none
  else none

/-- index_shifter.hpp:48-79 `setdefault_i`: the returned object, the new shifter and the new object.  `none` as default
value is `py::none()`. -/
def setdefaultI (lm : Bool) : List Int → Shift → CObj → Option CObj → COut (CObj × Shift × CObj)
  | [], _, _, _ => .ub
  | [i], sh, obj, d =>
    let start := if sh.accessed then sh.start else i
    let idx := i - start
    let key := if lm then idx else i
    if lm && decide (key < 0) then .throws
    else
      let obj' := match d with
        | some x => if keyExists obj key then some obj else insertObj obj key x
        | none => some obj
      match obj' with
      | none => .throws
      | some obj' =>
        match itemAt obj' key with
        | none => .throws
        | some r => .ok (r, .mk start true sh.next, obj')
  | i :: j :: is, sh, obj, d =>
    let start := if sh.accessed then sh.start else i
    let idx := i - start
    let key := if lm then idx else i
    if lm && decide (key < 0) then .throws
    else
      match nextLevel sh.next idx with
      | none => .ub
      | some (next, s) =>
        let obj' := match d with
          | some _ => if keyExists obj key then some obj else insertObj obj key (.empty lm)
          | none => some obj
        match obj' with
        | none => .throws
        | some obj' =>
          match itemAt obj' key with
          | none => .throws
          | some child =>
            if child.fits lm then
              match setdefaultI lm (j :: is) s child d with
              | .ok (r, s', child') => .ok (r, .mk start true (next.set idx.toNat s'), putItem obj' key child')
              | .throws => .throws
              | .ub => .ub
            else .throws

/-- index_shifter.hpp:121-129 the members of `IndexShifterStore` except `list_mode` -/
structure CStore where
  refdict : Dict Str CObj
  shifters : Dict Str Shift

/-- index_shifter.hpp:149-168 `IndexShifterStore::setdefault` -/
def CStore.setdefault (lm : Bool) (s : CStore) (name : Str) (idcs : List Int) (d : Option CObj) : COut (CObj × CStore) :=
  match d, dGet name s.refdict, idcs with
  | some x, none, [] => .ok (x, { s with refdict := dSet name x s.refdict })
  | _, _, _ =>
    let refdict := match d, dGet name s.refdict with
      | some _, none => dSet name (.empty lm) s.refdict
      | _, _ => s.refdict
    match dGet name refdict with
    | none => .throws
    | some obj =>
      if idcs = [] then .ok (obj, { s with refdict := refdict })
      else if obj.fits lm then
        match setdefaultI lm idcs ((dGet name s.shifters).getD .fresh) obj d with
        | .ok (r, sh, obj') => .ok (r, ⟨dSet name obj' refdict, dSet name sh s.shifters⟩)
        | .throws => .throws
        | .ub => .ub
      else .throws

/-- index_shifter.hpp:170-175 `IndexShifterStore::get_value` -/
def CStore.getValue (lm : Bool) (s : CStore) (name : Str) (idcs : List Int) (d : Option CObj) : COut (CObj × CStore) :=
  match d, dGet name s.refdict with
  | some x, none => .ok (x, s)
  | _, _ => s.setdefault lm name idcs none

end Verif
