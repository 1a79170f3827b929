import Verif.Model.Recipe
/-
When two values or records are the same for a user: numbers are compared by value, so that the integer 3 and the float
3.0 are the same.
-/
namespace Verif.Spec

/-- same number, same text, same list of numbers -/
def SameVal : Val → Val → Prop
  | .num x, .num y => x.val = y.val
  | .lst l, .lst m => l.map PyNum.val = m.map PyNum.val
  | .txt s, .txt t => s = t
  | _, _ => False

/-- same kind, same control numbers, and the same values field by field -/
structure SameRec (r r' : ARec) : Prop where
  kind : r.kind = r'.kind
  ctrl : r.ctrl = r'.ctrl
  flds : List.Forall₂ SameVal r.flds r'.flds
  tbl : List.Forall₂ SameVal r.tbl r'.tbl

end Verif.Spec
