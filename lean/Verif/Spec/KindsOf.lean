import Verif.Model.CppFun
import Verif.Spec.CppOk
/-
The types of the variables of a generated function, collected from its code.
-/
namespace Verif.Spec
open Verif

def Code.kinds : Code → List (Name × CKind × Nat)
  | .skip | .send => []
  | .seq a b => Code.kinds a ++ Code.kinds b
  | .text fs => fs.flatMap fun x => x.2.2.flatMap Piece.kinds
  | .cont ps => ps.flatMap Piece.kinds
  | .tab1 ps cs _ | .tab2 ps cs _ => ps.flatMap Piece.kinds ++ cs.flatMap Piece.kinds
  | .list ps b _ => ps.flatMap Piece.kinds ++ LCode.kinds b
  | .sect _ _ b => Code.kinds b
  | .loop _ _ _ b => Code.kinds b
  | .ite _ a b | .look _ _ a b => Code.kinds a ++ Code.kinds b

def Code.loops : Code → List Name
  | .seq a b => Code.loops a ++ Code.loops b
  | .sect _ _ b => Code.loops b
  | .loop v _ _ b => v :: Code.loops b
  | .ite _ a b | .look _ _ a b => Code.loops a ++ Code.loops b
  | .list _ b _ => LCode.loops b
  | _ => []

/-- the type with which a variable is first assigned -/
def kindsOf (c : Code) : Kinds := fun n => ((Code.kinds c).find? fun x => x.1 == n && !(Code.loops c).contains n).map (·.2)

end Verif.Spec
