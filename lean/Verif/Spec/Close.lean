import Verif.Model.Compare
import Verif.Model.Value
import Verif.Model.Write

/-! When two files have the same content up to a tolerance. -/

namespace Verif.Spec
open Verif

/-- equal integers, or floats within the tolerance -/
inductive CloseNum (atol rtol : ℚ) : PyNum → PyNum → Prop where
  | int (n : Int) : CloseNum atol rtol (.int n) (.int n)
  | flt {a b : Num} (h : |a.val - b.val| ≤ atol + rtol * |b.val|) : CloseNum atol rtol (.num a) (.num b)

/-- numbers within the tolerance, the same texts, lists of the same length, dictionaries with the same keys -/
inductive Close (atol rtol : ℚ) : Val → Val → Prop where
  | num {x y : PyNum} (h : CloseNum atol rtol x y) : Close atol rtol (.num x) (.num y)
  | txt (s : Str) : Close atol rtol (.txt s) (.txt s)
  | lst {l m : List PyNum} (h : List.Forall₂ (CloseNum atol rtol) l m) : Close atol rtol (.lst l) (.lst m)
  | dic {d e : DDic} (hk : ∀ k, k ∈ dKeys d ↔ k ∈ dKeys e) (hv : ∀ k v w, dGet k d = some v → dGet k e = some w → Close atol rtol v w) :
      Close atol rtol (.dic d) (.dic e)

/-- a section is in none of the files, or the same lines in both, or has been parsed in both with close content -/
inductive CloseSec (atol rtol : ℚ) : Option (SecVal DDic) → Option (SecVal DDic) → Prop where
  | none : CloseSec atol rtol none none
  | verb (ls : List Str) : CloseSec atol rtol (some (.verb ls)) (some (.verb ls))
  | data {d e : DDic} (h : Close atol rtol (.dic d) (.dic e)) : CloseSec atol rtol (some (.data d)) (some (.data e))

end Verif.Spec
