import Verif.Model.Py
/-
Specification vocabulary for fixed column texts.
-/
namespace Verif.Spec

/-- The lines of the file from position `ofs` on start with the texts `recs` (one per line;
whatever stands behind them in a line, e.g. a line number, is arbitrary). -/
def StandsAt (lines : List (List Char)) (ofs : Nat) (recs : List (List Char)) : Prop :=
  ∀ i s, recs[i]? = some s → ∃ l, lines[ofs + i]? = some l ∧ s <+: l

/-- an integer needs at most `w` columns -/
def FitsInt (w : Nat) (n : Int) : Prop := (intStr n).length ≤ w

/-- control numbers that fit their columns -/
def FitsCtrl (mat mf mt : Int) : Prop :=
  (-1000 < mat ∧ mat < 10000) ∧ (-10 < mf ∧ mf < 100) ∧ (-100 < mt ∧ mt < 1000)

end Verif.Spec
