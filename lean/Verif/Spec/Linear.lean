import Verif.Model.Value
/-
Meaning of a recipe expression, independent of the evaluator: the value under an assignment of the unknown variables.
-/
namespace Verif.Spec

/-- What a variable reference stands for: a known number, an abbreviated expression, nothing yet (`unknown`), or
something that is not a number. -/
inductive Binding where
  | value (q : ℚ)
  | expr (e : Expr)
  | unknown
  | other

/-- `Means B ρ e q`: with bindings `B`, and unknown variables taken from `ρ`, the expression `e` has the value `q`. -/
inductive Means (B : VarRef → Binding) (ρ : VarRef → ℚ) : Expr → ℚ → Prop
  | num (v : PyNum) : Means B ρ (.num v) v.val
  | desired (v : PyNum) : Means B ρ (.desired v) v.val
  | varValue {r q} : B r = .value q → Means B ρ (.var r) q
  | varExpr {r e q} : B r = .expr e → Means B ρ e q → Means B ρ (.var r) q
  | varUnknown {r} : B r = .unknown → Means B ρ (.var r) (ρ r)
  | incons {r q} : Means B ρ (.var r) q → Means B ρ (.incons r) q
  | neg {e q} : Means B ρ e q → Means B ρ (.neg e) (-q)
  | add {a b p q} : Means B ρ a p → Means B ρ b q → Means B ρ (.add a b) (p + q)
  | sub {a b p q} : Means B ρ a p → Means B ρ b q → Means B ρ (.sub a b) (p - q)
  | mul {a b p q} : Means B ρ a p → Means B ρ b q → Means B ρ (.mul a b) (p * q)
  | div {a b p q} : Means B ρ a p → Means B ρ b q → q ≠ 0 → Means B ρ (.div a b) (p / q)
  | mod {a b p q} : Means B ρ a p → Means B ρ b q → q ≠ 0 → Means B ρ (.mod a b) (p - q * ⌊p / q⌋)

/-- an expression has at most one value -/
theorem Means.unique {B : VarRef → Binding} {ρ : VarRef → ℚ} {e : Expr} {p q : ℚ} (h1 : Means B ρ e p)
    (h2 : Means B ρ e q) : p = q := by
  induction h1 generalizing q with
  | num v => cases h2; rfl
  | desired v => cases h2; rfl
  | varValue h => cases h2 with
    | varValue h' => rw [h] at h'; cases h'; rfl
    | varExpr h' _ => rw [h] at h'; cases h'
    | varUnknown h' => rw [h] at h'; cases h'
  | varExpr h _ ih => cases h2 with
    | varValue h' => rw [h] at h'; cases h'
    | varExpr h' h3 => rw [h] at h'; cases h'; exact ih h3
    | varUnknown h' => rw [h] at h'; cases h'
  | varUnknown h => cases h2 with
    | varValue h' => rw [h] at h'; cases h'
    | varExpr h' _ => rw [h] at h'; cases h'
    | varUnknown h' => rfl
  | incons _ ih => cases h2 with | incons h => exact ih h
  | neg _ ih => cases h2 with | neg h => rw [ih h]
  | add _ _ i1 i2 => cases h2 with | add h h' => rw [i1 h, i2 h']
  | sub _ _ i1 i2 => cases h2 with | sub h h' => rw [i1 h, i2 h']
  | mul _ _ i1 i2 => cases h2 with | mul h h' => rw [i1 h, i2 h']
  | div _ _ _ i1 i2 => cases h2 with | div h h' _ => rw [i1 h, i2 h']
  | mod _ _ _ i1 i2 => cases h2 with | mod h h' _ => rw [i1 h, i2 h']

end Verif.Spec
