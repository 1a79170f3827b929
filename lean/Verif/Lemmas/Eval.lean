import Verif.Model.Mapping
import Verif.Spec.Linear
import Mathlib.Tactic.Ring
import Mathlib.Tactic.FieldSimp
import Mathlib.Tactic.Linarith
/-
Lemmas on arithmetic, look-up and `evalExpr`.
-/
namespace Verif
open Spec

theorem bind_ok {α β : Type} {x : Res α} {f : α → Res β} {b : β} :
    (x >>= f) = .ok b ↔ ∃ a, x = .ok a ∧ f a = .ok b := by
  cases x with
  | error e => simp [bind, Except.bind]
  | ok a => simp [bind, Except.bind]

theorem pure_ok {α : Type} {a b : α} : (pure a : Res α) = .ok b ↔ a = b := by
  simp [pure, Except.pure]

theorem arith_val {x : PyNum} {q : ℚ} (h : x.arith = .ok q) : x.val = q := by
  cases x with
  | int n => simpa [PyNum.arith, PyNum.val] using h
  | num x => cases x with
    | flt v => simpa [PyNum.arith, PyNum.val, Num.val] using h
    | endf v s => simp [PyNum.arith] at h

theorem pAdd_val {x y z : PyNum} (h : pAdd x y = .ok z) : z.val = x.val + y.val := by
  unfold pAdd at h
  split at h
  · cases h; simp [PyNum.val]
  · simp only [bind_ok, pure_ok] at h
    obtain ⟨a, ha, b, hb, rfl⟩ := h
    rw [arith_val ha, arith_val hb]; rfl

theorem pSub_val {x y z : PyNum} (h : pSub x y = .ok z) : z.val = x.val - y.val := by
  unfold pSub at h
  split at h
  · cases h; simp [PyNum.val]
  · simp only [bind_ok, pure_ok] at h
    obtain ⟨a, ha, b, hb, rfl⟩ := h
    rw [arith_val ha, arith_val hb]; rfl

theorem pMul_val {x y z : PyNum} (h : pMul x y = .ok z) : z.val = x.val * y.val := by
  unfold pMul at h
  split at h
  · cases h; simp [PyNum.val]
  · simp only [bind_ok, pure_ok] at h
    obtain ⟨a, ha, b, hb, rfl⟩ := h
    rw [arith_val ha, arith_val hb]; rfl

theorem pNeg_val {x z : PyNum} (h : pNeg x = .ok z) : z.val = -x.val := by
  unfold pNeg at h
  split at h
  · cases h; simp [PyNum.val]
  · simp only [bind_ok, pure_ok] at h
    obtain ⟨a, ha, rfl⟩ := h
    rw [arith_val ha]; rfl

theorem pDiv_val {c : Bool} {x y z : PyNum} (h : pDiv c x y = .ok z) : y.val ≠ 0 ∧ z.val = x.val / y.val := by
  unfold pDiv at h
  split at h
  · rename_i a b
    split at h
    · cases h
    · rename_i hb
      have hb' : ((b : Int) : ℚ) ≠ 0 := by exact_mod_cast hb
      split at h
      · rename_i hm
        cases h
        refine ⟨hb', ?_⟩
        simp only [PyNum.val]
        rw [eq_div_iff hb']
        have := Int.ediv_mul_cancel (Int.dvd_of_emod_eq_zero hm)
        exact_mod_cast this
      · split at h
        · cases h
        · cases h; exact ⟨hb', rfl⟩
  · simp only [bind_ok] at h
    obtain ⟨a, ha, b, hb, h⟩ := h
    split at h
    · cases h
    · rename_i h0
      rw [pure_ok] at h
      subst h
      rw [arith_val ha, arith_val hb]
      exact ⟨h0, rfl⟩

theorem fmod_val (a b : Int) (hb : b ≠ 0) : ((Int.fmod a b : Int) : ℚ) = (a : ℚ) - b * ⌊(a : ℚ) / b⌋ := by
  have h1 : ⌊(a : ℚ) / b⌋ = Int.fdiv a b := by
    rcases lt_or_gt_of_ne hb with h | h
    · have e : (a : ℚ) / b = ((-a : Int) : ℚ) / ((-b).toNat : ℕ) := by
        have : (((-b).toNat : ℕ) : ℚ) = ((-b : Int) : ℚ) := by
          have : (((-b).toNat : ℕ) : Int) = -b := Int.toNat_of_nonneg (by omega)
          exact_mod_cast this
        rw [this]; push_cast; rw [neg_div_neg_eq]
      rw [e, Rat.floor_intCast_div_natCast]
      have : (((-b).toNat : ℕ) : Int) = -b := Int.toNat_of_nonneg (by omega)
      rw [this, ← Int.neg_fdiv_neg a b]
      exact (Int.fdiv_eq_ediv_of_nonneg _ (by omega)).symm
    · have e : (a : ℚ) / b = ((a : Int) : ℚ) / (b.toNat : ℕ) := by
        have : ((b.toNat : ℕ) : ℚ) = ((b : Int) : ℚ) := by
          have : ((b.toNat : ℕ) : Int) = b := Int.toNat_of_nonneg (by omega)
          exact_mod_cast this
        rw [this]
      rw [e, Rat.floor_intCast_div_natCast]
      have : ((b.toNat : ℕ) : Int) = b := Int.toNat_of_nonneg (by omega)
      rw [this]
      exact (Int.fdiv_eq_ediv_of_nonneg _ (by omega)).symm
  rw [h1]
  have h2 := Int.fmod_def a b
  rw [h2]; push_cast; ring

theorem pMod_val {x y z : PyNum} (h : pMod x y = .ok z) :
    y.val ≠ 0 ∧ z.val = x.val - y.val * ⌊x.val / y.val⌋ := by
  unfold pMod at h
  split at h
  · rename_i a b
    split at h
    · cases h
    · rename_i hb
      cases h
      exact ⟨by simp only [PyNum.val]; exact_mod_cast hb, fmod_val a b hb⟩
  · simp only [bind_ok] at h
    obtain ⟨a, ha, b, hb, h⟩ := h
    split at h
    · cases h
    · rename_i h0
      rw [pure_ok] at h
      subst h
      rw [arith_val ha, arith_val hb]
      exact ⟨h0, rfl⟩

theorem scalar_ok {v : Val} {x : PyNum} (h : v.scalar = .ok x) : v = .num x := by
  cases v <;> simp [Val.scalar] at h
  rw [h]

/-- value of the unknown of a linear form -/
def Lin.at (v : Lin) (c : PyNum) (ρ : VarRef → ℚ) : ℚ :=
  c.val + v.k.val * (match v.x with | none => 0 | some r => ρ r)

/-- what a reference stands for in an environment -/
def bindOf (env : Env) (lookUp : Bool) (r : VarRef) : Binding :=
  match getVarval env lookUp r with
  | .ok (.num x) => .value x.val
  | .ok (.abb e) => .expr e
  | .ok _ => .other
  | .error .variableNotFound => .unknown
  | .error .unavailableIndex => .unknown
  | .error _ => .other

/-- an exception that says that a variable is missing -/
def Err.isMissing : Err → Bool
  | .variableNotFound | .unavailableIndex => true
  | _ => false

theorem bind_error {α β : Type} {x : Res α} {f : α → Res β} {e : Err} :
    (x >>= f) = .error e ↔ x = .error e ∨ ∃ a, x = .ok a ∧ f a = .error e := by
  cases x with
  | error e => simp [bind, Except.bind]
  | ok a => simp [bind, Except.bind]

theorem arith_err {x : PyNum} {e : Err} (h : x.arith = .error e) : e.isMissing = false := by
  cases x with
  | int n => simp [PyNum.arith] at h
  | num x => cases x <;> simp [PyNum.arith] at h; subst h; rfl

theorem scalar_err {x : Val} {e : Err} (h : x.scalar = .error e) : e.isMissing = false := by
  cases x <;> simp [Val.scalar] at h <;> (subst h; rfl)

theorem pAdd_err {x y : PyNum} {e : Err} (h : pAdd x y = .error e) : e.isMissing = false := by
  unfold pAdd at h
  split at h
  · cases h
  · simp only [bind_error, pure, Except.pure, reduceCtorEq, and_false, exists_false, or_false] at h
    rcases h with h | ⟨_, _, h⟩ <;> exact arith_err h

theorem pSub_err {x y : PyNum} {e : Err} (h : pSub x y = .error e) : e.isMissing = false := by
  unfold pSub at h
  split at h
  · cases h
  · simp only [bind_error, pure, Except.pure, reduceCtorEq, and_false, exists_false, or_false] at h
    rcases h with h | ⟨_, _, h⟩ <;> exact arith_err h

theorem pMul_err {x y : PyNum} {e : Err} (h : pMul x y = .error e) : e.isMissing = false := by
  unfold pMul at h
  split at h
  · cases h
  · simp only [bind_error, pure, Except.pure, reduceCtorEq, and_false, exists_false, or_false] at h
    rcases h with h | ⟨_, _, h⟩ <;> exact arith_err h

theorem pNeg_err {x : PyNum} {e : Err} (h : pNeg x = .error e) : e.isMissing = false := by
  unfold pNeg at h
  split at h
  · cases h
  · simp only [bind_error, pure, Except.pure, reduceCtorEq, and_false, exists_false, or_false] at h
    exact arith_err h

theorem pDiv_err {c : Bool} {x y : PyNum} {e : Err} (h : pDiv c x y = .error e) : e.isMissing = false := by
  unfold pDiv at h
  split at h
  · split at h
    · cases h; rfl
    · split at h
      · cases h
      · split at h
        · cases h; rfl
        · cases h
  · simp only [bind_error] at h
    rcases h with h | ⟨_, _, h | ⟨_, _, h⟩⟩
    · exact arith_err h
    · exact arith_err h
    · split at h
      · cases h; rfl
      · cases h

theorem pMod_err {x y : PyNum} {e : Err} (h : pMod x y = .error e) : e.isMissing = false := by
  unfold pMod at h
  split at h
  · split at h
    · cases h; rfl
    · cases h
  · simp only [bind_error] at h
    rcases h with h | ⟨_, _, h | ⟨_, _, h⟩⟩
    · exact arith_err h
    · exact arith_err h
    · split at h
      · cases h; rfl
      · cases h

theorem linMul_err {v1 v2 : Lin} {e : Err} (h : linMul v1 v2 = .error e) : e.isMissing = false := by
  unfold linMul at h
  split at h
  · cases h; rfl
  · split at h <;>
    · simp only [bind_error, pure, Except.pure, reduceCtorEq, and_false, exists_false, or_false] at h
      rcases h with h | ⟨_, _, h | ⟨_, _, h | ⟨_, _, h⟩⟩⟩
      · exact scalar_err h
      · exact scalar_err h
      · exact pMul_err h
      · exact pMul_err h

theorem linDiv_err {c : Bool} {v1 v2 : Lin} {e : Err} (h : linDiv c v1 v2 = .error e) : e.isMissing = false := by
  unfold linDiv at h
  split at h
  · cases h; rfl
  · simp only [bind_error, pure, Except.pure, reduceCtorEq, and_false, exists_false, or_false] at h
    rcases h with h | ⟨_, _, h | ⟨_, _, h | ⟨_, _, h⟩⟩⟩
    · exact scalar_err h
    · exact scalar_err h
    · exact pDiv_err h
    · exact pDiv_err h

theorem linMod_err {v1 v2 : Lin} {e : Err} (h : linMod v1 v2 = .error e) : e.isMissing = false := by
  unfold linMod at h
  split at h
  · cases h; rfl
  · simp only [bind_error, pure, Except.pure, reduceCtorEq, and_false, exists_false, or_false] at h
    rcases h with h | ⟨_, _, h | ⟨_, _, h⟩⟩
    · exact scalar_err h
    · exact scalar_err h
    · exact pMod_err h

theorem linAddSub_err {op : PyNum → PyNum → Res PyNum} (hop : ∀ x y e, op x y = .error e → e.isMissing = false)
    {v1 v2 : Lin} {e : Err} (h : linAddSub op v1 v2 = .error e) : e.isMissing = false := by
  unfold linAddSub at h
  split at h
  · cases h; rfl
  · simp only [bind_error, pure, Except.pure, reduceCtorEq, and_false, exists_false, or_false] at h
    rcases h with h | ⟨_, _, h | ⟨_, _, h | ⟨_, _, h⟩⟩⟩
    · exact scalar_err h
    · exact scalar_err h
    · exact hop _ _ _ h
    · exact hop _ _ _ h

theorem linNeg_err {v : Lin} {e : Err} (h : linNeg v = .error e) : e.isMissing = false := by
  unfold linNeg at h
  simp only [bind_error, pure, Except.pure, reduceCtorEq, and_false, exists_false, or_false] at h
  rcases h with h | ⟨_, _, h | ⟨_, _, h⟩⟩
  · exact scalar_err h
  · exact pNeg_err h
  · exact pNeg_err h

theorem evalVar_cases {env : Env} {o : EvalOpts} {rec : Expr → Res Lin} {r : VarRef} {v : Lin}
    (h : evalVar env o rec r = .ok v) :
    (∃ e, getVarval env o.lookUp r = .ok (.abb e) ∧ rec e = .ok v) ∨
    (∃ w, getVarval env o.lookUp r = .ok w ∧ (∀ e, w ≠ .abb e) ∧ v = ⟨w, .int 0, none⟩) ∨
    (o.acceptMissing = true ∧ v = ⟨.num (.int 0), .int 1, some r⟩ ∧
      ((∃ e, getVarval env o.lookUp r = .error e ∧ e.isMissing = true) ∨
       ∃ e e', getVarval env o.lookUp r = .ok (.abb e) ∧ rec e = .error e' ∧ e'.isMissing = true)) := by
  unfold evalVar at h
  dsimp only at h
  have hm : ∀ (b : Bool) (e : Err), (if b then (Except.ok ⟨.num (.int 0), .int 1, some r⟩ : Res Lin) else .error e)
      = .ok v → b = true ∧ v = ⟨.num (.int 0), .int 1, some r⟩ := by
    intro b e he
    cases b <;> simp at he
    exact ⟨rfl, he.symm⟩
  split at h
  · rename_i e hg
    split at h
    · rename_i w hr; cases h; exact .inl ⟨e, hg, hr⟩
    · rename_i hr; obtain ⟨h1, h2⟩ := hm _ _ h
      exact .inr (.inr ⟨h1, h2, .inr ⟨e, _, hg, hr, rfl⟩⟩)
    · rename_i hr; obtain ⟨h1, h2⟩ := hm _ _ h
      exact .inr (.inr ⟨h1, h2, .inr ⟨e, _, hg, hr, rfl⟩⟩)
    · cases h
  · rename_i w hne hg
    cases h
    exact .inr (.inl ⟨w, hg, fun e he => hne e he, rfl⟩)
  · rename_i hg; obtain ⟨h1, h2⟩ := hm _ _ h
    exact .inr (.inr ⟨h1, h2, .inl ⟨_, hg, rfl⟩⟩)
  · rename_i hg; obtain ⟨h1, h2⟩ := hm _ _ h
    exact .inr (.inr ⟨h1, h2, .inl ⟨_, hg, rfl⟩⟩)
  · cases h

theorem evalVar_err {env : Env} {o : EvalOpts} {rec : Expr → Res Lin} {r : VarRef} {e : Err}
    (ha : o.acceptMissing = true) (h : evalVar env o rec r = .error e) : e.isMissing = false := by
  unfold evalVar at h
  simp only [ha, if_true] at h
  split at h
  · split at h
    · cases h
    · cases h
    · cases h
    · rename_i h1 h2 _
      cases h
      cases e <;> first | rfl | exact absurd rfl h1 | exact absurd rfl h2
  · cases h
  · cases h
  · cases h
  · rename_i h1 h2 _
    cases h
    cases e <;> first | rfl | exact absurd rfl h1 | exact absurd rfl h2

theorem evalWith_err {env : Env} {o : EvalOpts} {rec : Expr → Res Lin} (ha : o.acceptMissing = true) {e : Expr} {x : Err}
    (h : evalWith env o rec e = .error x) : x.isMissing = false := by
  induction e generalizing x with
  | num v => simp [evalWith] at h
  | desired v => simp [evalWith] at h
  | var r => exact evalVar_err ha h
  | incons r => exact evalVar_err ha h
  | neg e ih =>
    simp only [evalWith, bind_error] at h
    rcases h with h | ⟨_, _, h⟩
    · exact ih h
    · exact linNeg_err h
  | add a b i1 i2 =>
    simp only [evalWith, bind_error] at h
    rcases h with h | ⟨_, _, h | ⟨_, _, h⟩⟩
    · exact i1 h
    · exact i2 h
    · exact linAddSub_err (fun _ _ _ => pAdd_err) h
  | sub a b i1 i2 =>
    simp only [evalWith, bind_error] at h
    rcases h with h | ⟨_, _, h | ⟨_, _, h⟩⟩
    · exact i1 h
    · exact i2 h
    · exact linAddSub_err (fun _ _ _ => pSub_err) h
  | mul a b i1 i2 =>
    simp only [evalWith, bind_error] at h
    rcases h with h | ⟨_, _, h | ⟨_, _, h⟩⟩
    · exact i1 h
    · exact i2 h
    · exact linMul_err h
  | div a b i1 i2 =>
    simp only [evalWith, bind_error] at h
    rcases h with h | ⟨_, _, h | ⟨_, _, h⟩⟩
    · exact i1 h
    · exact i2 h
    · exact linDiv_err h
  | mod a b i1 i2 =>
    simp only [evalWith, bind_error] at h
    rcases h with h | ⟨_, _, h | ⟨_, _, h⟩⟩
    · exact i1 h
    · exact i2 h
    · exact linMod_err h

/-- what is shown about a result of the evaluator -/
structure Sound (B : VarRef → Binding) (e : Expr) (v : Lin) : Prop where
  means : ∀ c, v.c = .num c → ∀ ρ, Means B ρ e (v.at c ρ)
  unk : v.k.val ≠ 0 → v.x ≠ none
  scal : v.x ≠ none → ∃ c, v.c = .num c

theorem Lin.at_of_not_unk {v : Lin} {c : PyNum} {ρ : VarRef → ℚ} (h : v.unk = false) : v.at c ρ = c.val := by
  simp only [Lin.unk, ne_eq, decide_eq_false_iff_not, not_not] at h
  simp [Lin.at, h]

theorem evalWith_sound {env : Env} {o : EvalOpts} {rec : Expr → Res Lin}
    (hrec : ∀ e v, rec e = .ok v → Sound (bindOf env o.lookUp) e v)
    (hmiss : o.acceptMissing = true → ∀ e x, rec e = .error x → x.isMissing = false)
    {e : Expr} {v : Lin} (h : evalWith env o rec e = .ok v) : Sound (bindOf env o.lookUp) e v := by
  have hvar : ∀ (r : VarRef) (v : Lin), evalVar env o rec r = .ok v → Sound (bindOf env o.lookUp) (.var r) v := by
    intro r v h
    rcases evalVar_cases h with ⟨e, hg, hr⟩ | ⟨w, hg, hw, rfl⟩ | ⟨ha, rfl, h2 | ⟨e, e', hg, hr, hm⟩⟩
    · have hs := hrec _ _ hr
      refine ⟨fun c hc ρ => .varExpr (by simp [bindOf, hg]) (hs.means c hc ρ), hs.unk, hs.scal⟩
    · refine ⟨fun c hc ρ => ?_, ?_, ?_⟩
      · simp only at hc; subst hc
        simp only [Lin.at, mul_zero, add_zero]
        exact .varValue (by simp [bindOf, hg])
      · intro h; simp [PyNum.val] at h
      · intro h; simp at h
    · obtain ⟨e, hg, hm⟩ := h2
      refine ⟨fun c hc ρ => ?_, ?_, ?_⟩
      · simp only [Val.num.injEq] at hc; subst hc
        simp only [Lin.at, PyNum.val, Int.cast_zero, Int.cast_one, one_mul, zero_add]
        refine .varUnknown ?_
        unfold bindOf; rw [hg]
        cases e <;> first | rfl | simp [Err.isMissing] at hm
      · intro _; simp
      · intro _; exact ⟨_, rfl⟩
    · rw [hmiss ha _ _ hr] at hm; cases hm
  induction e generalizing v with
  | num x =>
    simp only [evalWith, Except.ok.injEq] at h; subst h
    refine ⟨fun c hc ρ => ?_, ?_, ?_⟩
    · simp only [Val.num.injEq] at hc; subst hc
      simp only [Lin.at, mul_zero, add_zero]; exact .num _
    · intro h; simp [PyNum.val] at h
    · intro h; simp at h
  | desired x =>
    simp only [evalWith, Except.ok.injEq] at h; subst h
    refine ⟨fun c hc ρ => ?_, ?_, ?_⟩
    · simp only [Val.num.injEq] at hc; subst hc
      simp only [Lin.at, mul_zero, add_zero]; exact .desired _
    · intro h; simp [PyNum.val] at h
    · intro h; simp at h
  | var r => exact hvar r v h
  | incons r =>
    have hs := hvar r v h
    exact ⟨fun c hc ρ => .incons (hs.means c hc ρ), hs.unk, hs.scal⟩
  | neg e ih =>
    simp only [evalWith, bind_ok] at h
    obtain ⟨v1, h1, h⟩ := h
    unfold linNeg at h
    simp only [bind_ok, pure_ok] at h
    obtain ⟨a, ha, c', hc', k', hk', rfl⟩ := h
    have hs := ih h1
    refine ⟨fun c hc ρ => ?_, ?_, fun _ => ⟨_, rfl⟩⟩
    · simp only [Val.num.injEq] at hc; subst hc
      have := (hs.means a (scalar_ok ha) ρ).neg
      have e : -v1.at a ρ = Lin.at ⟨.num c', k', v1.x⟩ c' ρ := by
        simp only [Lin.at, pNeg_val hc', pNeg_val hk']; ring
      rwa [e] at this
    · simp only [pNeg_val hk', ne_eq, neg_eq_zero]; exact hs.unk
  | add a b i1 i2 =>
    simp only [evalWith, bind_ok] at h
    obtain ⟨v1, h1, v2, h2, h⟩ := h
    unfold linAddSub at h
    split at h
    · cases h
    · rename_i hu
      simp only [bind_ok, pure_ok] at h
      obtain ⟨a1, ha1, a2, ha2, c', hc', k', hk', rfl⟩ := h
      have s1 := i1 h1
      have s2 := i2 h2
      refine ⟨fun c hc ρ => ?_, ?_, fun _ => ⟨_, rfl⟩⟩
      · simp only [Val.num.injEq] at hc; subst hc
        have := (s1.means a1 (scalar_ok ha1) ρ).add (s2.means a2 (scalar_ok ha2) ρ)
        convert this using 1
        by_cases u1 : v1.unk = true
        · have u2 : v2.unk = false := by simpa [u1] using hu
          rw [Lin.at_of_not_unk u2]
          have hk2 : v2.k.val = 0 := by simpa [Lin.unk] using u2
          simp only [Lin.at, u1, if_true, pAdd_val hc', pAdd_val hk', hk2]; ring
        · have u1' : v1.unk = false := by simpa using u1
          rw [Lin.at_of_not_unk u1']
          have hk1 : v1.k.val = 0 := by simpa [Lin.unk] using u1'
          simp only [Lin.at, u1', pAdd_val hc', pAdd_val hk', hk1]; simp; ring
      · simp only [pAdd_val hk']
        intro hne
        by_cases u1 : v1.unk = true
        · rw [if_pos u1]; exact s1.unk (by simpa [Lin.unk] using u1)
        · rw [if_neg u1]
          have hk1 : v1.k.val = 0 := by simpa [Lin.unk] using u1
          exact s2.unk (by rw [hk1, zero_add] at hne; exact hne)
  | sub a b i1 i2 =>
    simp only [evalWith, bind_ok] at h
    obtain ⟨v1, h1, v2, h2, h⟩ := h
    unfold linAddSub at h
    split at h
    · cases h
    · rename_i hu
      simp only [bind_ok, pure_ok] at h
      obtain ⟨a1, ha1, a2, ha2, c', hc', k', hk', rfl⟩ := h
      have s1 := i1 h1
      have s2 := i2 h2
      refine ⟨fun c hc ρ => ?_, ?_, fun _ => ⟨_, rfl⟩⟩
      · simp only [Val.num.injEq] at hc; subst hc
        have := (s1.means a1 (scalar_ok ha1) ρ).sub (s2.means a2 (scalar_ok ha2) ρ)
        convert this using 1
        by_cases u1 : v1.unk = true
        · have u2 : v2.unk = false := by simpa [u1] using hu
          rw [Lin.at_of_not_unk u2]
          have hk2 : v2.k.val = 0 := by simpa [Lin.unk] using u2
          simp only [Lin.at, u1, if_true, pSub_val hc', pSub_val hk', hk2]; ring
        · have u1' : v1.unk = false := by simpa using u1
          rw [Lin.at_of_not_unk u1']
          have hk1 : v1.k.val = 0 := by simpa [Lin.unk] using u1'
          simp only [Lin.at, u1', pSub_val hc', pSub_val hk', hk1]; simp; ring
      · simp only [pSub_val hk']
        intro hne
        by_cases u1 : v1.unk = true
        · rw [if_pos u1]; exact s1.unk (by simpa [Lin.unk] using u1)
        · rw [if_neg u1]
          have hk1 : v1.k.val = 0 := by simpa [Lin.unk] using u1
          exact s2.unk (by rw [hk1, zero_sub, ne_eq, neg_eq_zero] at hne; exact hne)
  | mul a b i1 i2 =>
    simp only [evalWith, bind_ok] at h
    obtain ⟨v1, h1, v2, h2, h⟩ := h
    have s1 := i1 h1
    have s2 := i2 h2
    unfold linMul at h
    split at h
    · cases h
    · rename_i hu
      split at h
      · rename_i u1
        have u1' : v1.unk = false := by simpa using u1
        simp only [bind_ok, pure_ok] at h
        obtain ⟨a1, ha1, a2, ha2, c', hc', k', hk', rfl⟩ := h
        refine ⟨fun c hc ρ => ?_, ?_, fun _ => ⟨_, rfl⟩⟩
        · simp only [Val.num.injEq] at hc; subst hc
          have := (s1.means a1 (scalar_ok ha1) ρ).mul (s2.means a2 (scalar_ok ha2) ρ)
          convert this using 1
          rw [Lin.at_of_not_unk u1']
          simp only [Lin.at, pMul_val hc', pMul_val hk']; ring
        · simp only [pMul_val hk']
          intro hne
          exact s2.unk (right_ne_zero_of_mul hne)
      · rename_i u1
        have u1' : v1.unk = true := by simpa using u1
        have u2 : v2.unk = false := by simpa [u1'] using hu
        simp only [bind_ok, pure_ok] at h
        obtain ⟨a1, ha1, a2, ha2, c', hc', k', hk', rfl⟩ := h
        refine ⟨fun c hc ρ => ?_, ?_, fun _ => ⟨_, rfl⟩⟩
        · simp only [Val.num.injEq] at hc; subst hc
          have := (s1.means a1 (scalar_ok ha1) ρ).mul (s2.means a2 (scalar_ok ha2) ρ)
          convert this using 1
          rw [Lin.at_of_not_unk u2]
          simp only [Lin.at, pMul_val hc', pMul_val hk']; ring
        · simp only [pMul_val hk']
          intro hne
          exact s1.unk (left_ne_zero_of_mul hne)
  | div a b i1 i2 =>
    simp only [evalWith, bind_ok] at h
    obtain ⟨v1, h1, v2, h2, h⟩ := h
    have s1 := i1 h1
    have s2 := i2 h2
    unfold linDiv at h
    split at h
    · cases h
    · rename_i hu
      have u2 : v2.unk = false := by simpa using hu
      simp only [bind_ok, pure_ok] at h
      obtain ⟨a1, ha1, a2, ha2, c', hc', k', hk', rfl⟩ := h
      refine ⟨fun c hc ρ => ?_, ?_, fun _ => ⟨_, rfl⟩⟩
      · simp only [Val.num.injEq] at hc; subst hc
        have h0 := (pDiv_val hc').1
        have m2 := s2.means a2 (scalar_ok ha2) ρ
        rw [Lin.at_of_not_unk u2] at m2
        have := (s1.means a1 (scalar_ok ha1) ρ).div m2 h0
        convert this using 1
        simp only [Lin.at, (pDiv_val hc').2, (pDiv_val hk').2]; ring
      · simp only [(pDiv_val hk').2]
        intro hne
        exact s1.unk (fun h => hne (by rw [h, zero_div]))
  | mod a b i1 i2 =>
    simp only [evalWith, bind_ok] at h
    obtain ⟨v1, h1, v2, h2, h⟩ := h
    have s1 := i1 h1
    have s2 := i2 h2
    unfold linMod at h
    split at h
    · cases h
    · rename_i hu
      have u1 : v1.unk = false := by cases h' : v1.unk <;> simp [h'] at hu ⊢
      have u2 : v2.unk = false := by cases h' : v2.unk <;> simp [h'] at hu ⊢
      simp only [bind_ok, pure_ok] at h
      obtain ⟨a1, ha1, a2, ha2, c', hc', rfl⟩ := h
      refine ⟨fun c hc ρ => ?_, ?_, fun h => by simp at h⟩
      · simp only [Val.num.injEq] at hc; subst hc
        have m1 := s1.means a1 (scalar_ok ha1) ρ
        have m2 := s2.means a2 (scalar_ok ha2) ρ
        rw [Lin.at_of_not_unk u1] at m1
        rw [Lin.at_of_not_unk u2] at m2
        have := m1.mod m2 (pMod_val hc').1
        convert this using 1
        simp only [Lin.at, (pMod_val hc').2]; ring
      · intro h; simp [PyNum.val] at h

theorem evalExpr_err (fuel : Nat) {env : Env} {o : EvalOpts} (ha : o.acceptMissing = true) {e : Expr} {x : Err}
    (h : evalExpr fuel env o e = .error x) : x.isMissing = false := by
  cases fuel <;> exact evalWith_err ha h

theorem evalExpr_sound (fuel : Nat) {env : Env} {o : EvalOpts} {e : Expr} {v : Lin}
    (h : evalExpr fuel env o e = .ok v) : Sound (bindOf env o.lookUp) e v := by
  induction fuel generalizing e v with
  | zero =>
    refine evalWith_sound (rec := fun _ => .error .recursion) ?_ ?_ h
    · intro _ _ h; cases h
    · intro _ _ _ h; cases h; rfl
  | succ n ih =>
    refine evalWith_sound (rec := evalExpr n env o) ?_ ?_ h
    · intro _ _ h; exact ih h
    · intro ha _ _ h; exact evalExpr_err n ha h

/-- without acceptance of missing variables no unknown is returned -/
theorem evalWith_known {env : Env} {o : EvalOpts} {rec : Expr → Res Lin} (ha : o.acceptMissing = false)
    (hrec : ∀ e v, rec e = .ok v → v.x = none) {e : Expr} {v : Lin} (h : evalWith env o rec e = .ok v) : v.x = none := by
  have hvar : ∀ r v, evalVar env o rec r = .ok v → v.x = none := by
    intro r v h
    rcases evalVar_cases h with ⟨e, _, hr⟩ | ⟨w, _, _, rfl⟩ | ⟨ha', -⟩
    · exact hrec _ _ hr
    · rfl
    · rw [ha] at ha'; cases ha'
  induction e generalizing v with
  | num x => simp only [evalWith, Except.ok.injEq] at h; subst h; rfl
  | desired x => simp only [evalWith, Except.ok.injEq] at h; subst h; rfl
  | var r => exact hvar r v h
  | incons r => exact hvar r v h
  | neg e ih =>
    simp only [evalWith, bind_ok] at h
    obtain ⟨v1, h1, h⟩ := h
    unfold linNeg at h
    simp only [bind_ok, pure_ok] at h
    obtain ⟨_, _, _, _, _, _, rfl⟩ := h
    have hx := ih h1; exact hx
  | add a b i1 i2 =>
    simp only [evalWith, bind_ok] at h
    obtain ⟨v1, h1, v2, h2, h⟩ := h
    unfold linAddSub at h
    split at h
    · cases h
    · simp only [bind_ok, pure_ok] at h
      obtain ⟨_, _, _, _, _, _, _, _, rfl⟩ := h
      dsimp only
      split
      · have hx := i1 h1; exact hx
      · exact i2 h2
  | sub a b i1 i2 =>
    simp only [evalWith, bind_ok] at h
    obtain ⟨v1, h1, v2, h2, h⟩ := h
    unfold linAddSub at h
    split at h
    · cases h
    · simp only [bind_ok, pure_ok] at h
      obtain ⟨_, _, _, _, _, _, _, _, rfl⟩ := h
      dsimp only
      split
      · have hx := i1 h1; exact hx
      · exact i2 h2
  | mul a b i1 i2 =>
    simp only [evalWith, bind_ok] at h
    obtain ⟨v1, h1, v2, h2, h⟩ := h
    unfold linMul at h
    split at h
    · cases h
    · split at h
      · simp only [bind_ok, pure_ok] at h
        obtain ⟨_, _, _, _, _, _, _, _, rfl⟩ := h
        have hx := i2 h2; exact hx
      · simp only [bind_ok, pure_ok] at h
        obtain ⟨_, _, _, _, _, _, _, _, rfl⟩ := h
        have hx := i1 h1; exact hx
  | div a b i1 i2 =>
    simp only [evalWith, bind_ok] at h
    obtain ⟨v1, h1, v2, h2, h⟩ := h
    unfold linDiv at h
    split at h
    · cases h
    · simp only [bind_ok, pure_ok] at h
      obtain ⟨_, _, _, _, _, _, _, _, rfl⟩ := h
      have hx := i1 h1; exact hx
  | mod a b i1 i2 =>
    simp only [evalWith, bind_ok] at h
    obtain ⟨v1, h1, v2, h2, h⟩ := h
    unfold linMod at h
    split at h
    · cases h
    · simp only [bind_ok, pure_ok] at h
      obtain ⟨_, _, _, _, _, _, rfl⟩ := h
      rfl

theorem evalExpr_known (fuel : Nat) {env : Env} {o : EvalOpts} (ha : o.acceptMissing = false) {e : Expr} {v : Lin}
    (h : evalExpr fuel env o e = .ok v) : v.x = none := by
  induction fuel generalizing e v with
  | zero => exact evalWith_known (rec := fun _ => .error .recursion) ha (fun _ _ h => by cases h) h
  | succ n ih => exact evalWith_known (rec := evalExpr n env o) ha (fun _ _ h => ih h) h

end Verif
