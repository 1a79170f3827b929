import Verif.Lemmas.Assign
import Verif.Spec.Same
/-
Evaluation of one expression in two environments that agree on its variables.
-/
namespace Verif
open Spec

/-- what must hold for two values found at the same place -/
def LeafRel : Val → Val → Prop
  | .num x, v' => ∃ y, v' = .num y ∧ x.val = y.val
  | .lst l, v' => ∃ m, v' = .lst m ∧ l.map PyNum.val = m.map PyNum.val
  | .txt s, v' => v' = .txt s
  | .abb e, v' => v' = .abb e
  | _, v' => (∀ u, ¬ SameVal v' u) ∧ ∀ e, v' ≠ .abb e

/-- how the results of the two evaluations are related -/
inductive Agree (l : Bool) (env' : Env) (ρ : VarRef → ℚ) (v v' : Lin) : Prop
  | num (c c' : PyNum) : v.c = .num c → v'.c = .num c' → c'.val = v.at c ρ → v'.k.val = 0 →
      (∀ r, v.x = some r → ∃ u, getVarval env' l r = .ok (.num u)) → Agree l env' ρ v v'
  | data : v.x = none → (∀ c, v.c ≠ .num c) → SameVal v.c v'.c → Agree l env' ρ v v'
  | unknown (r : VarRef) (u : Val) : v = ⟨.num (.int 0), .int 1, some r⟩ → getVarval env' l r = .ok u → v'.c = u →
      (∀ x, u ≠ .num x) → Agree l env' ρ v v'
  | other : (∀ c, v.c ≠ .num c) → (∀ m, v.c ≠ .lst m) → (∀ s, v.c ≠ .txt s) → (∀ u, ¬ SameVal v'.c u) →
      Agree l env' ρ v v'

theorem Agree.scalar {l : Bool} {env' : Env} {ρ : VarRef → ℚ} {v v' : Lin} (h : Agree l env' ρ v v') {a b : PyNum}
    (ha : v.c = .num a) (hb : v'.c = .num b) :
    b.val = v.at a ρ ∧ v'.k.val = 0 ∧ ∀ r, v.x = some r → ∃ u, getVarval env' l r = .ok (.num u) := by
  cases h with
  | num c c' h1 h2 h3 h4 h5 =>
    rw [ha] at h1; rw [hb] at h2; cases h1; cases h2; exact ⟨h3, h4, h5⟩
  | data _ h1 _ => exact absurd ha (h1 _)
  | unknown r u _ _ h3 h4 => rw [hb] at h3; exact absurd h3.symm (h4 _)
  | other h1 _ _ _ => exact absurd ha (h1 _)

set_option maxHeartbeats 400000 in
/-- Two successful evaluations, the second in an environment with more variables and without unknowns: the second
gives the value of the first at the new values of the unknowns. -/
theorem evalWith_agree {env env' : Env} {o o' : EvalOpts} {rec rec' : Expr → Res Lin} {ρ : VarRef → ℚ}
    {P : VarRef → Prop}
    (hl : o'.lookUp = o.lookUp) (ha' : o'.acceptMissing = false)
    (H1 : ∀ r v v', P r → getVarval env o.lookUp r = .ok v → getVarval env' o.lookUp r = .ok v' → LeafRel v v')
    (H2 : o.acceptMissing = true → ∀ r err u, P r → getVarval env o.lookUp r = .error err → err.isMissing = true →
      getVarval env' o.lookUp r = .ok (.num u) → ρ r = u.val)
    (H3 : o.acceptMissing = true → ∀ r err e, P r → getVarval env o.lookUp r = .error err → err.isMissing = true →
      getVarval env' o.lookUp r ≠ .ok (.abb e))
    (hmiss : o.acceptMissing = true → ∀ e x, rec e = .error x → x.isMissing = false)
    (hrec : ∀ e v v', (∀ r, Occ (bindOf env o.lookUp) r e → P r) → rec e = .ok v → rec' e = .ok v' →
      Agree o.lookUp env' ρ v v')
    (e : Expr) (hP : ∀ r, Occ (bindOf env o.lookUp) r e → P r) {v v' : Lin}
    (h : evalWith env o rec e = .ok v) (h' : evalWith env' o' rec' e = .ok v') : Agree o.lookUp env' ρ v v' := by
  have z0 : (PyNum.int 0).val = 0 := by simp [PyNum.val]
  have hvar : ∀ (r : VarRef) (e : Expr), r ∈ e.refs → (∀ r, Occ (bindOf env o.lookUp) r e → P r) → ∀ (v v' : Lin),
      evalVar env o rec r = .ok v → evalVar env' o' rec' r = .ok v' → Agree o.lookUp env' ρ v v' := by
    intro r e0 hre hP v v' h h'
    have hPr : P r := hP r (.direct hre)
    have h2 := evalVar_cases h'
    rw [hl] at h2
    rcases evalVar_cases h with ⟨e, hg, hr⟩ | ⟨u, hg, hu, rfl⟩ | ⟨ha, rfl, ⟨err, hg, hm⟩ | ⟨e, e', hg, hr, hm⟩⟩
    · rcases h2 with ⟨e2, hg2, hr2⟩ | ⟨u2, hg2, hu2, rfl⟩ | ⟨ha2, -⟩
      · have := H1 _ _ _ hPr hg hg2
        simp only [LeafRel, Val.abb.injEq] at this; subst this
        exact hrec _ _ _ (fun r' ho => hP r' (.via hre (bindOf_abb hg) ho)) hr hr2
      · have := H1 _ _ _ hPr hg hg2
        exact absurd this (hu2 e)
      · rw [ha'] at ha2; cases ha2
    · rcases h2 with ⟨e2, hg2, hr2⟩ | ⟨u2, hg2, hu2, rfl⟩ | ⟨ha2, -⟩
      · have := H1 _ _ _ hPr hg hg2
        cases u with
        | num x => obtain ⟨y, hy, _⟩ := this; cases hy
        | lst x => obtain ⟨y, hy, _⟩ := this; cases hy
        | txt x => cases this
        | abb e => exact absurd rfl (hu e)
        | _ => exact absurd rfl (this.2 _)
      · have := H1 _ _ _ hPr hg hg2
        cases u with
        | num x =>
          obtain ⟨y, rfl, hy⟩ := this
          exact .num x y rfl rfl (by simp [Lin.at, hy]) z0 (by simp)
        | lst x =>
          obtain ⟨y, rfl, hy⟩ := this
          exact .data rfl (by simp) hy
        | txt x =>
          simp only [LeafRel] at this; subst this
          exact .data rfl (by simp) rfl
        | abb e => exact absurd rfl (hu e)
        | _ => exact .other (by simp) (by simp) (by simp) this.1
      · rw [ha'] at ha2; cases ha2
    · rcases h2 with ⟨e2, hg2, hr2⟩ | ⟨u2, hg2, hu2, rfl⟩ | ⟨ha2, -⟩
      · exact absurd hg2 (H3 ha _ _ _ hPr hg hm)
      · cases u2 with
        | num x =>
          refine .num _ x rfl rfl ?_ z0 (fun r' hr' => by cases hr'; exact ⟨x, hg2⟩)
          rw [Lin.at_some (r := r) rfl, H2 ha _ _ _ hPr hg hm hg2]
          simp [PyNum.val]
        | _ => exact .unknown r _ rfl hg2 rfl (by simp)
      · rw [ha'] at ha2; cases ha2
    · rw [hmiss ha _ _ hr] at hm; cases hm
  induction e generalizing v v' with
  | num x =>
    simp only [evalWith, Except.ok.injEq] at h h'; subst h; subst h'
    exact .num x x rfl rfl (by simp [Lin.at]) z0 (by simp)
  | desired x =>
    simp only [evalWith, Except.ok.injEq] at h h'; subst h; subst h'
    exact .num x x rfl rfl (by simp [Lin.at]) z0 (by simp)
  | var r => exact hvar r (.var r) (by simp [Expr.refs]) hP v v' h h'
  | incons r => exact hvar r (.incons r) (by simp [Expr.refs]) hP v v' h h'
  | neg e ih =>
    simp only [evalWith, bind_ok] at h h'
    obtain ⟨v1, h1, h⟩ := h
    obtain ⟨w1, g1, h'⟩ := h'
    unfold linNeg at h h'
    simp only [bind_ok, pure_ok] at h h'
    obtain ⟨a, ha, c1, hc1, k1, hk1, rfl⟩ := h
    obtain ⟨b, hb, d1, hd1, l1, hl1, rfl⟩ := h'
    obtain ⟨i1, i2, i3⟩ := (ih (fun r ho => hP r (ho.mono (fun _ h => h))) h1 g1).scalar (scalar_ok ha) (scalar_ok hb)
    refine .num _ _ rfl rfl ?_ (by simp only [pNeg_val hl1, i2, neg_zero]) i3
    simp only [Lin.at, pNeg_val hd1, pNeg_val hc1, pNeg_val hk1] at i1 ⊢
    rw [i1]; ring
  | add a b i1 i2 =>
    simp only [evalWith, bind_ok] at h h'
    obtain ⟨v1, h1, v2, h2, h⟩ := h
    obtain ⟨w1, g1, w2, g2, h'⟩ := h'
    unfold linAddSub at h h'
    split at h
    · cases h
    · rename_i hu
      split at h'
      · cases h'
      · simp only [bind_ok, pure_ok] at h h'
        obtain ⟨a1, ha1, a2, ha2, c1, hc1, k1, hk1, rfl⟩ := h
        obtain ⟨b1, hb1, b2, hb2, d1, hd1, l1, hl1, rfl⟩ := h'
        obtain ⟨e1, f1, x1⟩ := (i1 (fun r ho => hP r (ho.mono (fun _ h => List.mem_append_left _ h))) h1 g1).scalar (scalar_ok ha1) (scalar_ok hb1)
        obtain ⟨e2, f2, x2⟩ := (i2 (fun r ho => hP r (ho.mono (fun _ h => List.mem_append_right _ h))) h2 g2).scalar (scalar_ok ha2) (scalar_ok hb2)
        refine .num _ _ rfl rfl ?_ (by simp only [pAdd_val hl1, f1, f2, add_zero]) (by
          intro r hr; dsimp only at hr; split at hr
          · exact x1 r hr
          · exact x2 r hr)
        rw [pAdd_val hd1, e1, e2]
        by_cases u1 : v1.unk = true
        · have u2 : v2.unk = false := by simpa [u1] using hu
          rw [Lin.at_of_not_unk u2]
          have hk2 : v2.k.val = 0 := by simpa [Lin.unk] using u2
          simp only [Lin.at, u1, if_true, pAdd_val hc1, pAdd_val hk1, hk2]; ring
        · have u1' : v1.unk = false := by simpa using u1
          rw [Lin.at_of_not_unk u1']
          have hk1' : v1.k.val = 0 := by simpa [Lin.unk] using u1'
          simp only [Lin.at, u1', pAdd_val hc1, pAdd_val hk1, hk1']; simp; ring
  | sub a b i1 i2 =>
    simp only [evalWith, bind_ok] at h h'
    obtain ⟨v1, h1, v2, h2, h⟩ := h
    obtain ⟨w1, g1, w2, g2, h'⟩ := h'
    unfold linAddSub at h h'
    split at h
    · cases h
    · rename_i hu
      split at h'
      · cases h'
      · simp only [bind_ok, pure_ok] at h h'
        obtain ⟨a1, ha1, a2, ha2, c1, hc1, k1, hk1, rfl⟩ := h
        obtain ⟨b1, hb1, b2, hb2, d1, hd1, l1, hl1, rfl⟩ := h'
        obtain ⟨e1, f1, x1⟩ := (i1 (fun r ho => hP r (ho.mono (fun _ h => List.mem_append_left _ h))) h1 g1).scalar (scalar_ok ha1) (scalar_ok hb1)
        obtain ⟨e2, f2, x2⟩ := (i2 (fun r ho => hP r (ho.mono (fun _ h => List.mem_append_right _ h))) h2 g2).scalar (scalar_ok ha2) (scalar_ok hb2)
        refine .num _ _ rfl rfl ?_ (by simp only [pSub_val hl1, f1, f2, sub_zero]) (by
          intro r hr; dsimp only at hr; split at hr
          · exact x1 r hr
          · exact x2 r hr)
        rw [pSub_val hd1, e1, e2]
        by_cases u1 : v1.unk = true
        · have u2 : v2.unk = false := by simpa [u1] using hu
          rw [Lin.at_of_not_unk u2]
          have hk2 : v2.k.val = 0 := by simpa [Lin.unk] using u2
          simp only [Lin.at, u1, if_true, pSub_val hc1, pSub_val hk1, hk2]; ring
        · have u1' : v1.unk = false := by simpa using u1
          rw [Lin.at_of_not_unk u1']
          have hk1' : v1.k.val = 0 := by simpa [Lin.unk] using u1'
          simp only [Lin.at, u1', pSub_val hc1, pSub_val hk1, hk1']; simp; ring
  | mul a b i1 i2 =>
    simp only [evalWith, bind_ok] at h h'
    obtain ⟨v1, h1, v2, h2, h⟩ := h
    obtain ⟨w1, g1, w2, g2, h'⟩ := h'
    have key' : ∃ c' b1 b2, v'.c = .num c' ∧ w1.c = .num b1 ∧ w2.c = .num b2 ∧ pMul b1 b2 = .ok c' ∧
        (w1.k.val = 0 → w2.k.val = 0 → v'.k.val = 0) := by
      unfold linMul at h'
      split at h'
      · cases h'
      · split at h'
        · simp only [bind_ok, pure_ok] at h'
          obtain ⟨b1, hb1, b2, hb2, d1, hd1, l1, hl1, rfl⟩ := h'
          exact ⟨d1, b1, b2, rfl, scalar_ok hb1, scalar_ok hb2, hd1, fun _ h0 => by rw [pMul_val hl1, h0, mul_zero]⟩
        · simp only [bind_ok, pure_ok] at h'
          obtain ⟨b1, hb1, b2, hb2, d1, hd1, l1, hl1, rfl⟩ := h'
          exact ⟨d1, b1, b2, rfl, scalar_ok hb1, scalar_ok hb2, hd1, fun h0 _ => by rw [pMul_val hl1, h0, zero_mul]⟩
    obtain ⟨c', b1, b2, hcv, hb1, hb2, hd1, hk'⟩ := key'
    unfold linMul at h
    split at h
    · cases h
    · rename_i hu
      split at h
      · rename_i u1
        have u1' : v1.unk = false := by simpa using u1
        simp only [bind_ok, pure_ok] at h
        obtain ⟨a1, ha1, a2, ha2, c1, hc1, k1, hk1, rfl⟩ := h
        obtain ⟨e1, f1, x1⟩ := (i1 (fun r ho => hP r (ho.mono (fun _ h => List.mem_append_left _ h))) h1 g1).scalar (scalar_ok ha1) hb1
        obtain ⟨e2, f2, x2⟩ := (i2 (fun r ho => hP r (ho.mono (fun _ h => List.mem_append_right _ h))) h2 g2).scalar (scalar_ok ha2) hb2
        refine .num _ c' rfl hcv ?_ (hk' f1 f2) x2
        rw [pMul_val hd1, e1, e2, Lin.at_of_not_unk u1']
        simp only [Lin.at, pMul_val hc1, pMul_val hk1]; ring
      · rename_i u1
        have u1' : v1.unk = true := by simpa using u1
        have u2 : v2.unk = false := by simpa [u1'] using hu
        simp only [bind_ok, pure_ok] at h
        obtain ⟨a1, ha1, a2, ha2, c1, hc1, k1, hk1, rfl⟩ := h
        obtain ⟨e1, f1, x1⟩ := (i1 (fun r ho => hP r (ho.mono (fun _ h => List.mem_append_left _ h))) h1 g1).scalar (scalar_ok ha1) hb1
        obtain ⟨e2, f2, x2⟩ := (i2 (fun r ho => hP r (ho.mono (fun _ h => List.mem_append_right _ h))) h2 g2).scalar (scalar_ok ha2) hb2
        refine .num _ c' rfl hcv ?_ (hk' f1 f2) x1
        rw [pMul_val hd1, e1, e2, Lin.at_of_not_unk u2]
        simp only [Lin.at, pMul_val hc1, pMul_val hk1]; ring
  | div a b i1 i2 =>
    simp only [evalWith, bind_ok] at h h'
    obtain ⟨v1, h1, v2, h2, h⟩ := h
    obtain ⟨w1, g1, w2, g2, h'⟩ := h'
    unfold linDiv at h h'
    split at h
    · cases h
    · rename_i hu
      have u2 : v2.unk = false := by simpa using hu
      split at h'
      · cases h'
      · simp only [bind_ok, pure_ok] at h h'
        obtain ⟨a1, ha1, a2, ha2, c1, hc1, k1, hk1, rfl⟩ := h
        obtain ⟨b1, hb1, b2, hb2, d1, hd1, l1, hl1, rfl⟩ := h'
        obtain ⟨e1, f1, x1⟩ := (i1 (fun r ho => hP r (ho.mono (fun _ h => List.mem_append_left _ h))) h1 g1).scalar (scalar_ok ha1) (scalar_ok hb1)
        obtain ⟨e2, f2, x2⟩ := (i2 (fun r ho => hP r (ho.mono (fun _ h => List.mem_append_right _ h))) h2 g2).scalar (scalar_ok ha2) (scalar_ok hb2)
        refine .num _ _ rfl rfl ?_ (by simp only [(pDiv_val hl1).2, f1, zero_div]) x1
        rw [(pDiv_val hd1).2, e1, e2, Lin.at_of_not_unk u2]
        simp only [Lin.at, (pDiv_val hc1).2, (pDiv_val hk1).2]; ring
  | mod a b i1 i2 =>
    simp only [evalWith, bind_ok] at h h'
    obtain ⟨v1, h1, v2, h2, h⟩ := h
    obtain ⟨w1, g1, w2, g2, h'⟩ := h'
    unfold linMod at h h'
    split at h
    · cases h
    · rename_i hu
      have u1 : v1.unk = false := by cases h' : v1.unk <;> simp [h'] at hu ⊢
      have u2 : v2.unk = false := by cases h' : v2.unk <;> simp [h'] at hu ⊢
      split at h'
      · cases h'
      · simp only [bind_ok, pure_ok] at h h'
        obtain ⟨a1, ha1, a2, ha2, c1, hc1, rfl⟩ := h
        obtain ⟨b1, hb1, b2, hb2, d1, hd1, rfl⟩ := h'
        obtain ⟨e1, -, x1⟩ := (i1 (fun r ho => hP r (ho.mono (fun _ h => List.mem_append_left _ h))) h1 g1).scalar (scalar_ok ha1) (scalar_ok hb1)
        obtain ⟨e2, -, x2⟩ := (i2 (fun r ho => hP r (ho.mono (fun _ h => List.mem_append_right _ h))) h2 g2).scalar (scalar_ok ha2) (scalar_ok hb2)
        refine .num _ _ rfl rfl ?_ z0 (by simp)
        rw [(pMod_val hd1).2, e1, e2, Lin.at_of_not_unk u1, Lin.at_of_not_unk u2]
        simp only [Lin.at, (pMod_val hc1).2]; ring

theorem evalExpr_agree (fuel fuel' : Nat) {env env' : Env} {o o' : EvalOpts} {ρ : VarRef → ℚ}
    {P : VarRef → Prop}
    (hl : o'.lookUp = o.lookUp) (ha' : o'.acceptMissing = false)
    (H1 : ∀ r v v', P r → getVarval env o.lookUp r = .ok v → getVarval env' o.lookUp r = .ok v' → LeafRel v v')
    (H2 : o.acceptMissing = true → ∀ r err u, P r → getVarval env o.lookUp r = .error err → err.isMissing = true →
      getVarval env' o.lookUp r = .ok (.num u) → ρ r = u.val)
    (H3 : o.acceptMissing = true → ∀ r err e, P r → getVarval env o.lookUp r = .error err → err.isMissing = true →
      getVarval env' o.lookUp r ≠ .ok (.abb e))
    (e : Expr) (hP : ∀ r, Occ (bindOf env o.lookUp) r e → P r) {v v' : Lin}
    (h : evalExpr fuel env o e = .ok v) (h' : evalExpr fuel' env' o' e = .ok v') : Agree o.lookUp env' ρ v v' := by
  induction fuel generalizing fuel' e v v' with
  | zero =>
    have : ∀ rec', evalWith env' o' rec' e = .ok v' → Agree o.lookUp env' ρ v v' := by
      intro rec' h'
      refine evalWith_agree (rec := fun _ => .error .recursion) (rec' := rec') hl ha' H1 H2 H3 ?_ ?_ e hP h h'
      · intro _ _ _ h; cases h; rfl
      · intro _ _ _ _ h; cases h
    cases fuel' with
    | zero => exact this _ h'
    | succ n => exact this _ h'
  | succ n ih =>
    cases fuel' with
    | zero =>
      refine evalWith_agree (rec := evalExpr n env o) (rec' := fun _ => .error .recursion) hl ha' H1 H2 H3 ?_ ?_ e hP h h'
      · intro ha _ _ h; exact evalExpr_err n ha h
      · intro _ _ _ _ _ h; cases h
    | succ n' =>
      refine evalWith_agree (rec := evalExpr n env o) (rec' := evalExpr n' env' o') hl ha' H1 H2 H3 ?_ ?_ e hP h h'
      · intro ha _ _ h; exact evalExpr_err n ha h
      · intro e v v' hP h h'; exact ih n' e hP h h'

end Verif
