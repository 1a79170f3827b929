import Verif.Lemmas.CppEnv
import Verif.Spec.CppWriteOk

/-! The compiled writer: values of expressions, and the assignments behind the fields. -/

namespace Verif
open Spec

theorem cNum_num {v : Val} {z : PyNum} (h : cNum v = .ok z) : v = .num z := by
  cases v <;> simp only [cNum, CRes.ok.injEq, reduceCtorEq] at h; rw [h]

theorem evC_evR {s : FunSt} {e : Expr} : evC s e = evR (readRef s) e := by
  induction e with
  | num x | desired x => rfl
  | var r | incons r => rfl
  | neg a ih => simp only [evC, evR, ih]
  | add a b i1 i2 | sub a b i1 i2 | mul a b i1 i2 | div a b i1 i2 | mod a b i1 i2 => simp only [evC, evR, i1, i2]

theorem evR_reads {ρ : VarRef → CRes Val} {e : Expr} {y : PyNum} (h : evR ρ e = .ok y) : ∀ r ∈ e.vars, ∃ z, ρ r = .ok (.num z) := by
  induction e generalizing y with
  | num x => simp [Expr.vars]
  | desired x => simp [Expr.vars]
  | var r | incons r =>
    simp only [evR, cbind_ok'] at h
    obtain ⟨v, hv, h⟩ := h
    simp only [Expr.vars, List.mem_singleton, forall_eq]
    exact ⟨y, by rw [hv, cNum_num h]⟩
  | neg e ih =>
    simp only [evR, cbind_ok'] at h
    obtain ⟨a, ha, _⟩ := h
    exact ih ha
  | add a b i1 i2 | sub a b i1 i2 | mul a b i1 i2 | div a b i1 i2 | mod a b i1 i2 =>
    simp only [evR, cbind_ok'] at h
    obtain ⟨p, hp, q, hq, _⟩ := h
    simp only [Expr.vars, List.mem_append]
    rintro r (hr | hr)
    · exact i1 hp r hr
    · exact i2 hq r hr

theorem cMul_int {x y : PyNum} {m : Int} (h : cMul x y = .ok (.int m)) : ∃ a b, x = .int a ∧ y = .int b ∧ m = a * b := by
  unfold cMul cArith at h
  split at h
  · rename_i a b; have := cInt_ok h; cases this; exact ⟨a, b, rfl, rfl, rfl⟩
  · cases h

theorem oddMore_ev {ρ : VarRef → CRes Val} {a b : Expr} (h : oddMore a b = true) {m n : Int} (ha : evR ρ a = .ok (.int m))
    (hb : evR ρ b = .ok (.int n)) : (m * n) % 2 = 0 := by
  have key : ∀ k : Int, k % 2 = 1 → (n = m + k ∨ n = m - k) → (m * n) % 2 = 0 := by
    intro k hk hn
    rcases Int.emod_two_eq_zero_or_one m with hm | hm
    · rw [Int.mul_emod, hm]; simp
    · have : n % 2 = 0 := by omega
      rw [Int.mul_emod, this]; simp
  unfold oddMore at h
  split at h
  · rename_i c k
    simp only [decide_eq_true_eq] at h
    obtain ⟨rfl, hk⟩ := h
    simp only [evR, cbind_ok', ha, CRes.ok.injEq, exists_eq_left'] at hb
    obtain ⟨q, hq, hb⟩ := hb
    rw [cInt_ok hq] at hb
    unfold cAdd cArith at hb
    have := cInt_ok hb
    cases this
    exact key k hk (.inl rfl)
  · rename_i c k
    simp only [decide_eq_true_eq] at h
    obtain ⟨rfl, hk⟩ := h
    simp only [evR, cbind_ok', ha, CRes.ok.injEq, exists_eq_left'] at hb
    obtain ⟨q, hq, hb⟩ := hb
    rw [cInt_ok hq] at hb
    unfold cSub cArith at hb
    have := cInt_ok hb
    cases this
    exact key k hk (.inr rfl)
  · cases h

/-- the half of an even number -/
theorem half_val {ρ : VarRef → CRes Val} {a b : Expr} (hh : halfProd a b = true) {p q z : PyNum} (ha : evR ρ a = .ok p)
    (hb : evR ρ b = .ok q) (h : cDiv p q = .ok z) : q.val = 2 ∧ z.val = p.val / q.val ∧ (p.isInt → q.isInt → z.isInt) := by
  unfold halfProd at hh
  split at hh
  swap
  · cases hh
  rename_i a b k
  simp only [Bool.and_eq_true, Bool.or_eq_true, decide_eq_true_eq] at hh
  obtain ⟨rfl, hh⟩ := hh
  have := cInt_ok hb
  subst this
  refine ⟨by simp [PyNum.val], ?_⟩
  cases p with
  | num v => simp only [cDiv, cArith, PyNum.val] at h; cases h; exact ⟨by simp [PyNum.val, Num.val], fun h1 => h1.elim⟩
  | int m =>
    simp only [evR, cbind_ok'] at ha
    obtain ⟨x, hx, y, hy, ha⟩ := ha
    obtain ⟨m1, m2, rfl, rfl, rfl⟩ := cMul_int ha
    have hev : (m1 * m2) % 2 = 0 := by
      rcases hh with hh | hh
      · exact oddMore_ev hh hx hy
      · rw [Int.mul_comm]; exact oddMore_ev hh hy hx
    simp only [cDiv, cArith] at h
    rw [if_neg (by decide)] at h
    rw [cInt_ok h]
    refine ⟨?_, fun _ _ => trivial⟩
    obtain ⟨t, ht⟩ := Int.dvd_of_emod_eq_zero hev
    rw [ht, Int.mul_tdiv_cancel_left _ (by decide)]
    simp [PyNum.val]

/-- the same value in both parsers -/
theorem evR_py {ρ : VarRef → CRes Val} {env : Env} {o : EvalOpts} {rec : Expr → Res Lin} {e : Expr} (hd : noDiv e = true)
    (ho : o.acceptMissing = false)
    (hr : ∀ r ∈ e.vars, ∀ z v, ρ r = .ok (.num z) → getVarval env o.lookUp r = .ok v → ∃ u, v = .num u ∧ u.val = z.val)
    {z : PyNum} (h : evR ρ e = .ok z) {l : Lin} (h' : evalWith env o rec e = .ok l) : ∃ u, l.c = .num u ∧ u.val = z.val := by
  have hvar : ∀ r z, (∀ z v, ρ r = .ok (.num z) → getVarval env o.lookUp r = .ok v → ∃ u, v = .num u ∧ u.val = z.val) →
      ρ r = .ok (.num z) → ∀ l, evalVar env o rec r = .ok l → ∃ u, l.c = .num u ∧ u.val = z.val := by
    intro r z hr hz l hl
    rcases evalVar_cases hl with ⟨e, hg, _⟩ | ⟨w', hg, _, rfl⟩ | ⟨hf, _⟩
    · obtain ⟨u, hu, _⟩ := hr z _ hz hg; cases hu
    · obtain ⟨u, rfl, hu⟩ := hr z _ hz hg; exact ⟨u, rfl, hu⟩
    · rw [ho] at hf; cases hf
  have hlit : ∀ (x z : PyNum), (match x with | .int n => cInt n | .num v => dbl v.val) = .ok z → x.val = z.val := by
    intro x z h
    cases x with
    | int n => rw [cInt_ok h]
    | num v => simp only [dbl, CRes.ok.injEq] at h; subst h; rfl
  induction e generalizing z l with
  | num x =>
    simp only [evalWith, Except.ok.injEq] at h'; subst h'
    exact ⟨x, rfl, hlit x z h⟩
  | desired x =>
    simp only [evalWith, Except.ok.injEq] at h'; subst h'
    exact ⟨x, rfl, hlit x z h⟩
  | var r | incons r =>
    simp only [evR, cbind_ok'] at h
    obtain ⟨v, hv, h⟩ := h
    rw [cNum_num h] at hv
    exact hvar r z (hr r (by simp [Expr.vars])) hv l h'
  | neg e ih =>
    simp only [evR, cbind_ok'] at h
    obtain ⟨a, ha, h⟩ := h
    simp only [evalWith, bind_ok, linNeg, pure_ok] at h'
    obtain ⟨l1, h1, x, hx, y, hy, k, hk, rfl⟩ := h'
    obtain ⟨u, hu, hv⟩ := ih hd hr ha h1
    rw [hu] at hx
    simp only [Val.scalar, Except.ok.injEq] at hx; subst hx
    exact ⟨y, rfl, by rw [pNeg_val hy, (cNeg_val h).1, hv]⟩
  | add a b i1 i2 =>
    simp only [noDiv, Bool.and_eq_true] at hd
    simp only [Expr.vars, List.mem_append] at hr
    simp only [evR, cbind_ok'] at h
    obtain ⟨p, hp, q, hq, h⟩ := h
    simp only [evalWith, bind_ok] at h'
    obtain ⟨l1, h1, l2, h2, h'⟩ := h'
    obtain ⟨u1, e1, f1⟩ := i1 hd.1 (fun r hm => hr r (.inl hm)) hp h1
    obtain ⟨u2, e2, f2⟩ := i2 hd.2 (fun r hm => hr r (.inr hm)) hq h2
    unfold linAddSub at h'
    split at h'
    · cases h'
    simp only [bind_ok, pure_ok, e1, e2, Val.scalar, Except.ok.injEq] at h'
    obtain ⟨_, rfl, _, rfl, y, hy, k, hk, rfl⟩ := h'
    exact ⟨y, rfl, by rw [pAdd_val hy, (cAdd_val h).1, f1, f2]⟩
  | sub a b i1 i2 =>
    simp only [noDiv, Bool.and_eq_true] at hd
    simp only [Expr.vars, List.mem_append] at hr
    simp only [evR, cbind_ok'] at h
    obtain ⟨p, hp, q, hq, h⟩ := h
    simp only [evalWith, bind_ok] at h'
    obtain ⟨l1, h1, l2, h2, h'⟩ := h'
    obtain ⟨u1, e1, f1⟩ := i1 hd.1 (fun r hm => hr r (.inl hm)) hp h1
    obtain ⟨u2, e2, f2⟩ := i2 hd.2 (fun r hm => hr r (.inr hm)) hq h2
    unfold linAddSub at h'
    split at h'
    · cases h'
    simp only [bind_ok, pure_ok, e1, e2, Val.scalar, Except.ok.injEq] at h'
    obtain ⟨_, rfl, _, rfl, y, hy, k, hk, rfl⟩ := h'
    exact ⟨y, rfl, by rw [pSub_val hy, (cSub_val h).1, f1, f2]⟩
  | mul a b i1 i2 =>
    simp only [noDiv, Bool.and_eq_true] at hd
    simp only [Expr.vars, List.mem_append] at hr
    simp only [evR, cbind_ok'] at h
    obtain ⟨p, hp, q, hq, h⟩ := h
    simp only [evalWith, bind_ok] at h'
    obtain ⟨l1, h1, l2, h2, h'⟩ := h'
    obtain ⟨u1, e1, f1⟩ := i1 hd.1 (fun r hm => hr r (.inl hm)) hp h1
    obtain ⟨u2, e2, f2⟩ := i2 hd.2 (fun r hm => hr r (.inr hm)) hq h2
    unfold linMul at h'
    split at h'
    · cases h'
    split at h' <;> simp only [bind_ok, pure_ok, e1, e2, Val.scalar, Except.ok.injEq] at h' <;>
      obtain ⟨_, rfl, _, rfl, y, hy, k, hk, rfl⟩ := h' <;>
      exact ⟨y, rfl, by rw [pMul_val hy, (cMul_val h).1, f1, f2]⟩
  | div a b i1 i2 =>
    simp only [noDiv, Bool.and_eq_true] at hd
    simp only [Expr.vars, List.mem_append] at hr
    simp only [evR, cbind_ok'] at h
    obtain ⟨p, hp, q, hq, h⟩ := h
    simp only [evalWith, bind_ok] at h'
    obtain ⟨l1, h1, l2, h2, h'⟩ := h'
    obtain ⟨u1, e1, f1⟩ := i1 hd.1.1 (fun r hm => hr r (.inl hm)) hp h1
    obtain ⟨u2, e2, f2⟩ := i2 hd.1.2 (fun r hm => hr r (.inr hm)) hq h2
    unfold linDiv at h'
    split at h'
    · cases h'
    simp only [bind_ok, pure_ok, e1, e2, Val.scalar, Except.ok.injEq] at h'
    obtain ⟨_, rfl, _, rfl, y, hy, k, hk, rfl⟩ := h'
    exact ⟨y, rfl, by rw [(pDiv_val hy).2, (half_val hd.2 hp hq h).2.1, f1, f2]⟩
  | mod a b i1 i2 => simp [noDiv] at hd

/-- integers give integers -/
theorem evR_int {ρ : VarRef → CRes Val} {e : Expr} (hd : noDiv e = true) (hl : intLits e = true)
    (hr : ∀ r ∈ e.vars, ∀ z, ρ r = .ok (.num z) → z.isInt) {z : PyNum} (h : evR ρ e = .ok z) : z.isInt := by
  induction e generalizing z with
  | num x | desired x =>
    cases x with
    | int n => simp only [evR] at h; rw [cInt_ok h]; trivial
    | num v => simp [intLits] at hl
  | var r | incons r =>
    simp only [evR, cbind_ok'] at h
    obtain ⟨v, hv, h⟩ := h
    rw [cNum_num h] at hv
    exact hr r (by simp [Expr.vars]) z hv
  | neg e ih =>
    simp only [evR, cbind_ok'] at h
    obtain ⟨a, ha, h⟩ := h
    exact (cNeg_val h).2 (ih hd hl hr ha)
  | add a b i1 i2 =>
    simp only [noDiv, intLits, Bool.and_eq_true] at hd hl
    simp only [Expr.vars, List.mem_append] at hr
    simp only [evR, cbind_ok'] at h
    obtain ⟨p, hp, q, hq, h⟩ := h
    exact (cAdd_val h).2 (i1 hd.1 hl.1 (fun r hm => hr r (.inl hm)) hp) (i2 hd.2 hl.2 (fun r hm => hr r (.inr hm)) hq)
  | sub a b i1 i2 =>
    simp only [noDiv, intLits, Bool.and_eq_true] at hd hl
    simp only [Expr.vars, List.mem_append] at hr
    simp only [evR, cbind_ok'] at h
    obtain ⟨p, hp, q, hq, h⟩ := h
    exact (cSub_val h).2 (i1 hd.1 hl.1 (fun r hm => hr r (.inl hm)) hp) (i2 hd.2 hl.2 (fun r hm => hr r (.inr hm)) hq)
  | mul a b i1 i2 =>
    simp only [noDiv, intLits, Bool.and_eq_true] at hd hl
    simp only [Expr.vars, List.mem_append] at hr
    simp only [evR, cbind_ok'] at h
    obtain ⟨p, hp, q, hq, h⟩ := h
    exact (cMul_val h).2 (i1 hd.1 hl.1 (fun r hm => hr r (.inl hm)) hp) (i2 hd.2 hl.2 (fun r hm => hr r (.inr hm)) hq)
  | div a b i1 i2 =>
    simp only [noDiv, intLits, Bool.and_eq_true] at hd hl
    simp only [Expr.vars, List.mem_append] at hr
    simp only [evR, cbind_ok'] at h
    obtain ⟨p, hp, q, hq, h⟩ := h
    exact (half_val hd.2 hp hq h).2.2 (i1 hd.1.1 hl.1 (fun r hm => hr r (.inl hm)) hp) (i2 hd.1.2 hl.2 (fun r hm => hr r (.inr hm)) hq)
  | mod a b i1 i2 => simp [noDiv] at hd

/-- the meaning of the expression -/
theorem evR_xval {ρ : VarRef → CRes Val} {e : Expr} (hd : noDiv e = true) {x : X} (hx : e.toX = some x) {η : XEnv}
    (hr : ∀ r ∈ e.vars, ∀ z, ρ r = .ok (.num z) → η.val r.xvar = z.val) {z : PyNum} (h : evR ρ e = .ok z) :
    xval η x = some z.val := by
  induction e generalizing z x with
  | num v =>
    cases v with
    | int n =>
      simp only [Expr.toX] at hx
      split at hx
      · rename_i hn
        cases hx
        simp only [evR] at h
        rw [cInt_ok h]
        simp only [xval, litVal, pyInt_of_strip (strip_noWs (intStr_noWs n)), PyNum.val]
      · cases hx
    | num v => simp [Expr.toX] at hx
  | desired v => simp [Expr.toX] at hx
  | var r | incons r =>
    simp only [Expr.toX, Option.some.injEq] at hx; subst hx
    simp only [evR, cbind_ok'] at h
    obtain ⟨v, hv, h⟩ := h
    rw [cNum_num h] at hv
    simp only [xval, hr r (by simp [Expr.vars]) z hv]
  | neg e ih =>
    simp only [Expr.toX] at hx
    cases ha : e.toX with
    | none => rw [ha] at hx; cases hx
    | some a =>
      rw [ha] at hx; cases hx
      simp only [evR, cbind_ok'] at h
      obtain ⟨p, hp, h⟩ := h
      simp only [xval, ih hd ha hr hp, Option.bind_some, (cNeg_val h).1]
  | add a b i1 i2 | sub a b i1 i2 | mul a b i1 i2 =>
    simp only [noDiv, Bool.and_eq_true] at hd
    simp only [Expr.vars, List.mem_append] at hr
    simp only [Expr.toX] at hx
    cases ha : a.toX with
    | none => rw [ha] at hx; cases hx
    | some x1 =>
      cases hb : b.toX with
      | none => rw [ha, hb] at hx; cases hx
      | some x2 =>
        rw [ha, hb] at hx; cases hx
        simp only [evR, cbind_ok'] at h
        obtain ⟨p, hp, q, hq, h⟩ := h
        have e1 := i1 hd.1 ha (fun r hm => hr r (.inl hm)) hp
        have e2 := i2 hd.2 hb (fun r hm => hr r (.inr hm)) hq
        first
          | simp only [xval, xsum, e1, e2, Option.bind_some, (cAdd_val h).1]; simp
          | simp only [xval, e1, e2, Option.bind_some, (cSub_val h).1]
          | simp only [xval, xprod, e1, e2, Option.bind_some, (cMul_val h).1]; simp
  | div a b i1 i2 =>
    simp only [noDiv, Bool.and_eq_true] at hd
    simp only [Expr.vars, List.mem_append] at hr
    simp only [Expr.toX] at hx
    cases ha : a.toX with
    | none => rw [ha] at hx; cases hx
    | some x1 =>
      cases hb : b.toX with
      | none => rw [ha, hb] at hx; cases hx
      | some x2 =>
        rw [ha, hb] at hx; cases hx
        simp only [evR, cbind_ok'] at h
        obtain ⟨p, hp, q, hq, h⟩ := h
        obtain ⟨h2, h3, _⟩ := half_val hd.2 hp hq h
        have e1 := i1 hd.1.1 ha (fun r hm => hr r (.inl hm)) hp
        have e2 := i2 hd.1.2 hb (fun r hm => hr r (.inr hm)) hq
        simp only [xval, e1, e2, Option.bind_some, h2, h3, if_neg (by norm_num : ¬ (2 : ℚ) = 0)]
  | mod a b i1 i2 => simp [noDiv] at hd

/-- the conversion of a number that is an integer if the type is `int` -/
theorem toKind_val {k : CKind} (hk : k.isNum = true) {z : PyNum} {w : Val} (h : toKind k (.num z) = .ok w)
    (hi : k = .int → ∃ n : Int, z.val = n) : ∃ y, w = .num y ∧ y.val = z.val := by
  cases k <;> simp only [CKind.isNum, Bool.false_eq_true] at hk
  · simp only [toKind, CRes.ok.injEq] at h; exact ⟨_, h.symm, rfl⟩
  · obtain ⟨n, hn⟩ := hi (by trivial)
    cases z with
    | int m => simp only [toKind, CRes.ok.injEq] at h; exact ⟨_, h.symm, rfl⟩
    | num x =>
      simp only [toKind, cbind_ok'] at h
      obtain ⟨y, hy, h⟩ := h
      cases h
      have hn' : x.val = n := hn
      rw [hn', truncRat_int] at hy
      rw [cInt_ok hy]
      exact ⟨_, rfl, by rw [hn]; rfl⟩

/-- the value of a solution -/
theorem evX_sol' {σ : XVar → CRes PyNum} {k : CKind} (hk : k.isNum = true) {x : X} {z : PyNum} (hs : solShape k x = true)
    (h : evX σ x = .ok z) :
    ∃ q, (∀ ρ : XEnv, (∀ t ∈ x.toks, ∀ y, σ t = .ok y → ρ.val t = y.val) → xval ρ x = some q) ∧
      ((k = .int → ∃ n : Int, q = n) → ∀ w, toKind k (.num z) = .ok w → ∃ y, w = .num y ∧ y.val = q) := by
  unfold solShape at hs
  rw [Bool.or_eq_true] at hs
  by_cases hd : x.divFree = true
  · obtain ⟨g1, g2, g3⟩ := evX_exact σ x z hd h
    exact ⟨z.val, g1, fun hi w hw => toKind_val hk hw hi⟩
  · rcases hs with hs | hs
    · exact absurd hs hd
    · simp only [Bool.and_eq_true, decide_eq_true_eq] at hs
      obtain ⟨rfl, hs⟩ := hs
      cases x with
      | div a b =>
        simp only [Bool.and_eq_true] at hs
        simp only [evX, cbind_ok'] at h
        obtain ⟨p, hp, q, hq, h⟩ := h
        obtain ⟨g1, g2, g3⟩ := evX_exact σ a p hs.1 hp
        obtain ⟨e1, e2, e3⟩ := evX_exact σ b q hs.2 hq
        simp only [X.toks, List.mem_append]
        have hq0 : q.val ≠ 0 := by
          unfold cDiv cArith at h
          split at h
          · dsimp only at h
            split at h
            · cases h
            · rename_i h0; simp only [PyNum.val]; exact_mod_cast h0
          · dsimp only at h
            split at h
            · cases h
            · rename_i h0; exact h0
        refine ⟨p.val / q.val, fun ρ hρ => ?_, fun hi w hw => ?_⟩
        · simp only [xval, g1 ρ fun t ht => hρ t (.inl ht), e1 ρ fun t ht => hρ t (.inr ht), Option.bind_some, if_neg hq0]
        · obtain ⟨n, hn⟩ := hi (by trivial)
          unfold cDiv cArith at h
          split at h
          · rename_i a b
            dsimp only at h
            split at h
            · cases h
            · rename_i h0
              simp only [PyNum.val] at hn hq0 ⊢
              rw [div_eq_iff hq0] at hn
              have : a = n * b := by exact_mod_cast hn
              rw [cInt_ok h, this, Int.mul_tdiv_cancel _ h0] at hw
              simp only [toKind, CRes.ok.injEq] at hw
              refine ⟨_, hw.symm, ?_⟩
              rw [eq_div_iff hq0, this]; simp [PyNum.val]
          · dsimp only at h
            split at h
            · cases h
            · simp only [dbl, CRes.ok.injEq] at h
              subst h
              exact toKind_val rfl hw fun _ => ⟨n, hn⟩
      | _ => simp at hs

/-! ### variables -/

/-- the variables of a block that have been written have the values in the dictionary -/
structure GoodW (b : CScope) : Prop where
  tree : ∀ key t, dGet key b.vars = some t → GoodT key.2 t
  sound : ∀ n ar is w, is.length = ar → clook b n ar is = some w → ∃ u, look b.pd n is = some u ∧ SameVal u w

/-- more values in the block -/
structure GrowW (b b' : CScope) : Prop where
  pd : b'.pd = b.pd
  defs : b'.defs = b.defs
  more : ∀ n ar is w, is.length = ar → clook b n ar is = some w → ∃ w', clook b' n ar is = some w'

theorem GrowW.refl (b : CScope) : GrowW b b := ⟨rfl, rfl, fun _ _ _ w _ h => ⟨w, h⟩⟩
theorem GrowW.trans {a b c : CScope} (h1 : GrowW a b) (h2 : GrowW b c) : GrowW a c :=
  ⟨h2.pd.trans h1.pd, h2.defs.trans h1.defs, fun n ar is w hl h => by
    obtain ⟨w', h'⟩ := h1.more n ar is w hl h
    exact h2.more n ar is w' hl h'⟩

theorem HasB.grow {b b' : CScope} {lv : Dict Name Int} {r : VarRef} (hg : GrowW b b') (h : HasB b lv r) : HasB b' lv r := by
  obtain ⟨is, w, his, hw⟩ := h
  obtain ⟨w', hw'⟩ := hg.more _ _ is w (idxs_length his) hw
  exact ⟨is, w', his, hw'⟩

/-- the value of a variable that is read is the one in the dictionary of its block -/
theorem readRef_dict {s : FunSt} {r : VarRef} {w : Val} (hg : ∀ b ∈ s.blocks, GoodW b) (hl : dGet r.name s.lv = none)
    (h : readRef s r = .ok w) : ∃ b is u, blockOf r.key s.blocks = some b ∧ r.idx.mapM (idxVal s.lv) = .ok is ∧
      look b.pd r.name is = some u ∧ SameVal u w := by
  unfold readRef at h
  rw [hl] at h
  dsimp only at h
  split at h
  · cases h
  · rename_i b hb
    simp only [cbind_ok'] at h
    obtain ⟨is, his, h⟩ := h
    rw [cIdxs_ok] at his
    split at h
    · rename_i t ht
      have hgb := hg b (blockOf_mem hb).1
      have hlen := idxs_length his
      have hgt : GoodT is.length t := by rw [hlen]; exact hgb.tree _ _ ht
      have hc : clook b r.name r.idx.length is = some w := by
        unfold clook
        unfold VarRef.key at ht
        rw [ht]
        exact find_some.2 ((vget_toPy hgt).1 h)
      obtain ⟨u, hu, hs⟩ := hgb.sound _ _ is w hlen hc
      exact ⟨b, is, u, hb, his, hu, hs⟩
    · split at h <;> cases h

/-- values of the dictionary of the current section -/
theorem dictVal_ok {d : DDic} {lv : Dict Name Int} {r : VarRef} {u : Val} : dictVal d lv r = .ok u ↔
    ∃ is, r.idx.mapM (idxVal lv) = .ok is ∧ look d r.name is = some u := by
  unfold dictVal look
  simp only [cbind_ok', cIdxs_ok]
  constructor
  · rintro ⟨is, his, h⟩
    refine ⟨is, his, ?_⟩
    split at h
    · cases h
    · rename_i v hv
      split at h
      · rename_i hu; cases h; rw [hv]; exact find_some.2 hu
      · cases h
  · rintro ⟨is, his, h⟩
    refine ⟨is, his, ?_⟩
    cases hv : dGet (Key.var r.name) d with
    | none => rw [hv] at h; cases h
    | some v =>
      rw [hv, find_some] at h
      simp only [h]

theorem SameVal.num {u : Val} {z : PyNum} (h : SameVal u (.num z)) : ∃ x, u = .num x ∧ x.val = z.val := by
  cases u <;> simp only [SameVal] at h
  exact ⟨_, rfl, h⟩

theorem castInts_val {l m : List PyNum} (h : castInts l = .ok m) : m = l := by
  induction l generalizing m with
  | nil => simp only [castInts, CRes.ok.injEq] at h; exact h.symm
  | cons x xs ih =>
    simp only [castInts, cbind_ok'] at h
    obtain ⟨y, hy, ys, hys, h⟩ := h
    cases h
    rw [ih hys]
    cases x with
    | int n => simp only [castInt] at hy; split at hy <;> cases hy; rfl
    | num v => cases hy

theorem castInt_ok {x y : PyNum} (h : castInt x = .ok y) : y = x ∧ y.isInt := by
  cases x with
  | int n => simp only [castInt] at h; split at h <;> cases h; exact ⟨rfl, trivial⟩
  | num v => cases h

/-- conversions of the Python objects keep the values -/
theorem pyCast_same {k : CKind} {u w : Val} (h : pyCast k u = .ok w) : SameVal u w := by
  unfold pyCast at h
  split at h
  · simp only [cbind_ok'] at h
    obtain ⟨y, hy, h⟩ := h
    cases h
    rw [(castInt_ok hy).1]; rfl
  · cases h; rfl
  · cases h; rfl
  · simp only [cbind_ok'] at h
    obtain ⟨y, hy, h⟩ := h
    cases h
    rw [castInts_val hy]; rfl
  · rename_i l
    cases h
    simp only [SameVal, List.map_map]
    congr 1
  · cases h

theorem SameVal.symm {u w : Val} (h : SameVal u w) : SameVal w u := by
  cases u <;> cases w <;> simp only [SameVal] at h ⊢ <;> exact h.symm

theorem SameVal.trans {u v w : Val} (h : SameVal u v) (h' : SameVal v w) : SameVal u w := by
  cases u <;> cases v <;> cases w <;> simp only [SameVal] at h h' ⊢ <;> exact h.trans h'

end Verif
