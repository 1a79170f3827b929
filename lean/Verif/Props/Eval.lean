import Verif.Lemmas.Assign
import Verif.Spec.Scope
/-
Properties C31-C34: expressions, unknowns, mismatches, conditions.
-/
namespace Verif
open Spec

/-! ## What a reference stands for -/

theorem idx_forall2 {lv : Dict Name Int} {l : List Idx} {is : List Int} (h : List.Forall₂ (IdxIs lv) l is) :
    l.mapM (idxVal lv) = .ok is := by
  induction h with
  | nil => rfl
  | @cons a b _ _ h1 _ ih =>
    have : idxVal lv a = .ok b := by
      cases h1 with
      | num i => exact rfl
      | var h => simp only [idxVal, h]
    simp only [List.mapM_cons, this, ih]; rfl

theorem getArr_at {u v : Val} {is : List Int} (h : At u is v) : getArr u is = .ok v := by
  induction h with
  | here v => cases v <;> rfl
  | step h _ ih => simp only [getArr, h, ih]

/-- a loop variable has its current value -/
theorem C31_loopVariable (env : Env) (l : Bool) (r : VarRef) (i : Int) (h : dGet r.name env.lv = some i)
    (hc : dGet (.var r.name) env.cur = none) : bindOf env l r = .value i := by
  unfold bindOf getVarval
  simp [dHas, h, hc, PyNum.val]

/-- a variable of the current dictionary has the value found below its indices -/
theorem C31_current (env : Env) (l : Bool) (r : VarRef) (is : List Int) (u : Val) (x : PyNum)
    (hl : dGet r.name env.lv = none) (hc : dGet (.var r.name) env.cur = some u)
    (hi : List.Forall₂ (IdxIs env.lv) r.idx is) (ha : At u is (.num x)) : bindOf env l r = .value x.val := by
  have hf : findScope l r.name env.cur env.ups = some env.cur := by
    cases env.ups <;> simp [findScope, dHas, hc]
  unfold bindOf getVarval
  simp only [dHas, hl, hf, hc, idx_forall2 hi, Option.isSome_none, Bool.and_false, Bool.false_eq_true, if_false]
  have := getArr_at ha
  simp only [bind, Except.bind, this]

/-- with look-up, a variable that is not in the inner dictionaries is taken from the first enclosing one that has it -/
theorem C31_enclosing (cur : DDic) (inner : List DDic) (outer : DDic) (rest : List DDic) (lv : Dict Name Int) (r : VarRef)
    (is : List Int) (u : Val) (x : PyNum) (hl : dGet r.name lv = none)
    (hn : ∀ d ∈ cur :: inner, dGet (.var r.name) d = none) (hup : ∀ d ∈ cur :: inner, (dGet .up d).isSome)
    (ho : dGet (.var r.name) outer = some u) (hi : List.Forall₂ (IdxIs lv) r.idx is) (ha : At u is (.num x)) :
    bindOf ⟨cur, inner ++ outer :: rest, lv⟩ true r = .value x.val := by
  have hf : ∀ (inner : List DDic) (cur : DDic), (∀ d ∈ cur :: inner, dGet (.var r.name) d = none) →
      (∀ d ∈ cur :: inner, (dGet .up d).isSome) → findScope true r.name cur (inner ++ outer :: rest) = some outer := by
    intro inner
    induction inner with
    | nil =>
      intro cur h1 h2
      have e1 := h1 cur (by simp)
      have e2 := h2 cur (by simp)
      have e3 : findScope true r.name outer rest = some outer := by cases rest <;> simp [findScope, dHas, ho]
      simp [findScope, dHas, e1, e2, e3]
    | cons d ds ih =>
      intro cur h1 h2
      have e1 := h1 cur (by simp)
      have e2 := h2 cur (by simp)
      have e3 := ih d (fun x hx => h1 x (List.mem_cons_of_mem _ hx)) (fun x hx => h2 x (List.mem_cons_of_mem _ hx))
      simp [findScope, dHas, e1, e2, e3]
  unfold bindOf getVarval
  simp only [dHas, hl, hf _ _ hn hup, ho, idx_forall2 hi, Option.isSome_none, Bool.and_false, Bool.false_eq_true, if_false]
  have := getArr_at ha
  simp only [bind, Except.bind, this]

/-- without look-up the enclosing dictionaries do not matter: a name that is not in the current one is unknown -/
theorem C31_undefined (env : Env) (r : VarRef) (hl : dGet r.name env.lv = none)
    (hc : dGet (.var r.name) env.cur = none) : bindOf env false r = .unknown := by
  obtain ⟨cur, ups, lv⟩ := env
  simp only at hl hc
  unfold bindOf
  rw [getVarval_local]
  simp [dHas, hl, hc]

/-! ## C31 -/

/-- C31, value: whenever the evaluator returns a number `c` with coefficient `k` and unknown `x`, the meaning of the
expression is `c + k * x` for every value of the unknowns. -/
theorem C31_linear (fuel : Nat) (env : Env) (o : EvalOpts) (e : Expr) (v : Lin) (c : PyNum)
    (h : evalExpr fuel env o e = .ok v) (hc : v.c = .num c) (ρ : VarRef → ℚ) (q : ℚ) :
    Means (bindOf env o.lookUp) ρ e q ↔ q = c.val + v.k.val * (match v.x with | none => 0 | some r => ρ r) := by
  have hs := (evalExpr_sound fuel h).means c hc ρ
  constructor
  · intro h2; exact h2.unique hs
  · intro h2; rw [h2]; exact hs

/-- a coefficient other than zero comes with an unknown -/
theorem C31_unknown (fuel : Nat) (env : Env) (o : EvalOpts) (e : Expr) (v : Lin)
    (h : evalExpr fuel env o e = .ok v) (hk : v.k.val ≠ 0) : ∃ r c, v.x = some r ∧ v.c = .num c := by
  have hs := evalExpr_sound fuel h
  have h1 := hs.unk hk
  obtain ⟨r, hr⟩ := Option.ne_none_iff_exists'.1 h1
  obtain ⟨c, hc⟩ := hs.scal h1
  exact ⟨r, c, hr, hc⟩

/-- C31, several unknowns: if the value depends on two different unknowns, the evaluator does not return a number. -/
theorem C31_several (fuel : Nat) (env : Env) (o : EvalOpts) (e : Expr) (y z : VarRef) (hyz : y ≠ z)
    (ρ ρ1 ρ2 : VarRef → ℚ) (q q1 q2 : ℚ) (h1 : ∀ r, r ≠ y → ρ1 r = ρ r) (h2 : ∀ r, r ≠ z → ρ2 r = ρ r)
    (m : Means (bindOf env o.lookUp) ρ e q) (m1 : Means (bindOf env o.lookUp) ρ1 e q1)
    (m2 : Means (bindOf env o.lookUp) ρ2 e q2) (d1 : q1 ≠ q) (d2 : q2 ≠ q) :
    ∀ v, evalExpr fuel env o e = .ok v → ∀ c, v.c ≠ .num c := by
  intro v hv c hc
  rw [C31_linear fuel env o e v c hv hc] at m m1 m2
  cases hx : v.x with
  | none => rw [hx] at m m1; exact d1 (m1.trans m.symm)
  | some r =>
    rw [hx] at m m1 m2
    simp only at m m1 m2
    by_cases e1 : r = y
    · have : r ≠ z := by rw [e1]; exact hyz
      rw [h2 r this] at m2; exact d2 (m2.trans m.symm)
    · rw [h1 r e1] at m1; exact d1 (m1.trans m.symm)

/-- C31, success: sums, differences and products with numbers, plain known variables and at most one unknown are always
evaluated. -/
theorem C31_succeeds (fuel : Nat) (env : Env) (l ci : Bool) (e : Expr) (u : Bool)
    (h : Linear (fun r => ∃ x : PyNum, x.Plain ∧ getVarval env l r = .ok (.num x))
      (fun r => bindOf env l r = .unknown) u e) :
    ∃ v c, evalExpr fuel env ⟨l, ci, true⟩ e = .ok v ∧ v.c = .num c ∧ (u = false → v.k.val = 0) := by
  suffices H : ∀ rec, ∃ v c, evalWith env ⟨l, ci, true⟩ rec e = .ok v ∧ v.c = .num c ∧ (u = false → v.k.val = 0) ∧
      c.Plain ∧ v.k.Plain by
    cases fuel with
    | zero => obtain ⟨v, c, h1, h2, h3, _⟩ := H (fun _ => .error .recursion); exact ⟨v, c, h1, h2, h3⟩
    | succ n => obtain ⟨v, c, h1, h2, h3, _⟩ := H (evalExpr n env ⟨l, ci, true⟩); exact ⟨v, c, h1, h2, h3⟩
  intro rec
  have z0 : (PyNum.int 0).val = 0 := by simp [PyNum.val]
  induction h with
  | int n => exact ⟨_, _, rfl, rfl, fun _ => z0, plain_int _, plain_int _⟩
  | flt n => exact ⟨_, _, rfl, rfl, fun _ => z0, plain_flt _, plain_int _⟩
  | known h =>
    obtain ⟨x, hx, hg⟩ := h
    refine ⟨⟨.num x, .int 0, none⟩, x, ?_, rfl, fun _ => z0, hx, plain_int _⟩
    simp only [evalWith, evalVar, hg]
  | unknown h =>
    rename_i r
    refine ⟨⟨.num (.int 0), .int 1, some r⟩, .int 0, ?_, rfl, by simp, plain_int _, plain_int _⟩
    unfold bindOf at h
    simp only [evalWith, evalVar]
    split at h
    · cases h
    · cases h
    · cases h
    · rename_i hg; simp only [hg, if_true]
    · rename_i hg; simp only [hg, if_true]
    · cases h
  | incons _ ih => exact ih
  | neg _ ih =>
    obtain ⟨v, c, h1, h2, h3, h4, h5⟩ := ih
    obtain ⟨z, hz⟩ := pNeg_total h4
    obtain ⟨z2, hz2⟩ := pNeg_total h5
    refine ⟨⟨.num z, z2, v.x⟩, z, ?_, rfl, ?_, (pNeg_plain hz).2, (pNeg_plain hz2).2⟩
    · simp [evalWith, h1, linNeg, h2, Val.scalar, hz, hz2, bind, Except.bind, pure, Except.pure]
    · intro hu; rw [pNeg_val hz2, h3 hu, neg_zero]
  | @add u1 u2 a b _ _ huv i1 i2 =>
    obtain ⟨v, c, h1, h2, h3, h4, h5⟩ := i1
    obtain ⟨w, d, g1, g2, g3, g4, g5⟩ := i2
    obtain ⟨z, hz⟩ := pAdd_total h4 g4
    obtain ⟨z2, hz2⟩ := pAdd_total h5 g5
    have hnu : (v.unk && w.unk) = false := by
      cases u1 with
      | false => simp [Lin.unk, h3 rfl]
      | true => cases u2 with
        | false => simp [Lin.unk, g3 rfl]
        | true => simp at huv
    refine ⟨⟨.num z, z2, if v.unk then v.x else w.x⟩, z, ?_, rfl, ?_, (pAdd_plain hz).2.2, (pAdd_plain hz2).2.2⟩
    · simp [evalWith, h1, g1, linAddSub, hnu, h2, g2, Val.scalar, hz, hz2, bind, Except.bind, pure, Except.pure]
    · intro hu
      simp only [Bool.or_eq_false_iff] at hu
      rw [pAdd_val hz2, h3 hu.1, g3 hu.2, add_zero]
  | @sub u1 u2 a b _ _ huv i1 i2 =>
    obtain ⟨v, c, h1, h2, h3, h4, h5⟩ := i1
    obtain ⟨w, d, g1, g2, g3, g4, g5⟩ := i2
    obtain ⟨z, hz⟩ := pSub_total h4 g4
    obtain ⟨z2, hz2⟩ := pSub_total h5 g5
    have hnu : (v.unk && w.unk) = false := by
      cases u1 with
      | false => simp [Lin.unk, h3 rfl]
      | true => cases u2 with
        | false => simp [Lin.unk, g3 rfl]
        | true => simp at huv
    refine ⟨⟨.num z, z2, if v.unk then v.x else w.x⟩, z, ?_, rfl, ?_, (pSub_plain hz).2.2, (pSub_plain hz2).2.2⟩
    · simp [evalWith, h1, g1, linAddSub, hnu, h2, g2, Val.scalar, hz, hz2, bind, Except.bind, pure, Except.pure]
    · intro hu
      simp only [Bool.or_eq_false_iff] at hu
      rw [pSub_val hz2, h3 hu.1, g3 hu.2, sub_zero]
  | @mul u1 u2 a b _ _ huv i1 i2 =>
    obtain ⟨v, c, h1, h2, h3, h4, h5⟩ := i1
    obtain ⟨w, d, g1, g2, g3, g4, g5⟩ := i2
    obtain ⟨z, hz⟩ := pMul_total h4 g4
    have hnu : (v.unk && w.unk) = false := by
      cases u1 with
      | false => simp [Lin.unk, h3 rfl]
      | true => cases u2 with
        | false => simp [Lin.unk, g3 rfl]
        | true => simp at huv
    cases hv : v.unk with
    | false =>
      obtain ⟨z2, hz2⟩ := pMul_total h4 g5
      refine ⟨⟨.num z, z2, w.x⟩, z, ?_, rfl, ?_, (pMul_plain hz).2.2, (pMul_plain hz2).2.2⟩
      · simp [evalWith, h1, g1, linMul, hv, h2, g2, Val.scalar, hz, hz2, bind, Except.bind, pure, Except.pure]
      · intro hu
        simp only [Bool.or_eq_false_iff] at hu
        rw [pMul_val hz2, g3 hu.2, mul_zero]
    | true =>
      have hw : w.unk = false := by simpa [hv] using hnu
      obtain ⟨z2, hz2⟩ := pMul_total h5 g4
      refine ⟨⟨.num z, z2, v.x⟩, z, ?_, rfl, ?_, (pMul_plain hz).2.2, (pMul_plain hz2).2.2⟩
      · simp [evalWith, h1, g1, linMul, hv, hw, h2, g2, Val.scalar, hz, hz2, bind, Except.bind, pure, Except.pure]
      · intro hu
        simp only [Bool.or_eq_false_iff] at hu
        rw [pMul_val hz2, h3 hu.1, zero_mul]

/-- the field `2*L+1` with `L` unknown: constant 1, coefficient 2 -/
example :
    let e : Expr := .add (.mul (.num (.int 2)) (.var ⟨"L", []⟩)) (.num (.int 1))
    (match evalExpr 0 ⟨[], [], []⟩ {} e with
      | .ok ⟨.num (.int 1), .int 2, some ⟨"L", []⟩⟩ => true
      | _ => false) = true := by decide +kernel

/-- the premise of `C31_succeeds` for that field, and for `N*L` with `N` known -/
example : Linear (fun r => ∃ x : PyNum, x.Plain ∧ getVarval ⟨[(.var "N", .num (.int 3))], [], []⟩ true r = .ok (.num x))
    (fun r => bindOf ⟨[(.var "N", .num (.int 3))], [], []⟩ true r = .unknown) true
    (.add (.mul (.var ⟨"N", []⟩) (.var ⟨"L", []⟩)) (.num (.int 1))) := by
  refine .add (u := true) (v := false) (.mul (u := false) (v := true) (.known ⟨.int 3, plain_int _, rfl⟩) (.unknown rfl) rfl)
    (.int 1) rfl

/-- `NR + NP` with both unknown is refused -/
example :
    (match evalExpr 0 ⟨[], [], []⟩ {} (.add (.var ⟨"NR", []⟩) (.var ⟨"NP", []⟩)) with
      | .error .severalUnbound => true
      | _ => false) = true := by decide +kernel

/-! ## C32 -/

/-- C32, meaning: the value found for the unknown makes the field expression equal to the number read. -/
theorem C32_solve (fuel : Nat) (env : Env) (o : EvalOpts) (ci : Bool) (e : Expr) (v : Lin) (r : VarRef) (s : PyNum) (w : Val)
    (h : evalExpr fuel env o e = .ok v) (hx : v.x = some r) (hs : solveField ci v (.num s) = .ok w) :
    ∃ x : PyNum, w = .num x ∧ ∀ ρ : VarRef → ℚ, ρ r = x.val → Means (bindOf env o.lookUp) ρ e s.val := by
  unfold solveField at hs
  cases hc : v.c with
  | num c =>
    rw [hc] at hs
    simp only at hs
    split at hs
    · rename_i h0
      simp only [Except.ok.injEq] at hs
      refine ⟨s, hs.symm, fun ρ hρ => ?_⟩
      rw [C31_linear fuel env o e v c h hc, hx]
      simp only [h0.1, h0.2, hρ]; ring
    · simp only [bind_ok, pure_ok] at hs
      obtain ⟨x, hx', d, hd, q, hq, rfl⟩ := hs
      have := scalar_ok hx'
      cases this
      refine ⟨q, rfl, fun ρ hρ => ?_⟩
      rw [C31_linear fuel env o e v c h hc, hx]
      obtain ⟨h1, h2⟩ := pDiv_val hq
      simp only [hρ, h2, pSub_val hd]
      field_simp; ring
  | _ => rw [hc] at hs; simp at hs

/-- The whole of reading one field with an unknown and evaluating the field again for writing.  `ci` is `cast_int` of the
reading (endf_mapping_core.py:98-104); writing goes without (199-208). -/
theorem C32_rewrite_partial (fuel : Nat) (cur cur' : DDic) (ups : List DDic) (lv : Dict Name Int) (ci : Bool) (e : Expr) (v : Lin)
    (r : VarRef) (s : PyNum) (w : Val)
    (h : evalExpr fuel ⟨cur, ups, lv⟩ ⟨false, ci, true⟩ e = .ok v) (hx : v.x = some r)
    (hs : solveField ci v (.num s) = .ok w) (hset : setVarval cur lv r w = .ok cur')
    -- the number read is not kept as text (`preserve_value_strings` off)
    (hp : ∀ q t, s ≠ .num (.endf q t))
    -- no other variable of the expression is missing
    (honly : ∀ r' err, Occ (bindOf ⟨cur, ups, lv⟩ false) r' e → getVarval ⟨cur, ups, lv⟩ false r' = .error err →
      err.isMissing = true → SamePlace lv r r')
    (hmiss : ∃ err, getVarval ⟨cur, ups, lv⟩ false r = .error err ∧ err.isMissing = true) :
    ∃ s' : PyNum, evalKnown fuel ⟨cur', ups, lv⟩ false false e = .ok (.num s') ∧ s'.val = s.val := by
  obtain ⟨x, rfl, hm⟩ := C32_solve fuel _ _ ci e v r s w h hx hs
  obtain ⟨err, hg, hme⟩ := hmiss
  obtain ⟨c, hc⟩ := (evalExpr_sound fuel h).scal (by rw [hx]; simp)
  have hxp : x.Plain := by
    unfold solveField at hs
    rw [hc] at hs
    simp only at hs
    split at hs
    · simp only [Except.ok.injEq, Val.num.injEq] at hs; subst hs
      cases s with
      | int n => exact plain_int _
      | num y => cases y with
        | flt q => exact plain_flt _
        | endf q t => exact absurd rfl (hp q t)
    · simp only [bind_ok, pure_ok] at hs
      obtain ⟨y, hy, d, hd, q, hq, he⟩ := hs
      cases he; exact (pDiv_plain hq).2.2
  obtain ⟨hl, -⟩ := missing_local hg hme
  obtain ⟨v', h1, h2⟩ := evalExpr_again fuel (env' := ⟨cur', ups, lv⟩) (o := ⟨false, ci, true⟩) (o' := ⟨false, false, false⟩)
    rfl rfl hxp
    (fun r' u h1 h2 => setVarval_keep hset hg hme h1 h2) e
    (fun r' err' ho he hm' => setVarval_same hset (honly r' err' ho he hm') hl) h hc
  obtain ⟨c', e1, e2, -⟩ := h2.ex
  refine ⟨c', ?_, ?_⟩
  · simp only [evalKnown, h1, e1, bind, Except.bind, pure, Except.pure]
  · have := (C31_linear fuel _ _ e v c h hc (fun _ => x.val) s.val).1 (hm _ rfl)
    rw [hx] at this
    simp only at this
    rw [e2, this]

/-- reading 7 in the field `2*L+1` gives `L = 3`, and writing gives 7 -/
example :
    let e : Expr := .add (.mul (.num (.int 2)) (.var ⟨"L", []⟩)) (.num (.int 1))
    (match mapRead 0 {} [] [] [e] [.num (.int 7)] [] with
      | .ok [(.var "L", .num (.int 3))] => true
      | _ => false) = true ∧
    (match mapWrite 0 ⟨[(.var "L", .num (.int 3))], [], []⟩ [e] with
      | .ok [.num (.int 7)] => true
      | _ => false) = true := by decide +kernel

/-- C32 needs `preserve_value_strings` off: with it the field `1*x` is read but cannot be written, because the number
object kept in `x` does not support arithmetic. -/
theorem C32_preserve_fails :
    let e : Expr := .mul (.num (.int 1)) (.var ⟨"x", []⟩)
    let s : Val := .num (.num (.endf 2 " 2.0".toList))
    (match mapRead 0 {} [] [] [e] [s] [] with
      | .ok cur => (match mapWrite 0 ⟨cur, [], []⟩ [e] with
        | .error .typeError => true
        | _ => false)
      | .error _ => false) = true := by decide +kernel

/-- The field `0*y + x` is read without `y`, and then cannot be written. -/
theorem C32_zero_factor_fails :
    let e : Expr := .add (.mul (.num (.int 0)) (.var ⟨"y", []⟩)) (.var ⟨"x", []⟩)
    (match mapRead 0 {} [] [] [e] [.num (.int 5)] [] with
      | .ok cur => (match mapWrite 0 ⟨cur, [], []⟩ [e] with
        | .error .variableNotFound => true
        | _ => false)
      | .error _ => false) = true := by decide +kernel

/-! ## C33 -/

/-- the number read counts as different from the expected one -/
def Differs (po : POpts) (s x : ℚ) : Prop :=
  if po.fuzzy then 1 / 10 ^ 7 + 1 / 10 ^ 5 * |x| < |s - x| else s ≠ x

/-- some selected tolerance covers the field -/
def Tolerated (po : POpts) (e : Expr) (x : ℚ) : Prop :=
  (po.ignoreZero = true ∧ x = 0) ∨ (po.ignoreNumber = true ∧ ∃ n, Sub (.desired n) e) ∨
    (po.ignoreVarspec = true ∧ ∃ r, Sub (.incons r) e) ∨ po.ignoreAll = true

theorem hasDesired_iff (e : Expr) : e.hasDesired = true ↔ ∃ n, Sub (.desired n) e := by
  induction e with
  | num v => simp only [Expr.hasDesired, Bool.false_eq_true, false_iff]; rintro ⟨n, h⟩; cases h
  | desired v => simp only [Expr.hasDesired, true_iff]; exact ⟨v, .refl _⟩
  | var r => simp only [Expr.hasDesired, Bool.false_eq_true, false_iff]; rintro ⟨n, h⟩; cases h
  | incons r => simp only [Expr.hasDesired, Bool.false_eq_true, false_iff]; rintro ⟨n, h⟩; cases h
  | neg e ih =>
    simp only [Expr.hasDesired, ih]
    exact ⟨fun ⟨n, h⟩ => ⟨n, .neg h⟩, fun ⟨n, h⟩ => by cases h with | neg h => exact ⟨n, h⟩⟩
  | add a b i1 i2 =>
    simp only [Expr.hasDesired, Bool.or_eq_true, i1, i2]
    exact ⟨fun h => h.elim (fun ⟨n, h⟩ => ⟨n, .addL h⟩) (fun ⟨n, h⟩ => ⟨n, .addR h⟩), fun ⟨n, h⟩ => by
      cases h with | addL h => exact .inl ⟨n, h⟩ | addR h => exact .inr ⟨n, h⟩⟩
  | sub a b i1 i2 =>
    simp only [Expr.hasDesired, Bool.or_eq_true, i1, i2]
    exact ⟨fun h => h.elim (fun ⟨n, h⟩ => ⟨n, .subL h⟩) (fun ⟨n, h⟩ => ⟨n, .subR h⟩), fun ⟨n, h⟩ => by
      cases h with | subL h => exact .inl ⟨n, h⟩ | subR h => exact .inr ⟨n, h⟩⟩
  | mul a b i1 i2 =>
    simp only [Expr.hasDesired, Bool.or_eq_true, i1, i2]
    exact ⟨fun h => h.elim (fun ⟨n, h⟩ => ⟨n, .mulL h⟩) (fun ⟨n, h⟩ => ⟨n, .mulR h⟩), fun ⟨n, h⟩ => by
      cases h with | mulL h => exact .inl ⟨n, h⟩ | mulR h => exact .inr ⟨n, h⟩⟩
  | div a b i1 i2 =>
    simp only [Expr.hasDesired, Bool.or_eq_true, i1, i2]
    exact ⟨fun h => h.elim (fun ⟨n, h⟩ => ⟨n, .divL h⟩) (fun ⟨n, h⟩ => ⟨n, .divR h⟩), fun ⟨n, h⟩ => by
      cases h with | divL h => exact .inl ⟨n, h⟩ | divR h => exact .inr ⟨n, h⟩⟩
  | mod a b i1 i2 =>
    simp only [Expr.hasDesired, Bool.or_eq_true, i1, i2]
    exact ⟨fun h => h.elim (fun ⟨n, h⟩ => ⟨n, .modL h⟩) (fun ⟨n, h⟩ => ⟨n, .modR h⟩), fun ⟨n, h⟩ => by
      cases h with | modL h => exact .inl ⟨n, h⟩ | modR h => exact .inr ⟨n, h⟩⟩

theorem hasIncons_iff (e : Expr) : e.hasIncons = true ↔ ∃ r, Sub (.incons r) e := by
  induction e with
  | num v => simp only [Expr.hasIncons, Bool.false_eq_true, false_iff]; rintro ⟨n, h⟩; cases h
  | incons v => simp only [Expr.hasIncons, true_iff]; exact ⟨v, .refl _⟩
  | var r => simp only [Expr.hasIncons, Bool.false_eq_true, false_iff]; rintro ⟨n, h⟩; cases h
  | desired r => simp only [Expr.hasIncons, Bool.false_eq_true, false_iff]; rintro ⟨n, h⟩; cases h
  | neg e ih =>
    simp only [Expr.hasIncons, ih]
    exact ⟨fun ⟨n, h⟩ => ⟨n, .neg h⟩, fun ⟨n, h⟩ => by cases h with | neg h => exact ⟨n, h⟩⟩
  | add a b i1 i2 =>
    simp only [Expr.hasIncons, Bool.or_eq_true, i1, i2]
    exact ⟨fun h => h.elim (fun ⟨n, h⟩ => ⟨n, .addL h⟩) (fun ⟨n, h⟩ => ⟨n, .addR h⟩), fun ⟨n, h⟩ => by
      cases h with | addL h => exact .inl ⟨n, h⟩ | addR h => exact .inr ⟨n, h⟩⟩
  | sub a b i1 i2 =>
    simp only [Expr.hasIncons, Bool.or_eq_true, i1, i2]
    exact ⟨fun h => h.elim (fun ⟨n, h⟩ => ⟨n, .subL h⟩) (fun ⟨n, h⟩ => ⟨n, .subR h⟩), fun ⟨n, h⟩ => by
      cases h with | subL h => exact .inl ⟨n, h⟩ | subR h => exact .inr ⟨n, h⟩⟩
  | mul a b i1 i2 =>
    simp only [Expr.hasIncons, Bool.or_eq_true, i1, i2]
    exact ⟨fun h => h.elim (fun ⟨n, h⟩ => ⟨n, .mulL h⟩) (fun ⟨n, h⟩ => ⟨n, .mulR h⟩), fun ⟨n, h⟩ => by
      cases h with | mulL h => exact .inl ⟨n, h⟩ | mulR h => exact .inr ⟨n, h⟩⟩
  | div a b i1 i2 =>
    simp only [Expr.hasIncons, Bool.or_eq_true, i1, i2]
    exact ⟨fun h => h.elim (fun ⟨n, h⟩ => ⟨n, .divL h⟩) (fun ⟨n, h⟩ => ⟨n, .divR h⟩), fun ⟨n, h⟩ => by
      cases h with | divL h => exact .inl ⟨n, h⟩ | divR h => exact .inr ⟨n, h⟩⟩
  | mod a b i1 i2 =>
    simp only [Expr.hasIncons, Bool.or_eq_true, i1, i2]
    exact ⟨fun h => h.elim (fun ⟨n, h⟩ => ⟨n, .modL h⟩) (fun ⟨n, h⟩ => ⟨n, .modR h⟩), fun ⟨n, h⟩ => by
      cases h with | modL h => exact .inl ⟨n, h⟩ | modR h => exact .inr ⟨n, h⟩⟩

/-- C33: a field with a determined value `x` is refused exactly if the number read differs and no selected tolerance
covers it; otherwise the reading goes on with the next field and unchanged variables. -/
theorem C33_policy (fuel : Nat) (po : POpts) (ups : List DDic) (lv : Dict Name Int) (e : Expr) (s x k : PyNum)
    (rest : List (Expr × Val)) (cur : DDic) (f : Bool)
    (h : evalExpr fuel ⟨cur, ups, lv⟩ ⟨false, !po.ignoreAll, true⟩ e = .ok ⟨.num x, k, none⟩) :
    (Differs po s.val x.val ∧ ¬ Tolerated po e x.val →
      mapOnce fuel po ups lv ((e, .num s) :: rest) cur f = .error .numberMismatch) ∧
    (¬ (Differs po s.val x.val ∧ ¬ Tolerated po e x.val) →
      mapOnce fuel po ups lv ((e, .num s) :: rest) cur f = mapOnce fuel po ups lv rest cur f) := by
  have hk : k.val = 0 := by
    by_contra hne
    exact (evalExpr_sound fuel h).unk hne rfl
  have hd : ∃ m : Bool, (if po.fuzzy then (Val.num s).notClose (.num x) else .ok ((Val.num s).ne (.num x))) = .ok m ∧
      (m = true ↔ Differs po s.val x.val) := by
    unfold Differs
    cases po.fuzzy with
    | true =>
      refine ⟨_, rfl, ?_⟩
      simp only [isClose, if_true, Bool.not_eq_true', decide_eq_false_iff_not, not_le]
    | false =>
      refine ⟨_, rfl, ?_⟩
      simp [Val.ne]
  obtain ⟨m, hm1, hm2⟩ := hd
  have ht : Tolerated po e x.val ↔ ((po.ignoreZero && (Val.num x).isZero) || (po.ignoreNumber && e.hasDesired) ||
      (po.ignoreVarspec && e.hasIncons) || po.ignoreAll) = true := by
    simp only [Tolerated, Bool.or_eq_true, Bool.and_eq_true, hasDesired_iff, hasIncons_iff, Val.isZero, decide_eq_true_eq,
      or_assoc]
  have hcheck : (m = true ∧ ¬ Tolerated po e x.val → checkField po e (.num s) (.num x) = .error .numberMismatch) ∧
      (¬ (m = true ∧ ¬ Tolerated po e x.val) → checkField po e (.num s) (.num x) = .ok ()) := by
    unfold checkField
    rw [if_neg (by simp [Val.len?])]
    rw [ht]
    have hb : ∀ m' : Bool, m' = m →
        (m = true ∧ ¬ (po.ignoreZero && (Val.num x).isZero || po.ignoreNumber && e.hasDesired ||
            po.ignoreVarspec && e.hasIncons || po.ignoreAll) = true →
          (if m' = true then
            if (po.ignoreZero && (Val.num x).isZero) = true then (Except.ok () : Res Unit)
            else if (po.ignoreNumber && e.hasDesired) = true then .ok ()
            else if (po.ignoreVarspec && e.hasIncons) = true then .ok ()
            else if (!po.ignoreAll) = true then .error .numberMismatch
            else .ok ()
          else .ok ()) = .error .numberMismatch) ∧
        (¬ (m = true ∧ ¬ (po.ignoreZero && (Val.num x).isZero || po.ignoreNumber && e.hasDesired ||
            po.ignoreVarspec && e.hasIncons || po.ignoreAll) = true) →
          (if m' = true then
            if (po.ignoreZero && (Val.num x).isZero) = true then (Except.ok () : Res Unit)
            else if (po.ignoreNumber && e.hasDesired) = true then .ok ()
            else if (po.ignoreVarspec && e.hasIncons) = true then .ok ()
            else if (!po.ignoreAll) = true then .error .numberMismatch
            else .ok ()
          else .ok ()) = .ok ()) := by
      rintro m' rfl
      cases m' with
      | false => simp
      | true =>
        cases po.ignoreZero && (Val.num x).isZero <;> cases po.ignoreNumber && e.hasDesired <;>
          cases po.ignoreVarspec && e.hasIncons <;> cases po.ignoreAll <;> simp
    cases hf : po.fuzzy with
    | true =>
      rw [hf, if_pos rfl] at hm1
      simp only [if_true, hm1, bind, Except.bind]
      exact hb m rfl
    | false =>
      rw [hf, if_neg (by simp)] at hm1
      simp only [Except.ok.injEq] at hm1
      simp only [Bool.false_eq_true, if_false, bind, Except.bind]
      exact hb _ hm1
  rw [hm2] at hcheck
  simp only [mapOnce, h]
  rw [if_neg (by simp [hk])]
  constructor
  · intro hh; rw [hcheck.1 hh]
  · intro hh; rw [hcheck.2 hh]

/-- a list that is already determined must have the same length -/
theorem C33_length (fuel : Nat) (po : POpts) (ups : List DDic) (lv : Dict Name Int) (e : Expr) (l m : List PyNum)
    (rest : List (Expr × Val)) (cur : DDic) (f : Bool)
    (h : evalExpr fuel ⟨cur, ups, lv⟩ ⟨false, !po.ignoreAll, true⟩ e = .ok ⟨.lst m, .int 0, none⟩)
    (hne : l.length ≠ m.length) :
    mapOnce fuel po ups lv ((e, .lst l) :: rest) cur f = .error .sizeMismatch := by
  simp only [mapOnce, h]
  rw [if_neg (by simp [PyNum.val])]
  unfold checkField
  rw [if_pos (by simpa [Val.len?] using hne)]

/-- with exact comparison a determined list must be read with the same numbers -/
theorem C33_list (fuel : Nat) (po : POpts) (ups : List DDic) (lv : Dict Name Int) (e : Expr) (l m : List PyNum)
    (rest : List (Expr × Val)) (cur : DDic) (f : Bool) (hf : po.fuzzy = false) (ht : ¬ Tolerated po e 1)
    (h : evalExpr fuel ⟨cur, ups, lv⟩ ⟨false, !po.ignoreAll, true⟩ e = .ok ⟨.lst m, .int 0, none⟩)
    (hl : l.length = m.length) :
    (l.map PyNum.val = m.map PyNum.val →
      mapOnce fuel po ups lv ((e, .lst l) :: rest) cur f = mapOnce fuel po ups lv rest cur f) ∧
    (l.map PyNum.val ≠ m.map PyNum.val →
      mapOnce fuel po ups lv ((e, .lst l) :: rest) cur f = .error .numberMismatch) := by
  have ht' : (po.ignoreNumber && e.hasDesired) = false ∧ (po.ignoreVarspec && e.hasIncons) = false ∧ po.ignoreAll = false := by
    unfold Tolerated at ht
    rw [← hasDesired_iff, ← hasIncons_iff] at ht
    simp only [not_or] at ht
    refine ⟨?_, ?_, ?_⟩
    · rw [← Bool.not_eq_true, Bool.and_eq_true]; exact ht.2.1
    · rw [← Bool.not_eq_true, Bool.and_eq_true]; exact ht.2.2.1
    · rw [← Bool.not_eq_true]; exact ht.2.2.2
  simp only [mapOnce, h]
  rw [if_neg (by simp [PyNum.val])]
  unfold checkField
  rw [if_neg (by simpa [Val.len?] using hl)]
  simp only [hf, Val.ne, bind, Except.bind, Val.isZero, Bool.and_false]
  constructor
  · intro he; simp [he]
  · intro he; simp [he, ht'.1, ht'.2.1, ht'.2.2]

/-- 1.00001 read for 1 is accepted with the standard options, and refused with exact comparison -/
example :
    let e : Expr := .num (.int 1)
    let s : Val := .num (.num (.flt (100001 / 100000)))
    (mapRead 0 {} [] [] [e] [s] []).toBool = true ∧
    (match mapRead 0 { fuzzy := false } [] [] [e] [s] [] with
      | .error .numberMismatch => true
      | _ => false) = true := by decide +kernel

/-- 5 read where 0 is expected: accepted with the standard options, refused when zeros count; a flagged number is
accepted only with the corresponding option -/
example :
    (mapRead 0 {} [] [] [.num (.int 0)] [.num (.int 5)] []).toBool = true ∧
    (mapRead 0 { ignoreZero := false } [] [] [.num (.int 0)] [.num (.int 5)] []).toBool = false ∧
    (mapRead 0 {} [] [] [.desired (.int 2)] [.num (.int 5)] []).toBool = false ∧
    (mapRead 0 { ignoreNumber := true } [] [] [.desired (.int 2)] [.num (.int 5)] []).toBool = true ∧
    (mapRead 0 { ignoreNumber := true } [] [] [.num (.int 2)] [.num (.int 5)] []).toBool = false := by decide +kernel

/-- `math_isclose` is not symmetric: the tolerance is relative to the expected value, so that exchanging the number read
and the number expected can change the verdict. -/
theorem C33_asymmetric : ∃ s x : ℚ, isClose s x = true ∧ isClose x s = false :=
  ⟨1000000 - 10, 1000000, by norm_num [isClose, abs_of_neg], by norm_num [isClose]⟩

/-! ## C34 -/

theorem relHolds_iff (r : Rel) (x y : PyNum) : ∃ b, relHolds r (.num x) (.num y) = .ok b ∧ (b = true ↔ relTrue r x.val y.val) := by
  cases r <;> exact ⟨_, rfl, by simp [relTrue]⟩

/-- C34: the condition of a recipe has the Boolean value of its comparisons, where a comparison with an undefined variable
counts as false; `V` gives the values of the compared expressions.  Missing from the full statement: elements of an array
that exists but lacks the element, see `C34_element_fails`. -/
theorem C34_boolean_partial (fuel : Nat) (env : Env) (cond : Cond) (V : Expr → Option ℚ)
    (hV : ∀ e ∈ condExprs cond, match V e with
      | some q => ∃ x : PyNum, evalKnown fuel env true true e = .ok (.num x) ∧ x.val = q
      | none => evalKnown fuel env true true e = .error .variableNotFound) :
    ∃ b, evalCond fuel env cond = .ok b ∧ (b = true ↔ Truth V cond) := by
  induction cond with
  | cmp r a b =>
    have ha := hV a (by simp [condExprs])
    have hb := hV b (by simp [condExprs])
    cases hva : V a with
    | none =>
      rw [hva] at ha
      refine ⟨false, ?_, by simp [Truth, hva]⟩
      simp only [evalCond, ha, bind, Except.bind]
    | some q =>
      rw [hva] at ha
      obtain ⟨x, hx, rfl⟩ := ha
      cases hvb : V b with
      | none =>
        rw [hvb] at hb
        refine ⟨false, ?_, by simp [Truth, hvb]⟩
        simp only [evalCond, hx, hb, bind, Except.bind]
      | some q' =>
        rw [hvb] at hb
        obtain ⟨y, hy, rfl⟩ := hb
        obtain ⟨t, h1, h2⟩ := relHolds_iff r x y
        refine ⟨t, ?_, ?_⟩
        · simp only [evalCond, hx, hy, bind, Except.bind, pure, Except.pure, h1]
        · rw [h2]; simp [Truth, hva, hvb]
  | and a b i1 i2 =>
    obtain ⟨t1, h1, g1⟩ := i1 (fun e he => hV e (by simp [condExprs, he]))
    obtain ⟨t2, h2, g2⟩ := i2 (fun e he => hV e (by simp [condExprs, he]))
    refine ⟨t1 && t2, ?_, ?_⟩
    · cases t1 <;> simp [evalCond, h1, h2, bind, Except.bind, pure, Except.pure]
    · simp only [Truth, Bool.and_eq_true, g1, g2]
  | or a b i1 i2 =>
    obtain ⟨t1, h1, g1⟩ := i1 (fun e he => hV e (by simp [condExprs, he]))
    obtain ⟨t2, h2, g2⟩ := i2 (fun e he => hV e (by simp [condExprs, he]))
    refine ⟨t1 || t2, ?_, ?_⟩
    · cases t1 <;> simp [evalCond, h1, h2, bind, Except.bind, pure, Except.pure]
    · simp only [Truth, Bool.or_eq_true, g1, g2]

/-- the number a compared expression evaluates to is its meaning; no undefined variable enters -/
theorem C34_value (fuel : Nat) (env : Env) (l ci : Bool) (e : Expr) (x : PyNum)
    (h : evalKnown fuel env l ci e = .ok (.num x)) (ρ : VarRef → ℚ) : Means (bindOf env l) ρ e x.val := by
  unfold evalKnown at h
  simp only [bind_ok, pure_ok] at h
  obtain ⟨v, hv, hc⟩ := h
  rw [C31_linear fuel env _ e v x hv hc, evalExpr_known fuel rfl hv]
  simp

/-- `L = 1 and N > 2 or X = 0` with `L = 1`, `N = 3` and `X` undefined is true, the last comparison alone is false -/
example :
    let env : Env := ⟨[(.var "L", .num (.int 1)), (.var "N", .num (.int 3))], [], []⟩
    let x : Cond := .cmp .eq (.var ⟨"X", []⟩) (.num (.int 0))
    (match evalCond 0 env (.or (.and (.cmp .eq (.var ⟨"L", []⟩) (.num (.int 1))) (.cmp .gt (.var ⟨"N", []⟩) (.num (.int 2)))) x) with
      | .ok true => true
      | _ => false) = true ∧
    (match evalCond 0 env x with
      | .ok false => true
      | _ => false) = true := by decide +kernel

/-- C34 is violated for the missing element of an array that exists: the comparison fails with an exception instead of
being false. -/
theorem C34_element_fails :
    let env : Env := ⟨[(.var "X", .dic [(.idx 1, .num (.int 7))])], [], []⟩
    (match evalCond 0 env (.cmp .eq (.var ⟨"X", [.num 2]⟩) (.num (.int 0))) with
      | .error .unavailableIndex => true
      | _ => false) = true := by decide +kernel

end Verif
