import Verif.Lemmas.CppLook
import Verif.Lemmas.FieldsAgain
import Verif.Lemmas.Trafo

/-! What the fields of a record determine in the Python parser, in terms of the values that the compiled parser uses. -/

namespace Verif
open Spec

/-- a variable of a field of kind `k`: a loop variable, or a variable of this kind -/
def RefOk (Γ : Kinds) (lv : Dict Name Int) (k : CKind) (r : VarRef) : Prop :=
  (∃ i, dGet r.name lv = some i ∧ r.idx = []) ∨ (dGet r.name lv = none ∧ Γ r.name = some (k, r.idx.length))

def CKind.isNum : CKind → Bool
  | .flt | .int => true
  | _ => false

def Expr.noMod : Expr → Bool
  | .num _ | .desired _ | .var _ | .incons _ => true
  | .neg e => e.noMod
  | .add a b | .sub a b | .mul a b | .div a b => a.noMod && b.noMod
  | .mod _ _ => false

/-- a field with variables of its kind -/
def FieldOk (Γ : Kinds) (lv : Dict Name Int) (k : CKind) (e : Expr) : Prop :=
  (∀ r ∈ e.vars, RefOk Γ lv k r) ∧
  (e.vars = [] ∨ (k.isNum = true ∧ e.noMod = true ∧ ∃ x, e.toX = some x) ∨
    (k.isNum = false ∧ ∃ r, (e = .var r ∨ e = .incons r) ∧ dGet r.name lv = none))

/-- with all values of the variables that fit the dictionary, the expression has the value -/
def FieldHoldsN (d : DDic) (lv : Dict Name Int) (e : Expr) (y : PyNum) : Prop :=
  ∀ x ρ, e.toX = some x → (∀ r ∈ e.vars, ∀ z, refVal d lv r = some (.num z) → ρ.val r.xvar = z.val) → xval ρ x = some y.val

/-- the dictionary determines the value of the field -/
def FieldHolds (d : DDic) (lv : Dict Name Int) (k : CKind) (e : Expr) (src : Val) : Prop :=
  e.vars = [] ∨ (k.isNum = true ∧ ∃ y, src = .num y ∧ FieldHoldsN d lv e y) ∨
    (k.isNum = false ∧ ∀ r, (e = .var r ∨ e = .incons r) → refVal d lv r = some src)

theorem refVal_mono {Γ : Kinds} {d d' : DDic} {lv : Dict Name Int} {k : CKind} {r : VarRef} {w : Val} (hr : RefOk Γ lv k r)
    (hg : GrowD Γ d d') (h : refVal d lv r = some w) : refVal d' lv r = some w := by
  unfold refVal at h ⊢
  rcases hr with ⟨i, hi, _⟩ | ⟨hn, hΓ⟩
  · rw [hi] at h ⊢; exact h
  · rw [hn] at h ⊢
    dsimp only at h ⊢
    cases his : r.idx.mapM (idxVal lv) with
    | error e => rw [his] at h; cases h
    | ok is => rw [his] at h; exact hg _ _ _ hΓ is w (idxs_length his) h

theorem FieldHolds.mono {Γ : Kinds} {d d' : DDic} {lv : Dict Name Int} {k : CKind} {e : Expr} {src : Val}
    (hf : ∀ r ∈ e.vars, RefOk Γ lv k r) (hg : GrowD Γ d d') (h : FieldHolds d lv k e src) : FieldHolds d' lv k e src := by
  rcases h with h | ⟨hk, y, hy, h⟩ | ⟨hk, h⟩
  · exact .inl h
  · exact .inr (.inl ⟨hk, y, hy, fun x ρ hx hρ => h x ρ hx fun r hr z hz => hρ r hr z (refVal_mono (hf r hr) hg hz)⟩)
  · refine .inr (.inr ⟨hk, fun r hr => refVal_mono (hf r ?_) hg (h r hr)⟩)
    rcases hr with rfl | rfl <;> simp [Expr.vars]

/-- the kind of what is found -/
theorem refVal_kind {Γ : Kinds} {d : DDic} {lv : Dict Name Int} {k : CKind} {r : VarRef} {w : Val} (ht : TypedD Γ d)
    (hn : dGet r.name lv = none) (hΓ : Γ r.name = some (k, r.idx.length)) (h : refVal d lv r = some w) : KindVal k w := by
  unfold refVal at h
  rw [hn] at h
  dsimp only at h
  cases his : r.idx.mapM (idxVal lv) with
  | error e => rw [his] at h; cases h
  | ok is =>
    rw [his] at h
    dsimp only at h
    unfold look at h
    cases hd : dGet (Key.var r.name) d with
    | none => rw [hd] at h; cases h
    | some v => rw [hd] at h; exact deep_find (ht _ _ _ _ hΓ hd) (idxs_length his) h

/-- no abbreviation is found -/
theorem ref_no_abb {Γ : Kinds} {d : DDic} {ups : List DDic} {lv : Dict Name Int} {k : CKind} {r : VarRef} (ht : TypedD Γ d)
    (hr : RefOk Γ lv k r) (e : Expr) : getVarval ⟨d, ups, lv⟩ false r ≠ .ok (.abb e) := by
  intro h
  have h' := getVarval_refVal h
  rcases hr with ⟨i, hi, _⟩ | ⟨hn, hΓ⟩
  · unfold refVal at h'; rw [hi] at h'; cases h'
  · exact kind_not_abb (refVal_kind ht hn hΓ h') e rfl

/-- the unknown is a variable of the expression without a value -/
theorem evalWith_unk {env : Env} {o : EvalOpts} {rec : Expr → Res Lin} {e : Expr} {v : Lin} {q : VarRef}
    (habb : ∀ r ∈ e.vars, ∀ e', getVarval env o.lookUp r ≠ .ok (.abb e'))
    (h : evalWith env o rec e = .ok v) (hx : v.x = some q) :
    q ∈ e.vars ∧ ∃ err, getVarval env o.lookUp q = .error err ∧ err.isMissing = true := by
  have hvar : ∀ (r : VarRef) (v : Lin), (∀ e', getVarval env o.lookUp r ≠ .ok (.abb e')) →
      evalVar env o rec r = .ok v → v.x = some q → q = r ∧ ∃ err, getVarval env o.lookUp q = .error err ∧ err.isMissing = true := by
    intro r v ha h hx
    rcases evalVar_cases h with ⟨e, hg, _⟩ | ⟨w, hg, hw, rfl⟩ | ⟨_, rfl, hm⟩
    · exact absurd hg (ha e)
    · cases hx
    · cases hx
      rcases hm with ⟨err, hm⟩ | ⟨e, _, hg, _⟩
      · exact ⟨rfl, err, hm⟩
      · exact absurd hg (ha e)
  induction e generalizing v with
  | num x => simp only [evalWith, Except.ok.injEq] at h; subst h; cases hx
  | desired x => simp only [evalWith, Except.ok.injEq] at h; subst h; cases hx
  | var r => simp only [Expr.vars, List.mem_singleton]; exact hvar r v (habb r (by simp [Expr.vars])) h hx
  | incons r => simp only [Expr.vars, List.mem_singleton]; exact hvar r v (habb r (by simp [Expr.vars])) h hx
  | neg e ih =>
    simp only [evalWith, bind_ok] at h
    obtain ⟨v1, h1, h⟩ := h
    unfold linNeg at h
    simp only [bind_ok, pure_ok] at h
    obtain ⟨_, _, _, _, _, _, rfl⟩ := h
    exact ih habb h1 hx
  | add a b i1 i2 =>
    simp only [Expr.vars, List.mem_append] at habb ⊢
    simp only [evalWith, bind_ok] at h
    obtain ⟨v1, h1, v2, h2, h⟩ := h
    unfold linAddSub at h
    split at h
    · cases h
    · simp only [bind_ok, pure_ok] at h
      obtain ⟨_, _, _, _, _, _, _, _, rfl⟩ := h
      dsimp only at hx
      split at hx
      · exact (i1 (fun r hr => habb r (.inl hr)) h1 hx).imp_left .inl
      · exact (i2 (fun r hr => habb r (.inr hr)) h2 hx).imp_left .inr
  | sub a b i1 i2 =>
    simp only [Expr.vars, List.mem_append] at habb ⊢
    simp only [evalWith, bind_ok] at h
    obtain ⟨v1, h1, v2, h2, h⟩ := h
    unfold linAddSub at h
    split at h
    · cases h
    · simp only [bind_ok, pure_ok] at h
      obtain ⟨_, _, _, _, _, _, _, _, rfl⟩ := h
      dsimp only at hx
      split at hx
      · exact (i1 (fun r hr => habb r (.inl hr)) h1 hx).imp_left .inl
      · exact (i2 (fun r hr => habb r (.inr hr)) h2 hx).imp_left .inr
  | mul a b i1 i2 =>
    simp only [Expr.vars, List.mem_append] at habb ⊢
    simp only [evalWith, bind_ok] at h
    obtain ⟨v1, h1, v2, h2, h⟩ := h
    unfold linMul at h
    split at h
    · cases h
    · split at h
      · simp only [bind_ok, pure_ok] at h
        obtain ⟨_, _, _, _, _, _, _, _, rfl⟩ := h
        exact (i2 (fun r hr => habb r (.inr hr)) h2 hx).imp_left .inr
      · simp only [bind_ok, pure_ok] at h
        obtain ⟨_, _, _, _, _, _, _, _, rfl⟩ := h
        exact (i1 (fun r hr => habb r (.inl hr)) h1 hx).imp_left .inl
  | div a b i1 i2 =>
    simp only [Expr.vars, List.mem_append] at habb ⊢
    simp only [evalWith, bind_ok] at h
    obtain ⟨v1, h1, v2, h2, h⟩ := h
    unfold linDiv at h
    split at h
    · cases h
    · simp only [bind_ok, pure_ok] at h
      obtain ⟨_, _, _, _, _, _, _, _, rfl⟩ := h
      exact (i1 (fun r hr => habb r (.inl hr)) h1 hx).imp_left .inl
  | mod a b i1 i2 =>
    simp only [evalWith, bind_ok] at h
    obtain ⟨v1, h1, v2, h2, h⟩ := h
    unfold linMod at h
    split at h
    · cases h
    · simp only [bind_ok, pure_ok] at h
      obtain ⟨_, _, _, _, _, _, rfl⟩ := h
      cases hx

theorem evalWith_mem {env : Env} {o : EvalOpts} {rec : Expr → Res Lin} {e : Expr} {v : Lin} {q : VarRef}
    (habb : ∀ r ∈ e.vars, ∀ e', getVarval env o.lookUp r ≠ .ok (.abb e'))
    (h : evalWith env o rec e = .ok v) (hx : v.x = some q) : q ∈ e.vars := (evalWith_unk habb h hx).1

/-- an integer -/
def PyNum.isInt : PyNum → Prop
  | .int _ => True
  | .num _ => False

theorem pAdd_int {x y z : PyNum} (hx : x.isInt) (hy : y.isInt) (h : pAdd x y = .ok z) : z.isInt := by
  cases x <;> cases y <;> simp only [PyNum.isInt] at hx hy
  simp only [pAdd, Except.ok.injEq] at h; subst h; trivial
theorem pSub_int {x y z : PyNum} (hx : x.isInt) (hy : y.isInt) (h : pSub x y = .ok z) : z.isInt := by
  cases x <;> cases y <;> simp only [PyNum.isInt] at hx hy
  simp only [pSub, Except.ok.injEq] at h; subst h; trivial
theorem pMul_int {x y z : PyNum} (hx : x.isInt) (hy : y.isInt) (h : pMul x y = .ok z) : z.isInt := by
  cases x <;> cases y <;> simp only [PyNum.isInt] at hx hy
  simp only [pMul, Except.ok.injEq] at h; subst h; trivial
theorem pNeg_int {x z : PyNum} (hx : x.isInt) (h : pNeg x = .ok z) : z.isInt := by
  cases x <;> simp only [PyNum.isInt] at hx
  simp only [pNeg, Except.ok.injEq] at h; subst h; trivial
theorem pDiv_int {x y z : PyNum} (hx : x.isInt) (hy : y.isInt) (h : pDiv true x y = .ok z) : z.isInt := by
  cases x <;> cases y <;> simp only [PyNum.isInt] at hx hy
  simp only [pDiv] at h
  split at h
  · cases h
  · split at h
    · cases h; trivial
    · simp at h

/-- in a field of integers the evaluation gives integers -/
theorem evalWith_int {env : Env} {o : EvalOpts} (ho : o.castInt = true) {rec : Expr → Res Lin} {e : Expr} {v : Lin}
    (habb : ∀ r ∈ e.vars, ∀ e', getVarval env o.lookUp r ≠ .ok (.abb e'))
    (hint : ∀ r ∈ e.vars, ∀ w, getVarval env o.lookUp r = .ok w → ∃ n, w = .num (.int n))
    (hm : e.noMod = true) (hx : e.toX.isSome = true)
    (h : evalWith env o rec e = .ok v) : (∃ c, v.c = .num c ∧ c.isInt) ∧ v.k.isInt := by
  have hvar : ∀ (r : VarRef) (v : Lin), (∀ e', getVarval env o.lookUp r ≠ .ok (.abb e')) →
      (∀ w, getVarval env o.lookUp r = .ok w → ∃ n, w = .num (.int n)) →
      evalVar env o rec r = .ok v → (∃ c, v.c = .num c ∧ c.isInt) ∧ v.k.isInt := by
    intro r v ha hi h
    rcases evalVar_cases h with ⟨e, hg, _⟩ | ⟨w, hg, hw, rfl⟩ | ⟨_, rfl, _⟩
    · exact absurd hg (ha e)
    · obtain ⟨n, rfl⟩ := hi w hg
      exact ⟨⟨_, rfl, trivial⟩, trivial⟩
    · exact ⟨⟨_, rfl, trivial⟩, trivial⟩
  have hsc : ∀ {v : Val} {x : PyNum}, (∃ c, v = .num c ∧ c.isInt) → v.scalar = .ok x → x.isInt := by
    rintro v x ⟨c, rfl, hc⟩ h
    cases h; exact hc
  have htwo : ∀ (a b : Expr) (f : X → X → X), ((do return f (← a.toX) (← b.toX) : Option X)).isSome = true →
      a.toX.isSome = true ∧ b.toX.isSome = true := by
    intro a b f h
    cases ha : a.toX with
    | none => rw [ha] at h; cases h
    | some x =>
      rw [ha] at h
      cases hb : b.toX with
      | none => rw [hb] at h; cases h
      | some y => exact ⟨rfl, rfl⟩
  induction e generalizing v with
  | num x =>
    simp only [evalWith, Except.ok.injEq] at h; subst h
    cases x with
    | int n => exact ⟨⟨_, rfl, trivial⟩, trivial⟩
    | num x => simp [Expr.toX] at hx
  | desired x => simp [Expr.toX] at hx
  | var r => exact hvar r v (habb r (by simp [Expr.vars])) (hint r (by simp [Expr.vars])) h
  | incons r => exact hvar r v (habb r (by simp [Expr.vars])) (hint r (by simp [Expr.vars])) h
  | neg e ih =>
    have hx' : e.toX.isSome = true := by
      cases ha : e.toX with
      | none => simp only [Expr.toX, ha] at hx; cases hx
      | some x => rfl
    simp only [evalWith, bind_ok] at h
    obtain ⟨v1, h1, h⟩ := h
    unfold linNeg at h
    simp only [bind_ok, pure_ok] at h
    obtain ⟨a, ha, b, hb, c, hc, rfl⟩ := h
    obtain ⟨g1, g2⟩ := ih habb hint hm hx' h1
    exact ⟨⟨_, rfl, pNeg_int (hsc g1 ha) hb⟩, pNeg_int g2 hc⟩
  | add a b i1 i2 =>
    simp only [Expr.vars, List.mem_append] at habb hint
    simp only [Expr.noMod, Bool.and_eq_true] at hm
    obtain ⟨x1, x2⟩ := htwo a b (fun x y => .add [x, y]) hx
    simp only [evalWith, bind_ok] at h
    obtain ⟨v1, h1, v2, h2, h⟩ := h
    obtain ⟨g1, k1⟩ := i1 (fun r hr => habb r (.inl hr)) (fun r hr => hint r (.inl hr)) hm.1 x1 h1
    obtain ⟨g2, k2⟩ := i2 (fun r hr => habb r (.inr hr)) (fun r hr => hint r (.inr hr)) hm.2 x2 h2
    unfold linAddSub at h
    split at h
    · cases h
    · simp only [bind_ok, pure_ok] at h
      obtain ⟨_, s1, _, s2, _, hc, _, hk, rfl⟩ := h
      exact ⟨⟨_, rfl, pAdd_int (hsc g1 s1) (hsc g2 s2) hc⟩, pAdd_int k1 k2 hk⟩
  | sub a b i1 i2 =>
    simp only [Expr.vars, List.mem_append] at habb hint
    simp only [Expr.noMod, Bool.and_eq_true] at hm
    obtain ⟨x1, x2⟩ := htwo a b (fun x y => .sub x y) hx
    simp only [evalWith, bind_ok] at h
    obtain ⟨v1, h1, v2, h2, h⟩ := h
    obtain ⟨g1, k1⟩ := i1 (fun r hr => habb r (.inl hr)) (fun r hr => hint r (.inl hr)) hm.1 x1 h1
    obtain ⟨g2, k2⟩ := i2 (fun r hr => habb r (.inr hr)) (fun r hr => hint r (.inr hr)) hm.2 x2 h2
    unfold linAddSub at h
    split at h
    · cases h
    · simp only [bind_ok, pure_ok] at h
      obtain ⟨_, s1, _, s2, _, hc, _, hk, rfl⟩ := h
      exact ⟨⟨_, rfl, pSub_int (hsc g1 s1) (hsc g2 s2) hc⟩, pSub_int k1 k2 hk⟩
  | mul a b i1 i2 =>
    simp only [Expr.vars, List.mem_append] at habb hint
    simp only [Expr.noMod, Bool.and_eq_true] at hm
    obtain ⟨x1, x2⟩ := htwo a b (fun x y => .mul [x, y]) hx
    simp only [evalWith, bind_ok] at h
    obtain ⟨v1, h1, v2, h2, h⟩ := h
    obtain ⟨g1, k1⟩ := i1 (fun r hr => habb r (.inl hr)) (fun r hr => hint r (.inl hr)) hm.1 x1 h1
    obtain ⟨g2, k2⟩ := i2 (fun r hr => habb r (.inr hr)) (fun r hr => hint r (.inr hr)) hm.2 x2 h2
    unfold linMul at h
    split at h
    · cases h
    · split at h
      · simp only [bind_ok, pure_ok] at h
        obtain ⟨_, s1, _, s2, _, hc, _, hk, rfl⟩ := h
        exact ⟨⟨_, rfl, pMul_int (hsc g1 s1) (hsc g2 s2) hc⟩, pMul_int (hsc g1 s1) k2 hk⟩
      · simp only [bind_ok, pure_ok] at h
        obtain ⟨_, s1, _, s2, _, hc, _, hk, rfl⟩ := h
        exact ⟨⟨_, rfl, pMul_int (hsc g1 s1) (hsc g2 s2) hc⟩, pMul_int k1 (hsc g2 s2) hk⟩
  | div a b i1 i2 =>
    simp only [Expr.vars, List.mem_append] at habb hint
    simp only [Expr.noMod, Bool.and_eq_true] at hm
    obtain ⟨x1, x2⟩ := htwo a b (fun x y => .div x y) hx
    simp only [evalWith, bind_ok] at h
    obtain ⟨v1, h1, v2, h2, h⟩ := h
    obtain ⟨g1, k1⟩ := i1 (fun r hr => habb r (.inl hr)) (fun r hr => hint r (.inl hr)) hm.1 x1 h1
    obtain ⟨g2, k2⟩ := i2 (fun r hr => habb r (.inr hr)) (fun r hr => hint r (.inr hr)) hm.2 x2 h2
    unfold linDiv at h
    split at h
    · cases h
    · rw [ho] at h
      simp only [bind_ok, pure_ok] at h
      obtain ⟨_, s1, _, s2, _, hc, _, hk, rfl⟩ := h
      exact ⟨⟨_, rfl, pDiv_int (hsc g1 s1) (hsc g2 s2) hc⟩, pDiv_int k1 (hsc g2 s2) hk⟩
  | mod a b i1 i2 => simp [Expr.noMod] at hm

/-- the meaning of an expression as the value of its tree -/
theorem means_xval {B : VarRef → Binding} {ρ : VarRef → ℚ} {σ : XEnv} {e : Expr} {q : ℚ} (h : Means B ρ e q)
    (hm : e.noMod = true)
    (hB : ∀ r ∈ e.vars, (∀ e', B r ≠ .expr e') ∧ (∀ q, B r = .value q → σ.val r.xvar = q) ∧ (B r = .unknown → σ.val r.xvar = ρ r))
    {x : X} (hx : e.toX = some x) : xval σ x = some q := by
  induction h generalizing x with
  | num v =>
    cases v with
    | int n =>
      simp only [Expr.toX] at hx
      split at hx
      · cases hx; simp only [xval, litVal_int, PyNum.val]
      · cases hx
    | num v => simp [Expr.toX] at hx
  | desired v => simp [Expr.toX] at hx
  | @varValue r q h =>
    simp only [Expr.toX, Option.some.injEq] at hx; subst hx
    simp only [xval, (hB r (by simp [Expr.vars])).2.1 _ h]
  | @varExpr r e q h => exact absurd h ((hB r (by simp [Expr.vars])).1 _)
  | @varUnknown r h =>
    simp only [Expr.toX, Option.some.injEq] at hx; subst hx
    simp only [xval, (hB r (by simp [Expr.vars])).2.2 h]
  | incons h ih => exact ih (by rfl) (by simpa [Expr.vars] using hB) (by simpa [Expr.toX] using hx)
  | @neg e q h ih =>
    simp only [Expr.toX] at hx
    cases ha : e.toX with
    | none => rw [ha] at hx; cases hx
    | some a =>
      rw [ha] at hx; cases hx
      simp only [xval, ih hm hB ha, Option.bind_some]
  | @add a b p q h1 h2 i1 i2 =>
    simp only [Expr.noMod, Bool.and_eq_true] at hm
    simp only [Expr.vars, List.mem_append] at hB
    simp only [Expr.toX] at hx
    cases ha : a.toX with
    | none => rw [ha] at hx; cases hx
    | some x1 =>
      cases hb : b.toX with
      | none => rw [ha, hb] at hx; cases hx
      | some x2 =>
        rw [ha, hb] at hx; cases hx
        simp only [xval, xsum, i1 hm.1 (fun r hr => hB r (.inl hr)) ha, i2 hm.2 (fun r hr => hB r (.inr hr)) hb, Option.bind_some, add_zero]
  | @sub a b p q h1 h2 i1 i2 =>
    simp only [Expr.noMod, Bool.and_eq_true] at hm
    simp only [Expr.vars, List.mem_append] at hB
    simp only [Expr.toX] at hx
    cases ha : a.toX with
    | none => rw [ha] at hx; cases hx
    | some x1 =>
      cases hb : b.toX with
      | none => rw [ha, hb] at hx; cases hx
      | some x2 =>
        rw [ha, hb] at hx; cases hx
        simp only [xval, i1 hm.1 (fun r hr => hB r (.inl hr)) ha, i2 hm.2 (fun r hr => hB r (.inr hr)) hb, Option.bind_some]
  | @mul a b p q h1 h2 i1 i2 =>
    simp only [Expr.noMod, Bool.and_eq_true] at hm
    simp only [Expr.vars, List.mem_append] at hB
    simp only [Expr.toX] at hx
    cases ha : a.toX with
    | none => rw [ha] at hx; cases hx
    | some x1 =>
      cases hb : b.toX with
      | none => rw [ha, hb] at hx; cases hx
      | some x2 =>
        rw [ha, hb] at hx; cases hx
        simp only [xval, xprod, i1 hm.1 (fun r hr => hB r (.inl hr)) ha, i2 hm.2 (fun r hr => hB r (.inr hr)) hb, Option.bind_some, mul_one]
  | @div a b p q h1 h2 h0 i1 i2 =>
    simp only [Expr.noMod, Bool.and_eq_true] at hm
    simp only [Expr.vars, List.mem_append] at hB
    simp only [Expr.toX] at hx
    cases ha : a.toX with
    | none => rw [ha] at hx; cases hx
    | some x1 =>
      cases hb : b.toX with
      | none => rw [ha, hb] at hx; cases hx
      | some x2 =>
        rw [ha, hb] at hx; cases hx
        simp only [xval, i1 hm.1 (fun r hr => hB r (.inl hr)) ha, i2 hm.2 (fun r hr => hB r (.inr hr)) hb, Option.bind_some, if_neg h0]
  | mod h1 h2 h0 i1 i2 => simp [Expr.noMod] at hm

theorem kind_num {k : CKind} (hk : k.isNum = true) {v : Val} (h : KindVal k v) : ∃ y, v = .num y := by
  cases k <;> simp only [CKind.isNum, Bool.false_eq_true] at hk <;> obtain ⟨_, rfl⟩ := h <;> exact ⟨_, rfl⟩

theorem evalExpr_xval {Γ : Kinds} {fuel : Nat} {d : DDic} {ups : List DDic} {lv : Dict Name Int} {o : EvalOpts}
    (ho : o.lookUp = false) {k : CKind} {e : Expr} (ht : TypedD Γ d) (hr : ∀ r ∈ e.vars, RefOk Γ lv k r)
    (hm : e.noMod = true) {v : Lin} (h : evalExpr fuel ⟨d, ups, lv⟩ o e = .ok v) {c : PyNum} (hc : v.c = .num c) {x : X}
    (hx : e.toX = some x) {σ : XEnv}
    (hσ : ∀ r ∈ e.vars, ∀ z, refVal d lv r = some (.num z) → σ.val r.xvar = z.val) :
    xval σ x = some (v.at c fun r => σ.val r.xvar) := by
  have hs := (evalExpr_sound fuel h).means c hc fun r => σ.val r.xvar
  refine means_xval hs hm (fun r hr' => ?_) hx
  have hna := ref_no_abb (ups := ups) ht (hr r hr')
  rw [ho]
  refine ⟨fun e' he => ?_, fun q hq => ?_, fun _ => rfl⟩
  · unfold bindOf at he
    split at he <;> first | cases he | skip
    rename_i hg; exact hna _ hg
  · unfold bindOf at hq
    split at hq <;> first | cases hq | skip
    rename_i z hg
    exact hσ r hr' z (getVarval_refVal hg)

/-- a field without unknown variable -/
theorem field_known {Γ : Kinds} {fuel : Nat} {po : POpts} (hs : Strict po) (hi : po.ignoreAll = false) {d : DDic}
    {ups : List DDic} {lv : Dict Name Int} {k : CKind} {e : Expr} {src : Val} (ht : TypedD Γ d) (hf : FieldOk Γ lv k e)
    (hk : KindVal k src) {ci : Bool} {v : Lin} (h : evalExpr fuel ⟨d, ups, lv⟩ ⟨false, ci, true⟩ e = .ok v) (hx : v.x = none)
    (hchk : checkField po e src v.c = .ok ()) : FieldHolds d lv k e src := by
  obtain ⟨hr, hf | ⟨hn, hm, _⟩ | ⟨hn, r, he, hl⟩⟩ := hf
  · exact .inl hf
  · obtain ⟨y, rfl⟩ := kind_num hn hk
    refine .inr (.inl ⟨hn, y, rfl, fun x σ hx' hσ => ?_⟩)
    have hsame := checkField_strict hs hi hchk
    cases hvc : v.c <;> rw [hvc] at hsame <;> simp only [SameVal] at hsame
    rename_i c
    rw [evalExpr_xval rfl ht hr hm h hvc hx' hσ, hsame]
    simp only [Lin.at, hx, mul_zero, add_zero]
  · refine .inr (.inr ⟨hn, fun r' hr' => ?_⟩)
    have : r' = r := by rcases he with rfl | rfl <;> rcases hr' with h | h <;> cases h <;> rfl
    subst this
    have hev : evalVar ⟨d, ups, lv⟩ ⟨false, ci, true⟩ (match fuel with | 0 => fun _ => .error .recursion | n + 1 => evalExpr n ⟨d, ups, lv⟩ ⟨false, ci, true⟩) r' = .ok v := by
      rcases he with rfl | rfl <;> cases fuel <;> exact h
    have hok : RefOk Γ lv k r' := hr r' (by rcases he with rfl | rfl <;> simp [Expr.vars])
    rcases evalVar_cases hev with ⟨e', hg, _⟩ | ⟨w, hg, hw, rfl⟩ | ⟨_, rfl, _⟩
    · exact absurd hg (ref_no_abb ht hok e')
    · have hsame := checkField_strict hs hi hchk
      have hrv := getVarval_refVal hg
      rcases hok with ⟨i, hi', _⟩ | ⟨_, hΓ⟩
      · rw [hl] at hi'; cases hi'
      · rw [hrv, kind_same hk (refVal_kind ht hl hΓ hrv) hsame]
    · cases hx

theorem pSub_flt {q : ℚ} {y z : PyNum} (h : pSub (.num (.flt q)) y = .ok z) : ∃ q, z = .num (.flt q) := by
  cases y <;> simp only [pSub, bind_ok, pure_ok] at h <;> obtain ⟨_, _, _, _, rfl⟩ := h <;> exact ⟨_, rfl⟩
theorem pDiv_flt {b : Bool} {q : ℚ} {y z : PyNum} (h : pDiv b (.num (.flt q)) y = .ok z) : ∃ q, z = .num (.flt q) := by
  cases y <;> simp only [pDiv, bind_ok] at h <;> obtain ⟨_, _, _, _, h⟩ := h <;> split at h
  · cases h
  · rw [pure_ok] at h; exact ⟨_, h.symm⟩
  · cases h
  · rw [pure_ok] at h; exact ⟨_, h.symm⟩

theorem not_abb_env {Γ : Kinds} {d : DDic} {ups : List DDic} {lv : Dict Name Int} {ci a : Bool} {k : CKind} {e : Expr}
    (ht : TypedD Γ d) (hr : ∀ r ∈ e.vars, RefOk Γ lv k r) :
    ∀ r ∈ e.vars, ∀ e', getVarval ⟨d, ups, lv⟩ (EvalOpts.mk false ci a).lookUp r ≠ .ok (.abb e') :=
  fun r h e' => ref_no_abb ht (hr r h) e'

theorem evalExpr_mem {env : Env} {o : EvalOpts} {fuel : Nat} {e : Expr} {v : Lin} {q : VarRef}
    (habb : ∀ r ∈ e.vars, ∀ e', getVarval env o.lookUp r ≠ .ok (.abb e'))
    (h : evalExpr fuel env o e = .ok v) (hx : v.x = some q) : q ∈ e.vars := by
  cases fuel <;> exact evalWith_mem habb h hx

theorem evalExpr_int {env : Env} {o : EvalOpts} (ho : o.castInt = true) {fuel : Nat} {e : Expr} {v : Lin}
    (habb : ∀ r ∈ e.vars, ∀ e', getVarval env o.lookUp r ≠ .ok (.abb e'))
    (hint : ∀ r ∈ e.vars, ∀ w, getVarval env o.lookUp r = .ok w → ∃ n, w = .num (.int n))
    (hm : e.noMod = true) (hx : e.toX.isSome = true)
    (h : evalExpr fuel env o e = .ok v) : (∃ c, v.c = .num c ∧ c.isInt) ∧ v.k.isInt := by
  cases fuel <;> exact evalWith_int ho habb hint hm hx h

/-- the value of an unknown variable -/
theorem solve_kind {Γ : Kinds} {fuel : Nat} {d : DDic} {ups : List DDic} {lv : Dict Name Int} {k : CKind} {e : Expr}
    {src val : Val} (ht : TypedD Γ d) (hf : FieldOk Γ lv k e) (hk : KindVal k src) {v : Lin}
    (h : evalExpr fuel ⟨d, ups, lv⟩ ⟨false, true, true⟩ e = .ok v) {r : VarRef} (hx : v.x = some r)
    (hsol : solveField true v src = .ok val) : KindVal k val := by
  have hmem := evalExpr_mem (not_abb_env ht hf.1) h hx
  obtain ⟨hr, hf | ⟨hn, hm, x, hX⟩ | ⟨hn, r', he, hl⟩⟩ := hf
  · rw [hf] at hmem; cases hmem
  · unfold solveField at hsol
    split at hsol
    · rename_i c hc
      split at hsol
      · cases hsol; exact hk
      · simp only [bind_ok, pure_ok] at hsol
        obtain ⟨s, hs, y, hy, z, hz, rfl⟩ := hsol
        cases k <;> simp only [CKind.isNum, Bool.false_eq_true] at hn
        · obtain ⟨q, rfl⟩ := hk
          cases hs
          obtain ⟨q1, rfl⟩ := pSub_flt hy
          obtain ⟨q2, rfl⟩ := pDiv_flt hz
          exact ⟨_, rfl⟩
        · obtain ⟨n, rfl⟩ := hk
          cases hs
          obtain ⟨⟨c', hc', hci⟩, hki⟩ := evalExpr_int rfl (not_abb_env ht hr) (fun r hr' w hw => by
            have hrv := getVarval_refVal hw
            rcases hr r hr' with ⟨i, hi, _⟩ | ⟨hl, hΓ⟩
            · unfold refVal at hrv; rw [hi] at hrv; cases hrv; exact ⟨_, rfl⟩
            · exact refVal_kind ht hl hΓ hrv) hm (by rw [hX]; rfl) h
          rw [hc] at hc'; cases hc'
          have := pDiv_int (pSub_int (x := .int n) trivial hci hy) hki hz
          cases z with
          | int m => exact ⟨_, rfl⟩
          | num z => exact this.elim
    · cases hsol
  · obtain ⟨c, hc, ⟨_, _, rfl⟩ | ⟨s, y, rfl, _⟩⟩ := solveField_cases hsol
    · exact hk
    · cases k <;> simp only [CKind.isNum, Bool.true_eq_false] at hn <;> obtain ⟨_, h⟩ := hk <;> cases h

theorem look_missing {d : DDic} {ups : List DDic} {lv : Dict Name Int} {r : VarRef} {err : Err} {is : List Int}
    (h : getVarval ⟨d, ups, lv⟩ false r = .error err) (hm : err.isMissing = true) (his : r.idx.mapM (idxVal lv) = .ok is) :
    look d r.name is = none := by
  have := (missing_local h hm).2 is his
  unfold look find
  cases hd : dGet (Key.var r.name) d with
  | none => rfl
  | some v =>
    rw [hd] at this
    simp only [getArr?] at this
    dsimp only
    rw [this]

/-- a field with an unknown variable -/
theorem field_solved {Γ : Kinds} {fuel : Nat} {d d1 : DDic} {ups : List DDic} {lv : Dict Name Int} {k : CKind} {e : Expr}
    {src val : Val} (ht : TypedD Γ d) (hf : FieldOk Γ lv k e) (hk : KindVal k src) {v : Lin}
    (h : evalExpr fuel ⟨d, ups, lv⟩ ⟨false, true, true⟩ e = .ok v) {r : VarRef} (hx : v.x = some r)
    (hsol : solveField true v src = .ok val) (hset : setVarval d lv r val = .ok d1) :
    TypedD Γ d1 ∧ GrowD Γ d d1 ∧ FrameD Γ d d1 ∧ NewD Γ lv e.vars d d1 ∧ FieldHolds d1 lv k e src := by
  have hmem := evalExpr_mem (not_abb_env ht hf.1) h hx
  have hval := solve_kind ht hf hk h hx hsol
  obtain ⟨err, hg, hm⟩ := evalExpr_miss fuel h hx
  have hl : dGet r.name lv = none := (missing_local hg hm).1
  have hΓ : Γ r.name = some (k, r.idx.length) := by
    rcases hf.1 r hmem with ⟨i, hi, _⟩ | ⟨_, hΓ⟩
    · rw [hl] at hi; cases hi
    · exact hΓ
  obtain ⟨g1, g2, g3, g4, g5⟩ := setVarval_look hΓ hl hval ht hset
  refine ⟨g1, ?_, g2, g3.mono (by simpa using hmem), ?_⟩
  · intro n k' ar hn is w hlen hw
    by_cases hsame : r.name = n ∧ r.idx.mapM (idxVal lv) = .ok is
    · obtain ⟨rfl, his⟩ := hsame
      rw [look_missing hg hm his] at hw; cases hw
    · rw [g5 n k' ar hn is hlen (fun h1 h2 => hsame ⟨h1, h2⟩)]; exact hw
  · obtain ⟨hr, hf | ⟨hn, hm', x, hX⟩ | ⟨hn, r', he, hl'⟩⟩ := hf
    · rw [hf] at hmem; cases hmem
    · obtain ⟨y, rfl⟩ := kind_num hn hk
      refine .inr (.inl ⟨hn, y, rfl, fun x σ hx' hσ => ?_⟩)
      have hgrow : GrowD Γ d d1 := by
        intro n k' ar hn is w hlen hw
        by_cases hsame : r.name = n ∧ r.idx.mapM (idxVal lv) = .ok is
        · obtain ⟨rfl, his⟩ := hsame
          rw [look_missing hg hm his] at hw; cases hw
        · rw [g5 n k' ar hn is hlen (fun h1 h2 => hsame ⟨h1, h2⟩)]; exact hw
      obtain ⟨c, hc, hcase⟩ := solveField_cases hsol
      rw [evalExpr_xval rfl ht hr hm' h hc hx' fun r hr' z hz => hσ r hr' z (refVal_mono (hr r hr') hgrow hz)]
      simp only [Lin.at, hx, Option.some.injEq]
      rcases hcase with ⟨h0, h1, rfl⟩ | ⟨s, z, hs, rfl, _, hz⟩
      · rw [hσ r hmem y g4, h0, h1]; ring
      · cases hs; rw [hσ r hmem z g4, hz]
    · refine .inr (.inr ⟨hn, fun r'' hr'' => ?_⟩)
      have e1 : r'' = r' := by rcases he with rfl | rfl <;> rcases hr'' with h | h <;> cases h <;> rfl
      have e2 : r = r' := by rcases he with rfl | rfl <;> simpa [Expr.vars] using hmem
      subst e1; subst e2
      obtain ⟨c, hc, ⟨_, _, rfl⟩ | ⟨s, y, rfl, _⟩⟩ := solveField_cases hsol
      · exact g4
      · cases k <;> simp only [CKind.isNum, Bool.true_eq_false] at hn <;> obtain ⟨_, h⟩ := hk <;> cases h

theorem mapOnce_look {fuel : Nat} {po : POpts} (hs : Strict po) (hi : po.ignoreAll = false) {Γ : Kinds} {ups : List DDic}
    {lv : Dict Name Int} {fs : List (Expr × Val)} (hfs : ∀ p ∈ fs, ∃ k, FieldOk Γ lv k p.1 ∧ KindVal k p.2) {d d' : DDic}
    {f f' : Bool} (ht : TypedD Γ d) (h : mapOnce fuel po ups lv fs d f = .ok (d', f')) :
    TypedD Γ d' ∧ GrowD Γ d d' ∧ FrameD Γ d d' ∧ NewD Γ lv (fs.flatMap (·.1.vars)) d d' ∧
    (f' = false → f = false ∧ ∀ p ∈ fs, ∀ k, FieldOk Γ lv k p.1 → KindVal k p.2 → FieldHolds d' lv k p.1 p.2) := by
  induction fs generalizing d f with
  | nil =>
    simp only [mapOnce, Except.ok.injEq, Prod.mk.injEq] at h
    obtain ⟨rfl, rfl⟩ := h
    exact ⟨ht, .refl _ _, .refl _ _, .refl _ _ _ _, fun h => ⟨h, by simp⟩⟩
  | cons p fs ih =>
    obtain ⟨e, src⟩ := p
    obtain ⟨k, hf, hk⟩ := hfs (e, src) (by simp)
    have hfs' := fun p hp => hfs p (List.mem_cons_of_mem _ hp)
    have hsub1 : ∀ r ∈ fs.flatMap (·.1.vars), r ∈ ((e, src) :: fs).flatMap (·.1.vars) := by
      intro r hr; simp only [List.flatMap_cons, List.mem_append]; exact .inr hr
    have hsub2 : ∀ r ∈ e.vars, r ∈ ((e, src) :: fs).flatMap (·.1.vars) := by
      intro r hr; simp only [List.flatMap_cons, List.mem_append]; exact .inl hr
    unfold mapOnce at h
    rw [hi] at h
    simp only [Bool.not_false] at h
    split at h
    · obtain ⟨g1, g2, g3, g4, g5⟩ := ih hfs' ht h
      refine ⟨g1, g2, g3, g4.mono hsub1, fun hff => ?_⟩
      cases (g5 hff).1
    · cases h
    · rename_i v hv
      split at h
      · rename_i hx
        split at h
        · cases h
        · split at h
          · cases h
          · rename_i hchk
            obtain ⟨g1, g2, g3, g4, g5⟩ := ih hfs' ht h
            refine ⟨g1, g2, g3, g4.mono hsub1, fun hff => ⟨(g5 hff).1, ?_⟩⟩
            intro p hp k' hf' hk'
            rcases List.mem_cons.1 hp with rfl | hp
            · exact (field_known hs hi ht hf' hk' hv hx hchk).mono hf'.1 g2
            · exact (g5 hff).2 p hp k' hf' hk'
      · rename_i r hx
        split at h
        · cases h
        · rename_i val hsol
          split at h
          · cases h
          · rename_i d1 hset
            obtain ⟨a1, a2, a3, a4, _⟩ := field_solved ht hf hk hv hx hsol hset
            obtain ⟨g1, g2, g3, g4, g5⟩ := ih hfs' a1 h
            refine ⟨g1, a2.trans g2, a3.trans g3, (a4.mono hsub2).trans (g4.mono hsub1), fun hff => ⟨(g5 hff).1, ?_⟩⟩
            intro p hp k' hf' hk'
            rcases List.mem_cons.1 hp with rfl | hp
            · exact (field_solved ht hf' hk' hv hx hsol hset).2.2.2.2.mono hf'.1 g2
            · exact (g5 hff).2 p hp k' hf' hk'

theorem mapRead_look {fuel : Nat} {po : POpts} (hs : Strict po) (hi : po.ignoreAll = false) {Γ : Kinds} {ups : List DDic}
    {lv : Dict Name Int} {es : List Expr} {vals : List Val}
    (hfs : ∀ p ∈ es.zip vals, ∃ k, FieldOk Γ lv k p.1 ∧ KindVal k p.2) {d d' : DDic}
    (ht : TypedD Γ d) (h : mapRead fuel po ups lv es vals d = .ok d') :
    TypedD Γ d' ∧ GrowD Γ d d' ∧ FrameD Γ d d' ∧ NewD Γ lv ((es.zip vals).flatMap (·.1.vars)) d d' ∧
    ∀ p ∈ es.zip vals, ∀ k, FieldOk Γ lv k p.1 → KindVal k p.2 → FieldHolds d' lv k p.1 p.2 := by
  unfold mapRead at h
  generalize 3 = n at h
  induction n generalizing d with
  | zero => cases h
  | succ n ih =>
    unfold mapTries at h
    split at h
    · cases h
    · rename_i d1 h1
      cases h
      obtain ⟨g1, g2, g3, g4, g5⟩ := mapOnce_look hs hi hfs ht h1
      exact ⟨g1, g2, g3, g4, (g5 rfl).2⟩
    · rename_i d1 h1
      obtain ⟨g1, g2, g3, g4, _⟩ := mapOnce_look hs hi hfs ht h1
      obtain ⟨a1, a2, a3, a4, a5⟩ := ih g1 h
      exact ⟨a1, g2.trans a2, g3.trans a3, g4.trans a4, a5⟩

end Verif
