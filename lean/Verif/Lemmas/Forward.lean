import Verif.Lemmas.SimProg
import Verif.Spec.Along
/-
Reading the records that have been written: everything that is stored is in the dictionary they were written from.
-/
namespace Verif
open Spec

/-- the data of `d` is in `D` with the same values (abbreviations apart) -/
def HoldAll (d D : DDic) : Prop :=
  ∀ k v, k.data = true → dGet k d = some v → (∀ e, v ≠ .abb e) → ∃ v', dGet k D = some v' ∧ Ext v v'

theorem HoldAll.hold {d D : DDic} (h : HoldAll d D) : Hold d D := fun n v hv ha => h (.var n) v rfl hv ha

theorem getArr_nil (v : Val) : getArr v [] = .ok v := by cases v <;> rfl

/-- a new element that is also in `v'` -/
theorem setArr_into {o : Option Val} {is : List Int} {x new v' y : Val} (h : setArr o is x = .ok new)
    (ho : ∀ u, o = some u → Ext u v') (hy : getArr v' is = .ok y) (hx : Ext x y) : Ext new v' := by
  induction is generalizing o new v' with
  | nil =>
    rw [getArr_nil] at hy; cases hy
    have : new = x := by
      cases o with
      | none => simp only [setArr, Except.ok.injEq] at h; exact h.symm
      | some v => cases v <;> simp only [setArr, Except.ok.injEq] at h <;> exact h.symm
    rw [this]; exact hx
  | cons i is ih =>
    cases v' with
    | dic D =>
      simp only [getArr] at hy
      cases hg : dGet (Key.idx i) D with
      | none => rw [hg] at hy; cases hy
      | some u' =>
        rw [hg] at hy
        dsimp only at hy
        cases o with
        | none =>
          simp only [setArr, bind_ok, pure_ok] at h
          obtain ⟨n1, h1, rfl⟩ := h
          refine .of_get fun k u hu => ?_
          by_cases hk : Key.idx i = k
          · subst hk
            rw [dGet_dSet_self] at hu; cases hu
            exact ⟨u', hg, ih h1 (fun _ h => by cases h) hy⟩
          · rw [dGet_dSet_ne hk] at hu; simp [dGet] at hu
        | some u =>
          cases u with
          | dic d =>
            simp only [setArr, bind_ok, pure_ok] at h
            obtain ⟨n1, h1, rfl⟩ := h
            refine .of_get fun k u hu => ?_
            by_cases hk : Key.idx i = k
            · subst hk
              rw [dGet_dSet_self] at hu; cases hu
              refine ⟨u', hg, ih h1 (fun u hu => ?_) hy⟩
              obtain ⟨u2, hu2, he⟩ := (ho _ rfl).get hu
              rw [hg] at hu2; cases hu2; exact he
            · rw [dGet_dSet_ne hk] at hu
              exact (ho _ rfl).get hu
          | _ => simp [setArr] at h
    | _ => simp [getArr] at hy

/-- the variable in the dictionary of the writer -/
theorem local_value {w : DDic} {ups : List DDic} {lv : Dict Name Int} {r : VarRef} {u : Val}
    (h : getVarval ⟨w, ups, lv⟩ false r = .ok u) (hl : dGet r.name lv = none) :
    ∃ v is, dGet (.var r.name) w = some v ∧ r.idx.mapM (idxVal lv) = .ok is ∧ getArr v is = .ok u := by
  rw [getVarval_local] at h
  have hf : dHas r.name lv = false := dHas_none.2 hl
  simp only [hf, Bool.and_false, Bool.false_eq_true, if_false, hl] at h
  cases hd : dGet (.var r.name) w with
  | none => rw [hd] at h; cases h
  | some v =>
    rw [hd] at h
    simp only [bind_ok] at h
    obtain ⟨is, hi, h⟩ := h
    exact ⟨v, is, rfl, hi, h⟩

theorem Lev.data {A N : List Name} {d w D : DDic} (h : Lev A N d w D) {n : Name} {v u : Val} {is : List Int}
    (hv : dGet (.var n) w = some v) (hu : getArr v is = .ok u) (ha : ∀ e, u ≠ .abb e) :
    dGet (.var n) D = some v ∧ ∀ e, dGet (.var n) d ≠ some (.abb e) := by
  have hna : ∀ e, v ≠ .abb e := by
    rintro e rfl
    cases is with
    | nil => rw [getArr_nil] at hu; cases hu; exact ha e rfl
    | cons i is => simp [getArr] at hu
  refine ⟨?_, fun e he => ?_⟩
  · rcases h.split n v hv with ⟨e, rfl⟩ | h
    · exact absurd rfl (hna e)
    · exact h
  · rw [(h.sync n e).1 he] at hv; cases hv; exact hna e rfl

/-- a variable gets content that is in the dictionary of the writer -/
theorem set_fwd {A N : List Name} {d w D : DDic} (h : Lev A N d w D) (hh : HoldAll d D) {n : Name} {new v : Val}
    (hn : ∀ e, new ≠ .abb e) (hv : dGet (.var n) D = some v) (hd : ∀ e, dGet (.var n) d ≠ some (.abb e)) (he : Ext new v) :
    SameAbb d (dSet (.var n) new d) ∧ HoldAll (dSet (.var n) new d) D := by
  refine ⟨⟨?_, ?_⟩, ?_⟩
  · intro m e
    by_cases hm : n = m
    · subst hm
      rw [dGet_dSet_self]
      exact ⟨fun h => absurd h (hd e), fun h => by cases h; exact absurd rfl (hn e)⟩
    · rw [dGet_dSet_ne (by simpa using hm)]
  · rw [dGet_dSet_ne (by simp)]
  · intro k u hk hu ha
    by_cases hkn : Key.var n = k
    · subst hkn
      rw [dGet_dSet_self] at hu; cases hu
      exact ⟨v, hv, he⟩
    · rw [dGet_dSet_ne hkn] at hu
      exact hh k u hk hu ha

theorem Spec.SameVal.ext {a b : Val} (h : SameVal a b) : Ext a b := by
  cases a <;> cases b <;> simp only [SameVal] at h
  · exact .num rfl h
  · subst h; exact .refl _
  · exact .lst rfl h

theorem Spec.SameVal.not_abb {a b : Val} (h : SameVal a b) (e : Expr) : a ≠ .abb e := by
  rintro rfl; simp [SameVal] at h

theorem Ext.back {u x y : Val} (h : Ext u y) (hs : SameVal x y) : Ext u x := by
  cases h with
  | refl => exact hs.symm.ext
  | num hb h => cases x <;> simp only [SameVal] at hs; exact .num hb (h.trans hs.symm)
  | lst hb h => cases x <;> simp only [SameVal] at hs; exact .lst hb (h.trans hs.symm)
  | dic h1 h2 => cases x <;> simp only [SameVal] at hs

/-- a new element that is also in `v'` extends what was there -/
theorem setArr_over {o : Option Val} {is : List Int} {x new v' y : Val} (h : setArr o is x = .ok new)
    (ho : ∀ u, o = some u → Ext u v') (hy : getArr v' is = .ok y) (hx : SameVal x y) : ∀ u, o = some u → Ext u new := by
  induction is generalizing o new v' with
  | nil =>
    rw [getArr_nil] at hy; cases hy
    have : new = x := by
      cases o with
      | none => simp only [setArr, Except.ok.injEq] at h; exact h.symm
      | some v => cases v <;> simp only [setArr, Except.ok.injEq] at h <;> exact h.symm
    rw [this]
    exact fun u hu => (ho u hu).back hx
  | cons i is ih =>
    intro u hu
    subst hu
    cases u with
    | dic d =>
      obtain ⟨D, rfl⟩ := (ho _ rfl).dic_inv
      simp only [getArr] at hy
      cases hg : dGet (Key.idx i) D with
      | none => rw [hg] at hy; cases hy
      | some u' =>
        rw [hg] at hy
        dsimp only at hy
        simp only [setArr, bind_ok, pure_ok] at h
        obtain ⟨n1, h1, rfl⟩ := h
        refine .of_get fun k u hu => ?_
        by_cases hk : Key.idx i = k
        · subst hk
          rw [dGet_dSet_self]
          refine ⟨_, rfl, ih h1 (fun u hu => ?_) hy u hu⟩
          obtain ⟨u2, hu2, he⟩ := (ho _ rfl).get hu
          rw [hg] at hu2; cases hu2; exact he
        · rw [dGet_dSet_ne hk]; exact ⟨u, hu, .refl _⟩
    | _ => simp [setArr] at h

theorem setVarval_fwd {A N : List Name} {d d' w D : DDic} (h : Lev A N d w D) (hh : HoldAll d D) {lv : Dict Name Int}
    {ups : List DDic} {r : VarRef} {val u : Val} (hs : setVarval d lv r val = .ok d')
    (hu : getVarval ⟨w, ups, lv⟩ false r = .ok u) (hl : dGet r.name lv = none) (hx : SameVal val u) :
    Step d d' ∧ HoldAll d' D := by
  have hn := hx.not_abb
  obtain ⟨v, is, h1, h2, h3⟩ := local_value hu hl
  obtain ⟨h4, h5⟩ := h.data h1 h3 (fun e he => hn e ((hx.ext.abb_iff e).2 he))
  unfold setVarval at hs
  simp only [bind_ok, pure_ok] at hs
  obtain ⟨is', hi', new, hnew, rfl⟩ := hs
  rw [h2] at hi'; cases hi'
  have hold : ∀ u0, dGet (.var r.name) d = some u0 → Ext u0 v := by
    intro u0 hu0
    obtain ⟨v2, hv2, he2⟩ := hh (.var r.name) u0 rfl hu0 (fun e he => h5 e (he ▸ hu0))
    rw [h4] at hv2; cases hv2; exact he2
  exact ⟨Step.set (setArr_not_abb hn hnew) (setArr_over hnew hold h3 hx),
    (set_fwd h hh (setArr_not_abb hn hnew) h4 h5 (setArr_into hnew hold h3 hx.ext)).2⟩

/-! ## coverage -/

theorem valAt_getArr {v u : Val} {is : List Int} : valAt v (is.map Key.idx) = some u ↔ getArr v is = .ok u := by
  induction is generalizing v with
  | nil => rw [getArr_nil]; simp [valAt]
  | cons i is ih =>
    cases v with
    | dic d =>
      simp only [List.map_cons, valAt, getArr]
      cases hg : dGet (Key.idx i) d with
      | none => simp
      | some x => exact ih
    | _ => simp [valAt, getArr]

theorem Ext.leaf {v v' : Val} (h : Ext v v') : isLeaf v = isLeaf v' := by
  cases h <;> rfl

theorem Ext.valAt {u u' v : Val} {q : Path} (h : Ext u u') (hv : Spec.valAt u q = some v) :
    ∃ v', Spec.valAt u' q = some v' ∧ Ext v v' := by
  induction q generalizing u u' with
  | nil => simp only [Spec.valAt, Option.some.injEq] at hv ⊢; subst hv; exact ⟨u', rfl, h⟩
  | cons k q ih =>
    cases u with
    | dic d =>
      obtain ⟨d', rfl⟩ := h.dic_inv
      simp only [Spec.valAt] at hv ⊢
      cases hg : dGet k d with
      | none => rw [hg] at hv; cases hv
      | some x =>
        rw [hg] at hv
        obtain ⟨x', hx', he⟩ := h.get hg
        rw [hx']
        exact ih he hv
    | _ => simp [Spec.valAt] at hv

theorem valAt_append (v : Val) (q q' : Path) : valAt v (q ++ q') = (valAt v q).bind fun u => valAt u q' := by
  induction q generalizing v with
  | nil => simp [valAt]
  | cons k q ih =>
    cases v with
    | dic d =>
      simp only [List.cons_append, valAt]
      cases hg : dGet k d with
      | none => simp
      | some x => exact ih x
    | _ => simp [valAt]

/-- there is a number, text or list at the place -/
def Cov (d : DDic) (q : Path) : Prop :=
  ∃ k ks u v, q = k :: ks ∧ k.data = true ∧ dGet k d = some u ∧ valAt u ks = some v ∧ isLeaf v = true

theorem leaf_not_abb {u v : Val} {ks : Path} (h : valAt u ks = some v) (hl : isLeaf v = true) (e : Expr) : u ≠ .abb e := by
  rintro rfl
  cases ks with
  | nil => simp only [valAt, Option.some.injEq] at h; subst h; cases hl
  | cons => simp [valAt] at h

theorem Cov.grow {d d' : DDic} {q : Path} (h : Cov d q) (hg : Grow d d') : Cov d' q := by
  obtain ⟨k, ks, u, v, rfl, hk, h1, h2, h3⟩ := h
  obtain ⟨u', hu', he⟩ := hg k u hk (leaf_not_abb h2 h3) h1
  obtain ⟨v', hv', he'⟩ := he.valAt h2
  exact ⟨k, ks, u', v', rfl, hk, hu', hv', he'.leaf ▸ h3⟩

theorem Cov.valAt {d : DDic} {q : Path} (h : Cov d q) : ∃ v, Spec.valAt (.dic d) q = some v ∧ isLeaf v = true := by
  obtain ⟨k, ks, u, v, rfl, hk, h1, h2, h3⟩ := h
  exact ⟨v, by simp only [Spec.valAt, h1]; exact h2, h3⟩

theorem Step.found {d d' : DDic} (h : Step d d') {ups : List DDic} {lv : Dict Name Int} {r : VarRef} {v : Val}
    (hl : dGet r.name lv = none) (h1 : getVarval ⟨d, ups, lv⟩ false r = .ok v) :
    ∃ v', getVarval ⟨d', ups, lv⟩ false r = .ok v' := by
  obtain ⟨u, is, h2, h3, h4⟩ := local_value h1 hl
  rw [getVarval_local]
  have hf : dHas r.name lv = false := dHas_none.2 hl
  simp only [hf, Bool.and_false, Bool.false_eq_true, if_false, hl]
  by_cases ha : ∃ e, u = .abb e
  · obtain ⟨e, rfl⟩ := ha
    rw [(h.abb.1 _ e).1 h2]
    exact ⟨v, by simp only [h3, bind, Except.bind]; exact h4⟩
  · obtain ⟨u', hu', he⟩ := h.grow (.var r.name) u rfl (fun e h => ha ⟨e, h⟩) h2
    obtain ⟨v2, hv2, _⟩ := he.getArr h4
    rw [hu']
    exact ⟨v2, by simp only [h3, bind, Except.bind]; exact hv2⟩

theorem usesRef_mem {w : DDic} {lv : Dict Name Int} {r : VarRef} {q : Path} (h : q ∈ usesRef w lv r) :
    dGet r.name lv = none ∧ ∃ is v, r.idx.mapM (idxVal lv) = .ok is ∧ q = .var r.name :: is.map Key.idx ∧
      valAt (.dic w) q = some v ∧ isLeaf v = true := by
  unfold usesRef at h
  split at h
  · simp at h
  · rename_i hl
    refine ⟨dHas_none.1 (by simpa using hl), ?_⟩
    unfold refPath at h
    cases hi : r.idx.mapM (idxVal lv) with
    | error e => simp [hi] at h
    | ok is =>
      simp only [hi] at h
      cases hv : valAt (.dic w) (.var r.name :: is.map Key.idx) with
      | none => simp [hv] at h
      | some v =>
        simp only [hv] at h
        split at h
        · simp only [List.mem_singleton] at h
          subst h
          exact ⟨is, v, rfl, rfl, hv, by assumption⟩
        · simp at h

/-- a variable of the writer that is found while reading is a number, text or list -/
theorem cov_found {A N : List Name} {d w D : DDic} (h : Lev A N d w D) (hh : HoldAll d D) {ups : List DDic}
    {lv : Dict Name Int} {r : VarRef} {v : Val} {q : Path} (hq : q ∈ usesRef w lv r)
    (hv : getVarval ⟨d, ups, lv⟩ false r = .ok v) : Cov d q := by
  obtain ⟨hl, is, v', hi, rfl, hw, hleaf⟩ := usesRef_mem hq
  obtain ⟨u, is', h2, h3, h4⟩ := local_value hv hl
  rw [hi] at h3; cases h3
  obtain ⟨u', hu', he⟩ := (h.cover hh.hold).ext _ _ h2
  obtain ⟨v2, hv2, he2⟩ := he.getArr h4
  simp only [valAt, hu'] at hw
  rw [valAt_getArr, hv2] at hw
  cases hw
  exact ⟨_, _, u, v, rfl, rfl, h2, valAt_getArr.2 h4, he2.leaf ▸ hleaf⟩

/-! ## fields -/

theorem nonzero_ok {env : Env} {o : EvalOpts} {rec : Expr → Res Lin} {e : Expr} {v : Lin} (hn : nonzero e = true)
    (h : evalWith env o rec e = .ok v) : ∃ c, v.c = .num c ∧ c.val ≠ 0 ∧ v.k.val = 0 := by
  induction e generalizing v with
  | num x =>
    simp only [evalWith, Except.ok.injEq] at h; subst h
    exact ⟨x, rfl, by simpa [nonzero] using hn, by simp [PyNum.val]⟩
  | neg e ih =>
    simp only [evalWith, bind_ok] at h
    obtain ⟨v1, h1, h⟩ := h
    obtain ⟨c, k1, k2, k3⟩ := ih (by simpa [nonzero] using hn) h1
    unfold linNeg at h
    simp only [bind_ok, pure_ok] at h
    obtain ⟨a, ha, c1, hc1, kk, hkk, rfl⟩ := h
    have := scalar_ok ha
    rw [k1] at this; cases this
    refine ⟨c1, rfl, ?_, ?_⟩
    · rw [pNeg_val hc1]; simpa using k2
    · dsimp only; rw [pNeg_val hkk, k3]; simp
  | _ => simp [nonzero] at hn

theorem firm_with {env : Env} {ci : Bool} {rec : Expr → Res Lin} {e : Expr} {v : Lin} {r : VarRef} (hr : r ∈ firm e)
    (h : evalWith env ⟨false, ci, true⟩ rec e = .ok v) :
    (∃ u, getVarval env false r = .ok u) ∨ (v.x = some r ∧ v.k.val ≠ 0) := by
  have hvar : ∀ (v : Lin), evalVar env ⟨false, ci, true⟩ rec r = .ok v →
      (∃ u, getVarval env false r = .ok u) ∨ (v.x = some r ∧ v.k.val ≠ 0) := by
    intro v h
    rcases evalVar_cases h with ⟨e, hg, _⟩ | ⟨u, hg, _, _⟩ | ⟨_, rfl, h2 | ⟨e, e', hg, _, _⟩⟩
    · exact .inl ⟨_, hg⟩
    · exact .inl ⟨_, hg⟩
    · exact .inr ⟨rfl, by simp [PyNum.val]⟩
    · exact .inl ⟨_, hg⟩
  induction e generalizing v with
  | num x => simp [firm] at hr
  | desired x => simp [firm] at hr
  | var q => simp only [firm, List.mem_singleton] at hr; subst hr; exact hvar v h
  | incons q => simp only [firm, List.mem_singleton] at hr; subst hr; exact hvar v h
  | neg e ih =>
    simp only [evalWith, bind_ok] at h
    obtain ⟨v1, h1, h⟩ := h
    unfold linNeg at h
    simp only [bind_ok, pure_ok] at h
    obtain ⟨a, _, c1, _, k1, hk, rfl⟩ := h
    rcases ih (by simpa [firm] using hr) h1 with g | ⟨g1, g2⟩
    · exact .inl g
    · exact .inr ⟨g1, by dsimp only; rw [pNeg_val hk]; simpa using g2⟩
  | add a b i1 i2 =>
    simp only [evalWith, bind_ok] at h
    obtain ⟨v1, h1, v2, h2, h⟩ := h
    unfold linAddSub at h
    split at h
    · cases h
    · rename_i hu
      simp only [Lin.unk, Bool.and_eq_true, decide_eq_true_eq, not_and, not_not] at hu
      simp only [bind_ok, pure_ok] at h
      obtain ⟨a1, _, a2, _, c1, _, k1, hk, rfl⟩ := h
      dsimp only
      rw [pAdd_val hk]
      simp only [firm, List.mem_append] at hr
      rcases hr with hr | hr
      · rcases i1 hr h1 with g | ⟨g1, g2⟩
        · exact .inl g
        · exact .inr ⟨by simp [Lin.unk, g2, g1], by rw [hu g2]; simpa using g2⟩
      · rcases i2 hr h2 with g | ⟨g1, g2⟩
        · exact .inl g
        · have : v1.k.val = 0 := by by_contra hc; exact g2 (hu hc)
          exact .inr ⟨by simp [Lin.unk, this, g1], by rw [this]; simpa using g2⟩
  | sub a b i1 i2 =>
    simp only [evalWith, bind_ok] at h
    obtain ⟨v1, h1, v2, h2, h⟩ := h
    unfold linAddSub at h
    split at h
    · cases h
    · rename_i hu
      simp only [Lin.unk, Bool.and_eq_true, decide_eq_true_eq, not_and, not_not] at hu
      simp only [bind_ok, pure_ok] at h
      obtain ⟨a1, _, a2, _, c1, _, k1, hk, rfl⟩ := h
      dsimp only
      rw [pSub_val hk]
      simp only [firm, List.mem_append] at hr
      rcases hr with hr | hr
      · rcases i1 hr h1 with g | ⟨g1, g2⟩
        · exact .inl g
        · exact .inr ⟨by simp [Lin.unk, g2, g1], by rw [hu g2]; simpa using g2⟩
      · rcases i2 hr h2 with g | ⟨g1, g2⟩
        · exact .inl g
        · have : v1.k.val = 0 := by by_contra hc; exact g2 (hu hc)
          exact .inr ⟨by simp [Lin.unk, this, g1], by rw [this]; simpa using g2⟩
  | mul a b i1 i2 =>
    simp only [evalWith, bind_ok] at h
    obtain ⟨v1, h1, v2, h2, h⟩ := h
    simp only [firm, List.mem_append] at hr
    unfold linMul at h
    split at h
    · cases h
    · rename_i hu
      simp only [Lin.unk, Bool.and_eq_true, decide_eq_true_eq, not_and, not_not] at hu
      split at h
      · rename_i hz
        have hz : v1.k.val = 0 := by simpa [Lin.unk] using hz
        simp only [bind_ok, pure_ok] at h
        obtain ⟨a1, ha1, a2, ha2, c1, _, k1, hk, rfl⟩ := h
        dsimp only
        rw [pMul_val hk]
        rcases hr with hr | hr
        · split at hr
          · rename_i hn
            obtain ⟨c, e1, e2, e3⟩ := nonzero_ok hn h1
            have := scalar_ok ha1; rw [e1] at this; cases this
            rcases i2 hr h2 with g | ⟨g1, g2⟩
            · exact .inl g
            · exact .inr ⟨g1, mul_ne_zero e2 g2⟩
          · simp at hr
        · split at hr
          · rcases i1 hr h1 with g | ⟨g1, g2⟩
            · exact .inl g
            · exact absurd hz g2
          · simp at hr
      · rename_i hz
        have hz : v1.k.val ≠ 0 := by simpa [Lin.unk] using hz
        simp only [bind_ok, pure_ok] at h
        obtain ⟨a1, ha1, a2, ha2, c1, _, k1, hk, rfl⟩ := h
        dsimp only
        rw [pMul_val hk]
        rcases hr with hr | hr
        · split at hr
          · rename_i hn
            obtain ⟨c, e1, e2, e3⟩ := nonzero_ok hn h1
            exact absurd e3 hz
          · simp at hr
        · split at hr
          · rename_i hn
            obtain ⟨c, e1, e2, e3⟩ := nonzero_ok hn h2
            have := scalar_ok ha2; rw [e1] at this; cases this
            rcases i1 hr h1 with g | ⟨g1, g2⟩
            · exact .inl g
            · exact .inr ⟨g1, mul_ne_zero g2 e2⟩
          · simp at hr
  | div a b i1 i2 =>
    simp only [evalWith, bind_ok] at h
    obtain ⟨v1, h1, v2, h2, h⟩ := h
    simp only [firm] at hr
    split at hr
    · unfold linDiv at h
      split at h
      · cases h
      · simp only [bind_ok, pure_ok] at h
        obtain ⟨a1, _, a2, _, c1, _, k1, hk, rfl⟩ := h
        rcases i1 hr h1 with g | ⟨g1, g2⟩
        · exact .inl g
        · exact .inr ⟨g1, by dsimp only; rw [(pDiv_val hk).2]; exact div_ne_zero g2 (pDiv_val hk).1⟩
    · simp at hr
  | mod a b i1 i2 => simp [firm] at hr

theorem firm_ok {fuel : Nat} {env : Env} {ci : Bool} {e : Expr} {v : Lin} {r : VarRef} (hr : r ∈ firm e)
    (h : evalExpr fuel env ⟨false, ci, true⟩ e = .ok v) :
    (∃ u, getVarval env false r = .ok u) ∨ v.x = some r := by
  cases fuel with
  | zero => exact (firm_with hr h).imp_right And.left
  | succ n => exact (firm_with hr h).imp_right And.left

/-- what the written record says about the expressions of a record that is read -/
def Fields (fuel : Nat) (env : Env) (fs : List (Expr × Val)) : Prop :=
  ∀ p ∈ fs, ∃ v', evalKnown fuel env false false p.1 = .ok v' ∧ SameVal p.2 v'

theorem mapOnce_flag {fuel : Nat} {po : POpts} {ups : List DDic} {lv : Dict Name Int} {fs : List (Expr × Val)}
    {cur cur' : DDic} {f' : Bool} (h : mapOnce fuel po ups lv fs cur true = .ok (cur', f')) : f' = true := by
  induction fs generalizing cur with
  | nil => simp only [mapOnce, Except.ok.injEq, Prod.mk.injEq] at h; exact h.2.symm
  | cons p fs ih =>
    obtain ⟨e, src⟩ := p
    simp only [mapOnce] at h
    split at h
    · exact ih h
    · cases h
    · split at h
      · split at h
        · cases h
        · split at h
          · cases h
          · exact ih h
      · split at h
        · cases h
        · split at h
          · cases h
          · exact ih h

theorem mapOnce_fwd {A N : List Name} {w D : DDic} {fuel fuel' : Nat} {po : POpts} {ups ups' : List DDic}
    {lv : Dict Name Int} {fs : List (Expr × Val)} (hfs : Fields fuel' ⟨w, ups', lv⟩ fs)
    (hcl : ∀ p ∈ fs, Clean p.2) {a : Bool} {cur cur' : DDic} {f f' : Bool} (hlvl : Lvl a cur)
    (hl : Lev A N cur w D) (hh : HoldAll cur D)
    (h : mapOnce fuel po ups lv fs cur f = .ok (cur', f')) : Step cur cur' ∧ HoldAll cur' D ∧
      (f' = false → ∀ p ∈ fs, ∀ r ∈ firm p.1, dGet r.name lv = none → ∃ u, getVarval ⟨cur', ups, lv⟩ false r = .ok u) := by
  induction fs generalizing cur f with
  | nil =>
    simp only [mapOnce, Except.ok.injEq, Prod.mk.injEq] at h
    obtain ⟨rfl, rfl⟩ := h
    exact ⟨.refl _, hh, fun _ p hp => by simp at hp⟩
  | cons p fs ih =>
    obtain ⟨e, src⟩ := p
    obtain ⟨v', hv', hsv⟩ := hfs (e, src) (by simp)
    have ih' := fun {cur f} => ih (cur := cur) (f := f) (fun p hp => hfs p (List.mem_cons_of_mem _ hp))
      (fun p hp => hcl p (List.mem_cons_of_mem _ hp))
    simp only [mapOnce] at h
    split at h
    · obtain ⟨g1, g2, g3⟩ := ih' hlvl hl hh h
      refine ⟨g1, g2, fun hf => ?_⟩
      rw [mapOnce_flag h] at hf; cases hf
    · cases h
    · rename_i v hv
      split at h
      · rename_i hx
        split at h
        · cases h
        · split at h
          · cases h
          · obtain ⟨g1, g2, g3⟩ := ih' hlvl hl hh h
            refine ⟨g1, g2, fun hf p hp r hr hlr => ?_⟩
            rcases List.mem_cons.1 hp with rfl | hp
            · rcases firm_ok hr hv with ⟨u, hu⟩ | hxr
              · exact g1.found hlr hu
              · rw [hx] at hxr; cases hxr
            · exact g3 hf p hp r hr hlr
      · rename_i r hx
        split at h
        · cases h
        · rename_i val hval
          split at h
          · cases h
          · rename_i cur1 hset
            obtain ⟨err, hmiss, hm⟩ := evalExpr_miss fuel hv hx
            obtain ⟨hlv, _⟩ := missing_local hmiss hm
            obtain ⟨c0, hc0, hsol⟩ := solveField_cases hval
            obtain ⟨ρ, l', rfl, hρ, hag⟩ := field_again (hl.cover hh.hold) hv hv'
            have key : ∃ u, getVarval ⟨w, ups', lv⟩ false r = .ok u ∧ SameVal val u := by
              cases hag with
              | num c c' h1 h2 h3 h4 h5 =>
                rw [hc0] at h1; cases h1
                obtain ⟨u, hu⟩ := h5 r hx
                refine ⟨_, hu, ?_⟩
                have h3' : c'.val = c0.val + v.k.val * u.val := by
                  rw [h3]; simp only [Lin.at, hx, hρ r u hu]
                rw [h2] at hsv
                dsimp only at hsv
                rcases hsol with ⟨k1, k2, rfl⟩ | ⟨s, x, rfl, rfl, k1, k2⟩
                · cases val <;> simp only [SameVal] at hsv
                  rw [h3', k1, k2] at hsv
                  simp only [SameVal]
                  linarith
                · simp only [SameVal] at hsv
                  rw [h3', k2] at hsv
                  simp only [SameVal]
                  have : v.k.val * x.val = v.k.val * u.val := by linarith
                  exact mul_left_cancel₀ k1 this
              | data h1 => rw [h1] at hx; cases hx
              | unknown r0 u h1 h2 h3 h4 =>
                subst h1
                cases hx
                rw [h3] at hsv
                refine ⟨u, h2, ?_⟩
                rcases hsol with ⟨k1, k2, rfl⟩ | ⟨s, x, rfl, rfl, k1, k2⟩
                · exact hsv
                · cases u <;> simp only [SameVal] at hsv
                  exact absurd rfl (h4 _)
              | other h1 => exact absurd hc0 (h1 _)
            obtain ⟨u, hu, hsame⟩ := key
            obtain ⟨g1, g2⟩ := setVarval_fwd hl hh hset hu hlv hsame
            have hlv2 := hlvl.setVarval (solveField_clean (hcl (e, src) (by simp)) hval) hset
            obtain ⟨g3, g4, g5⟩ := ih' hlv2.1 (hl.sync' g1.abb hlv2.2) g2 h
            refine ⟨g1.trans g3, g4, fun hf p hp q hq hlq => ?_⟩
            rcases List.mem_cons.1 hp with rfl | hp
            · rcases firm_ok hq hv with ⟨u, hu⟩ | hxq
              · exact (g1.trans g3).found hlq hu
              · rw [hx] at hxq; cases hxq
                exact g3.found hlq (setVarval_same (ups := ups) hset ⟨rfl, rfl⟩ hlq)
            · exact g5 hf p hp q hq hlq

theorem mapTries_fwd {A N : List Name} {w D : DDic} {fuel fuel' : Nat} {po : POpts} {ups ups' : List DDic}
    {lv : Dict Name Int} {fs : List (Expr × Val)} (hfs : Fields fuel' ⟨w, ups', lv⟩ fs)
    (hcl : ∀ p ∈ fs, Clean p.2) {a : Bool} (n : Nat) {cur cur' : DDic} (hlvl : Lvl a cur)
    (hl : Lev A N cur w D) (hh : HoldAll cur D)
    (h : mapTries fuel po ups lv fs n cur = .ok cur') : Step cur cur' ∧ HoldAll cur' D ∧
      ∀ p ∈ fs, ∀ r ∈ firm p.1, dGet r.name lv = none → ∃ u, getVarval ⟨cur', ups, lv⟩ false r = .ok u := by
  induction n generalizing cur with
  | zero => simp [mapTries] at h
  | succ n ih =>
    simp only [mapTries] at h
    split at h
    · cases h
    · rename_i cur1 h1
      cases h
      obtain ⟨g1, g2, g3⟩ := mapOnce_fwd hfs hcl hlvl hl hh h1
      exact ⟨g1, g2, g3 rfl⟩
    · rename_i cur1 h1
      obtain ⟨g1, g2, _⟩ := mapOnce_fwd hfs hcl hlvl hl hh h1
      have hl2 := mapOnce_lvl hcl hlvl h1
      obtain ⟨g3, g4, g5⟩ := ih hl2.1 (hl.sync' g1.abb hl2.2) g2 h
      exact ⟨g1.trans g3, g4, g5⟩

theorem mapWrite_fields {fuel : Nat} {env : Env} {es : List Expr} {vals out : List Val}
    (hw : mapWrite fuel env es = .ok out) (hs : List.Forall₂ SameVal vals out) : Fields fuel env (es.zip vals) := by
  have h3 := mapM_forall₂ hw
  clear hw
  induction es generalizing vals out with
  | nil => intro p hp; simp at hp
  | cons e es ih =>
    cases h3 with
    | cons h4 h5 =>
      cases hs with
      | cons h6 h7 =>
        intro p hp
        rw [List.zip_cons_cons, List.mem_cons] at hp
        rcases hp with rfl | hp
        · exact ⟨_, h4, h6⟩
        · exact ih h7 h5 p hp

theorem mem_zip_left {α β : Type} {l : List α} {m : List β} (hl : l.length = m.length) {x : α} (hx : x ∈ l) :
    ∃ y, (x, y) ∈ l.zip m := by
  induction l generalizing m with
  | nil => simp at hx
  | cons a l ih =>
    cases m with
    | nil => simp at hl
    | cons b m =>
      rcases List.mem_cons.1 hx with rfl | hx
      · exact ⟨b, by simp⟩
      · obtain ⟨y, hy⟩ := ih (by simpa using hl) hx
        exact ⟨y, by simp [hy]⟩

/-- what a part of a record does to the dictionary when it is read again -/
structure Adv (D d d' : DDic) (U : List Path) : Prop where
  step : Step d d'
  hold : HoldAll d' D
  cov : ∀ q ∈ U, Cov d' q

theorem Adv.trans {D d d1 d2 : DDic} {U V : List Path} (h1 : Adv D d d1 U) (h2 : Adv D d1 d2 V) : Adv D d d2 (U ++ V) := by
  refine ⟨h1.step.trans h2.step, h2.hold, fun q hq => ?_⟩
  rcases List.mem_append.1 hq with hq | hq
  · exact (h1.cov q hq).grow h2.step.grow
  · exact h2.cov q hq

theorem mapFields_fwd {A N : List Name} {w D : DDic} {fuel' : Nat} {ups' : List DDic} {c : RCtx} {es : List Expr}
    {vals out : List Val} {a : Bool} {s s' : RSt} (hlen : es.length = vals.length) (hcl : ∀ v ∈ vals, Clean v)
    (hlvl : Lvl a s.cur)
    (hl : Lev A N s.cur w D) (hh : HoldAll s.cur D) (hw : mapWrite fuel' ⟨w, ups', s.lv⟩ es = .ok out)
    (hs : List.Forall₂ SameVal vals out) (h : mapFields c es vals s = .ok s') :
    Adv D s.cur s'.cur (usesFields w s.lv es) := by
  obtain ⟨cur, h1, rfl⟩ := mapFields_ok h
  obtain ⟨g1, g2, g3⟩ := mapTries_fwd (mapWrite_fields hw hs) (fun p hp => hcl p.2 (List.of_mem_zip hp).2) 3 hlvl hl hh h1
  have hup := (mapRead_lvl hcl hlvl h1).2
  refine ⟨g1, g2, fun q hq => ?_⟩
  unfold usesFields at hq
  obtain ⟨r, hr, hq⟩ := List.mem_flatMap.1 hq
  obtain ⟨e, he, hr⟩ := List.mem_flatMap.1 hr
  obtain ⟨v, hv⟩ := mem_zip_left hlen he
  obtain ⟨u, hu⟩ := g3 _ hv r hr (usesRef_mem hq).1
  exact cov_found (hl.sync' g1.abb hup) g2 hq hu

end Verif
