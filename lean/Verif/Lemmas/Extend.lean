import Verif.Lemmas.Agree
import Verif.Lemmas.InterpWrite
/-
Dictionaries that contain others, with the same values; reading only adds to the dictionary.
-/
namespace Verif
open Spec

/-- the unknown of a linear form is a variable without value -/
theorem evalWith_miss {env : Env} {o : EvalOpts} {rec : Expr → Res Lin}
    (hmiss : o.acceptMissing = true → ∀ e x, rec e = .error x → x.isMissing = false)
    (hrec : ∀ e v r, rec e = .ok v → v.x = some r → ∃ err, getVarval env o.lookUp r = .error err ∧ err.isMissing = true)
    (e : Expr) {v : Lin} {r : VarRef} (h : evalWith env o rec e = .ok v) (hx : v.x = some r) :
    ∃ err, getVarval env o.lookUp r = .error err ∧ err.isMissing = true := by
  have hvar : ∀ (q : VarRef) (v : Lin), evalVar env o rec q = .ok v → v.x = some r →
      ∃ err, getVarval env o.lookUp r = .error err ∧ err.isMissing = true := by
    intro q v h hx
    rcases evalVar_cases h with ⟨e, _, hr⟩ | ⟨u, _, _, rfl⟩ | ⟨ha, rfl, h2 | ⟨e, e', hg, hr, hm⟩⟩
    · exact hrec _ _ _ hr hx
    · cases hx
    · cases hx; exact h2
    · rw [hmiss ha _ _ hr] at hm; cases hm
  induction e generalizing v with
  | num x => simp only [evalWith, Except.ok.injEq] at h; subst h; cases hx
  | desired x => simp only [evalWith, Except.ok.injEq] at h; subst h; cases hx
  | var q => exact hvar q v h hx
  | incons q => exact hvar q v h hx
  | neg e ih =>
    simp only [evalWith, bind_ok] at h
    obtain ⟨v1, h1, h⟩ := h
    unfold linNeg at h
    simp only [bind_ok, pure_ok] at h
    obtain ⟨a, _, c1, _, k1, _, rfl⟩ := h
    exact ih h1 hx
  | add a b i1 i2 =>
    simp only [evalWith, bind_ok] at h
    obtain ⟨v1, h1, v2, h2, h⟩ := h
    unfold linAddSub at h
    split at h
    · cases h
    · simp only [bind_ok, pure_ok] at h
      obtain ⟨a1, _, a2, _, c1, _, k1, _, rfl⟩ := h
      dsimp only at hx
      split at hx
      · exact i1 h1 hx
      · exact i2 h2 hx
  | sub a b i1 i2 =>
    simp only [evalWith, bind_ok] at h
    obtain ⟨v1, h1, v2, h2, h⟩ := h
    unfold linAddSub at h
    split at h
    · cases h
    · simp only [bind_ok, pure_ok] at h
      obtain ⟨a1, _, a2, _, c1, _, k1, _, rfl⟩ := h
      dsimp only at hx
      split at hx
      · exact i1 h1 hx
      · exact i2 h2 hx
  | mul a b i1 i2 =>
    simp only [evalWith, bind_ok] at h
    obtain ⟨v1, h1, v2, h2, h⟩ := h
    unfold linMul at h
    split at h
    · cases h
    · split at h
      · simp only [bind_ok, pure_ok] at h
        obtain ⟨a1, _, a2, _, c1, _, k1, _, rfl⟩ := h
        exact i2 h2 hx
      · simp only [bind_ok, pure_ok] at h
        obtain ⟨a1, _, a2, _, c1, _, k1, _, rfl⟩ := h
        exact i1 h1 hx
  | div a b i1 i2 =>
    simp only [evalWith, bind_ok] at h
    obtain ⟨v1, h1, v2, h2, h⟩ := h
    unfold linDiv at h
    split at h
    · cases h
    · simp only [bind_ok, pure_ok] at h
      obtain ⟨a1, _, a2, _, c1, _, k1, _, rfl⟩ := h
      exact i1 h1 hx
  | mod a b i1 i2 =>
    simp only [evalWith, bind_ok] at h
    obtain ⟨v1, h1, v2, h2, h⟩ := h
    unfold linMod at h
    split at h
    · cases h
    · simp only [bind_ok, pure_ok] at h
      obtain ⟨a1, _, a2, _, c1, _, rfl⟩ := h
      cases hx

theorem evalExpr_miss (fuel : Nat) {env : Env} {o : EvalOpts} {e : Expr} {v : Lin} {r : VarRef}
    (h : evalExpr fuel env o e = .ok v) (hx : v.x = some r) :
    ∃ err, getVarval env o.lookUp r = .error err ∧ err.isMissing = true := by
  induction fuel generalizing e v r with
  | zero =>
    exact evalWith_miss (rec := fun _ => .error .recursion) (fun _ _ _ h => by cases h; rfl) (fun _ _ _ h => by cases h) e h hx
  | succ n ih =>
    exact evalWith_miss (rec := evalExpr n env o) (fun ha _ _ h => evalExpr_err n ha h) (fun _ _ _ h hx => ih h hx) e h hx

/-- whether values are compared literally, or only up to the representation of numbers -/
class Lit where
  on : Bool

instance (priority := low) looseLit : Lit := ⟨false⟩

variable [Lit]

/-- `Ext v v'`: what `v` contains is in `v'` too, with the same values. -/
inductive Ext : Val → Val → Prop
  | refl (v : Val) : Ext v v
  | num {x y : PyNum} : Lit.on = false → x.val = y.val → Ext (.num x) (.num y)
  | lst {l m : List PyNum} : Lit.on = false → l.map PyNum.val = m.map PyNum.val → Ext (.lst l) (.lst m)
  | dic {d d' : DDic} : (∀ k u, dGet k d = some u → dHas k d' = true) →
      (∀ k u u', dGet k d = some u → dGet k d' = some u' → Ext u u') → Ext (.dic d) (.dic d')

theorem dHas_some {κ α : Type} [DecidableEq κ] {k : κ} {d : Dict κ α} : dHas k d = true ↔ ∃ v, dGet k d = some v := by
  unfold dHas; exact Option.isSome_iff_exists

theorem dHas_none {κ α : Type} [DecidableEq κ] {k : κ} {d : Dict κ α} : dHas k d = false ↔ dGet k d = none := by
  unfold dHas; cases dGet k d <;> simp

/-- `Ext` for dictionaries key by key -/
theorem Ext.get {d d' : DDic} (h : Ext (.dic d) (.dic d')) {k : Key} {u : Val} (hu : dGet k d = some u) :
    ∃ u', dGet k d' = some u' ∧ Ext u u' := by
  cases h with
  | refl => exact ⟨u, hu, .refl _⟩
  | dic h1 h2 =>
    obtain ⟨u', hu'⟩ := dHas_some.1 (h1 k u hu)
    exact ⟨u', hu', h2 k u u' hu hu'⟩

theorem Ext.of_get {d d' : DDic} (h : ∀ k u, dGet k d = some u → ∃ u', dGet k d' = some u' ∧ Ext u u') :
    Ext (.dic d) (.dic d') :=
  .dic (fun k u hu => by obtain ⟨u', h1, _⟩ := h k u hu; exact dHas_some.2 ⟨u', h1⟩)
    (fun k u u' hu hu' => by obtain ⟨u2, h1, h2⟩ := h k u hu; rw [hu'] at h1; cases h1; exact h2)

theorem Ext.dic_inv {d : DDic} {v : Val} (h : Ext (.dic d) v) : ∃ d', v = .dic d' := by
  cases h with
  | refl => exact ⟨d, rfl⟩
  | dic _ _ => exact ⟨_, rfl⟩

theorem Ext.trans {a b c : Val} (h1 : Ext a b) (h2 : Ext b c) : Ext a c := by
  induction h1 generalizing c with
  | refl => exact h2
  | num hb h => cases h2 with
    | refl => exact .num hb h
    | num _ h' => exact .num hb (h.trans h')
  | lst hb h => cases h2 with
    | refl => exact .lst hb h
    | lst _ h' => exact .lst hb (h.trans h')
  | @dic d d' g1 g2 ih =>
    obtain ⟨d2, rfl⟩ := h2.dic_inv
    refine .of_get fun k u hu => ?_
    obtain ⟨u', hu'⟩ := dHas_some.1 (g1 k u hu)
    obtain ⟨u2, hu2, he⟩ := h2.get hu'
    exact ⟨u2, hu2, ih k u u' hu hu' he⟩

theorem Ext.leafRel {v v' : Val} (h : Ext v v') : LeafRel v v' := by
  cases h with
  | refl => cases v <;> simp [LeafRel] <;> (intro u; cases u <;> simp [SameVal])
  | num _ h => exact ⟨_, rfl, h⟩
  | lst _ h => exact ⟨_, rfl, h⟩
  | dic _ _ => exact ⟨fun u => by cases u <;> simp [SameVal], by simp⟩

theorem Ext.abb_iff {v v' : Val} (h : Ext v v') (e : Expr) : v = .abb e ↔ v' = .abb e := by
  cases h <;> simp

theorem Ext.getArr {u u' v : Val} {is : List Int} (h : Ext u u') (hv : getArr u is = .ok v) :
    ∃ v', getArr u' is = .ok v' ∧ Ext v v' := by
  induction is generalizing u u' with
  | nil =>
    have e1 : v = u := by cases u <;> simp only [Verif.getArr, Except.ok.injEq] at hv <;> exact hv.symm
    subst e1
    exact ⟨u', by cases u' <;> rfl, h⟩
  | cons i is ih =>
    cases u with
    | dic d =>
      obtain ⟨d', rfl⟩ := h.dic_inv
      simp only [Verif.getArr] at hv ⊢
      cases hg : dGet (Key.idx i) d with
      | none => rw [hg] at hv; cases hv
      | some w =>
        rw [hg] at hv
        obtain ⟨w', hw', he⟩ := h.get hg
        rw [hw']
        exact ih he hv
    | _ => simp [Verif.getArr] at hv

/-- setting an element that is missing keeps everything else -/
theorem setArr_ext {u : Val} {is : List Int} {w new : Val} (h : setArr (some u) is w = .ok new)
    (hm : getArr u is = .error .unavailableIndex) : Ext u new := by
  induction is generalizing u new with
  | nil => cases u <;> simp [getArr] at hm
  | cons i is ih =>
    cases u with
    | dic d =>
      simp only [setArr, bind_ok, pure_ok] at h
      obtain ⟨n1, h1, rfl⟩ := h
      refine .of_get fun k u hu => ?_
      by_cases hk : Key.idx i = k
      · subst hk
        rw [dGet_dSet_self]
        rw [hu] at h1
        simp only [getArr, hu] at hm
        exact ⟨_, rfl, ih h1 hm⟩
      · rw [dGet_dSet_ne hk]
        exact ⟨u, hu, .refl _⟩
    | _ => simp [setArr] at h

/-- variables and array elements, not the internal entries -/
def Key.data : Key → Bool
  | .var _ | .idx _ => true
  | _ => false

/-- `Grow d d'`: the variables of `d` are in `d'` with the same values (abbreviations apart). -/
def Grow (d d' : DDic) : Prop :=
  ∀ k v, k.data = true → (∀ e, v ≠ .abb e) → dGet k d = some v → ∃ v', dGet k d' = some v' ∧ Ext v v'

/-- the abbreviations of the two dictionaries are the same -/
def SameAbb (d d' : DDic) : Prop :=
  (∀ n e, dGet (.var n) d = some (.abb e) ↔ dGet (.var n) d' = some (.abb e)) ∧ dGet .abbrevs d = dGet .abbrevs d'

/-- what a record does to the dictionary -/
structure Step (d d' : DDic) : Prop where
  grow : Grow d d'
  abb : SameAbb d d'

theorem Grow.refl (d : DDic) : Grow d d := fun _ v _ _ h => ⟨v, h, .refl _⟩

theorem Grow.trans {a b c : DDic} (h1 : Grow a b) (h2 : Grow b c) : Grow a c := by
  intro k v hk hv hg
  obtain ⟨v', hg', he⟩ := h1 k v hk hv hg
  obtain ⟨v2, hg2, he2⟩ := h2 k v' hk (fun e h => hv e ((he.abb_iff e).2 h)) hg'
  exact ⟨v2, hg2, he.trans he2⟩

theorem SameAbb.refl (d : DDic) : SameAbb d d := ⟨fun _ _ => Iff.rfl, rfl⟩

theorem SameAbb.trans {a b c : DDic} (h1 : SameAbb a b) (h2 : SameAbb b c) : SameAbb a c :=
  ⟨fun n e => (h1.1 n e).trans (h2.1 n e), h1.2.trans h2.2⟩

theorem SameAbb.symm {a b : DDic} (h1 : SameAbb a b) : SameAbb b a := ⟨fun n e => (h1.1 n e).symm, h1.2.symm⟩

theorem Step.refl (d : DDic) : Step d d := ⟨.refl _, .refl _⟩

theorem Step.trans {a b c : DDic} (h1 : Step a b) (h2 : Step b c) : Step a c := ⟨h1.grow.trans h2.grow, h1.abb.trans h2.abb⟩

/-- a variable gets a new content that extends the old one -/
theorem Step.set {d : DDic} {n : Name} {new : Val} (hn : ∀ e, new ≠ .abb e)
    (ho : ∀ u, dGet (.var n) d = some u → Ext u new) : Step d (dSet (.var n) new d) := by
  refine ⟨?_, ?_, ?_⟩
  · intro k v _ _ hg
    by_cases hk : Key.var n = k
    · subst hk; exact ⟨new, dGet_dSet_self _ _ _, ho _ hg⟩
    · exact ⟨v, by rw [dGet_dSet_ne hk]; exact hg, .refl _⟩
  · intro m e
    by_cases hm : n = m
    · subst hm
      rw [dGet_dSet_self]
      constructor
      · intro h; rw [((ho _ h).abb_iff e).1 rfl]
      · intro h; cases h; exact absurd rfl (hn e)
    · rw [dGet_dSet_ne (by simpa using hm)]
  · rw [dGet_dSet_ne (by simp)]

theorem setArr_not_abb {o : Option Val} {is : List Int} {w new : Val} (hw : ∀ e, w ≠ .abb e)
    (h : setArr o is w = .ok new) (e : Expr) : new ≠ .abb e := by
  cases is with
  | nil =>
    have : new = w := by
      cases o with
      | none => simp only [setArr, Except.ok.injEq] at h; exact h.symm
      | some v => cases v <;> simp only [setArr, Except.ok.injEq] at h <;> exact h.symm
    rw [this]; exact hw e
  | cons i is =>
    cases o with
    | none =>
      simp only [setArr, bind_ok, pure_ok] at h
      obtain ⟨_, _, rfl⟩ := h; simp
    | some v =>
      cases v with
      | dic d =>
        simp only [setArr, bind_ok, pure_ok] at h
        obtain ⟨_, _, rfl⟩ := h; simp
      | _ => simp [setArr] at h

theorem Spec.Clean.not_abb {v : Val} (h : Clean v) (e : Expr) : v ≠ .abb e := by cases h <;> simp

/-- a variable without value gets one -/
theorem setVarval_step {cur cur' : DDic} {ups : List DDic} {lv : Dict Name Int} {r : VarRef} {w : Val} {e : Err}
    (h : setVarval cur lv r w = .ok cur') (hg : getVarval ⟨cur, ups, lv⟩ false r = .error e) (hm : e.isMissing = true)
    (hw : ∀ e, w ≠ .abb e) : Step cur cur' := by
  obtain ⟨_, h2⟩ := missing_local hg hm
  unfold setVarval at h
  simp only [bind_ok, pure_ok] at h
  obtain ⟨is, his, new, hnew, rfl⟩ := h
  have h3 := h2 is his
  refine Step.set (setArr_not_abb hw hnew) ?_
  intro u hu
  rw [hu] at hnew h3
  exact setArr_ext hnew h3

/-- the write dictionary `w` has what the read dictionary `d` has, and the same abbreviations -/
structure Cover (d w : DDic) : Prop where
  ext : ∀ n v, dGet (.var n) d = some v → ∃ v', dGet (.var n) w = some v' ∧ Ext v v'
  abb : ∀ n e, dGet (.var n) w = some (.abb e) → dGet (.var n) d = some (.abb e)
  plain : ∀ n v, dGet (.var n) w = some v → Clean v ∨ ∃ e, v = .abb e

theorem Cover.before {d d' w : DDic} (h : Step d d') (hc : Cover d' w) : Cover d w := by
  refine ⟨?_, fun n e hn => (h.abb.1 n e).2 (hc.abb n e hn), hc.plain⟩
  intro n v hv
  by_cases ha : ∃ e, v = .abb e
  · obtain ⟨e, rfl⟩ := ha
    exact hc.ext n _ ((h.abb.1 n e).1 hv)
  · obtain ⟨v', hv', he⟩ := h.grow (.var n) v rfl (fun e h => ha ⟨e, h⟩) hv
    obtain ⟨v2, hv2, he2⟩ := hc.ext n v' hv'
    exact ⟨v2, hv2, he.trans he2⟩

theorem getArr_clean {u v : Val} {is : List Int} (h : Clean u) (hv : getArr u is = .ok v) : Clean v := by
  induction is generalizing u with
  | nil =>
    have e1 : v = u := by cases u <;> simp only [getArr, Except.ok.injEq] at hv <;> exact hv.symm
    rw [e1]; exact h
  | cons i is ih =>
    cases u with
    | dic d =>
      simp only [getArr] at hv
      cases hg : dGet (Key.idx i) d with
      | none => rw [hg] at hv; cases hv
      | some w =>
        rw [hg] at hv
        cases h with
        | dic _ _ _ h3 => exact ih (h3 _ _ hg) hv
    | _ => simp [getArr] at hv

theorem Cover.h1 {d w : DDic} (h : Cover d w) {ups ups' : List DDic} {lv : Dict Name Int} (r : VarRef) {v v' : Val}
    (h1 : getVarval ⟨d, ups, lv⟩ false r = .ok v) (h2 : getVarval ⟨w, ups', lv⟩ false r = .ok v') : Ext v v' := by
  rw [getVarval_local] at h1 h2
  split at h1
  · cases h1
  split at h2
  · cases h2
  cases hl : dGet r.name lv with
  | some i =>
    rw [hl] at h1 h2
    simp only [Except.ok.injEq] at h1 h2
    subst h1; subst h2; exact .refl _
  | none =>
    rw [hl] at h1 h2
    dsimp only at h1 h2
    cases hd : dGet (.var r.name) d with
    | none => rw [hd] at h1; cases h1
    | some u =>
      obtain ⟨u', hu', he⟩ := h.ext _ _ hd
      rw [hd] at h1; rw [hu'] at h2
      simp only [bind_ok] at h1 h2
      obtain ⟨is, hi, h1⟩ := h1
      obtain ⟨is', hi', h2⟩ := h2
      rw [hi] at hi'; cases hi'
      obtain ⟨v2, hv2, he2⟩ := he.getArr h1
      rw [hv2] at h2; cases h2
      exact he2

theorem Cover.found {d w : DDic} (h : Cover d w) {ups ups' : List DDic} {lv : Dict Name Int} {r : VarRef} {v : Val}
    (hl : dGet r.name lv = none)
    (h1 : getVarval ⟨d, ups, lv⟩ false r = .ok v) : ∃ v', getVarval ⟨w, ups', lv⟩ false r = .ok v' ∧ Ext v v' := by
  rw [getVarval_local] at h1
  rw [getVarval_local]
  have hf : dHas r.name lv = false := dHas_none.2 hl
  simp only [hf, Bool.and_false, Bool.false_eq_true, if_false, hl] at h1 ⊢
  cases hd : dGet (.var r.name) d with
  | none => rw [hd] at h1; cases h1
  | some u =>
    obtain ⟨u', hu', he⟩ := h.ext _ _ hd
    rw [hd] at h1; rw [hu']
    simp only [bind_ok] at h1
    obtain ⟨is, hi, h1⟩ := h1
    obtain ⟨v2, hv2, he2⟩ := he.getArr h1
    exact ⟨v2, by simp only [hi, bind, Except.bind]; exact hv2, he2⟩

theorem Cover.h3 {d w : DDic} (h : Cover d w) {ups ups' : List DDic} {lv : Dict Name Int} {r : VarRef} {err : Err}
    (h1 : getVarval ⟨d, ups, lv⟩ false r = .error err) (hm : err.isMissing = true) (e : Expr) :
    getVarval ⟨w, ups', lv⟩ false r ≠ .ok (.abb e) := by
  intro h2
  obtain ⟨hl, h3⟩ := missing_local h1 hm
  rw [getVarval_local] at h2
  have hf : dHas r.name lv = false := dHas_none.2 hl
  simp only [hf, Bool.and_false, Bool.false_eq_true, if_false, hl] at h2
  cases hw : dGet (.var r.name) w with
  | none => rw [hw] at h2; cases h2
  | some u =>
    rw [hw] at h2
    simp only [bind_ok] at h2
    obtain ⟨is, hi, h2⟩ := h2
    have h4 := h3 is hi
    rcases h.plain _ _ hw with hc | ⟨e', rfl⟩
    · exact (getArr_clean hc h2).not_abb e rfl
    · have := h.abb _ _ hw
      rw [this] at h4
      cases is with
      | nil => simp [getArr?, getArr] at h4
      | cons i is => simp [getArr] at h2

end Verif
