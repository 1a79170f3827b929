import Verif.Lemmas.Extend
import Verif.Spec.Tidy
/-
The fields of a record that has been read, computed again from the dictionary.
-/
namespace Verif
open Spec

variable [Lit]

theorem Spec.SameVal.trans {a b c : Val} (h1 : SameVal a b) (h2 : SameVal b c) : SameVal a c := by
  cases a <;> cases b <;> simp only [SameVal] at h1 <;> cases c <;> simp only [SameVal] at h2 ⊢
  · exact h1.trans h2
  · exact h1.trans h2
  · exact h1.trans h2

theorem Spec.SameVal.symm {a b : Val} (h : SameVal a b) : SameVal b a := by
  cases a <;> cases b <;> simp only [SameVal] at h ⊢
  · exact h.symm
  · exact h.symm
  · exact h.symm

theorem checkField_strict {po : POpts} (hs : Strict po) (hi : po.ignoreAll = false) {e : Expr} {src exp : Val}
    (h : checkField po e src exp = .ok ()) : SameVal src exp := by
  obtain ⟨h1, h2, h3, h4⟩ := hs
  unfold checkField at h
  split at h
  · cases h
  · simp only [h1, h2, h3, h4, hi, bind_ok, Bool.false_eq_true, if_false, Bool.false_and, Bool.not_false, if_true,
      Except.ok.injEq, exists_eq_left'] at h
    split at h
    · cases h
    · rename_i hne
      cases src <;> cases exp <;> simp [Val.ne, SameVal] at hne ⊢ <;> exact hne

/-- a field is computed again -/
theorem field_again {fuel fuel' : Nat} {cur w : DDic} {ups ups' : List DDic} {lv : Dict Name Int} {ci : Bool} {e : Expr}
    {v : Lin} {v' : Val} (hc : Cover cur w) (he : evalExpr fuel ⟨cur, ups, lv⟩ ⟨false, ci, true⟩ e = .ok v)
    (hw : evalKnown fuel' ⟨w, ups', lv⟩ false false e = .ok v') :
    ∃ (ρ : VarRef → ℚ) (l' : Lin), l'.c = v' ∧ (∀ r u, getVarval ⟨w, ups', lv⟩ false r = .ok (.num u) → ρ r = u.val) ∧
      Agree false ⟨w, ups', lv⟩ ρ v l' := by
  unfold evalKnown at hw
  simp only [bind_ok, pure_ok] at hw
  obtain ⟨l', hl', rfl⟩ := hw
  refine ⟨fun r => match getVarval ⟨w, ups', lv⟩ false r with | .ok (.num u) => u.val | _ => 0, l', rfl, ?_, ?_⟩
  · intro r u h; simp only [h]
  · refine evalExpr_agree (P := fun _ => True) fuel fuel' (o := ⟨false, ci, true⟩) (o' := ⟨false, false, false⟩)
      rfl rfl ?_ ?_ ?_ e (fun _ _ => trivial) he hl'
    · intro r v v' _ h1 h2; exact (hc.h1 r h1 h2).leafRel
    · intro _ r err u _ _ _ h; simp only [h]
    · intro _ r err e _ h1 h2; exact hc.h3 h1 h2 e

theorem LeafRel.same {a b : Val} (h : LeafRel a b) (ha : SameVal a a) : SameVal a b := by
  cases a <;> simp only [SameVal] at ha
  · obtain ⟨y, rfl, hy⟩ := h; exact hy
  · simp only [LeafRel] at h; rw [h]; exact rfl
  · obtain ⟨y, rfl, hy⟩ := h; exact hy

theorem solveField_cases {ci : Bool} {v : Lin} {src val : Val} (h : solveField ci v src = .ok val) :
    ∃ c, v.c = .num c ∧ ((c.val = 0 ∧ v.k.val = 1 ∧ val = src) ∨
      (∃ s x, src = .num s ∧ val = .num x ∧ v.k.val ≠ 0 ∧ s.val = c.val + v.k.val * x.val)) := by
  unfold solveField at h
  split at h
  · rename_i c hc
    refine ⟨c, hc, ?_⟩
    split at h
    · rename_i h0; cases h; exact .inl ⟨h0.1, h0.2, rfl⟩
    · simp only [bind_ok, pure_ok] at h
      obtain ⟨s, hs, d, hd, x, hx, rfl⟩ := h
      refine .inr ⟨s, x, scalar_ok hs, rfl, (pDiv_val hx).1, ?_⟩
      rw [(pDiv_val hx).2, pSub_val hd]
      have := (pDiv_val hx).1
      field_simp; ring
  · cases h

/-- a field from which a variable was computed -/
theorem field_found {fuel fuel' : Nat} {ci ci' : Bool} {cur cur1 w : DDic} {ups ups' : List DDic} {lv : Dict Name Int} {e : Expr} {v : Lin}
    {src val v' : Val} {r : VarRef} (hsrc : SameVal src src) (hv : evalExpr fuel ⟨cur, ups, lv⟩ ⟨false, ci, true⟩ e = .ok v)
    (hx : v.x = some r) (hval : solveField ci' v src = .ok val) (hset : setVarval cur lv r val = .ok cur1) :
    Step cur cur1 ∧ (Cover cur1 w → evalKnown fuel' ⟨w, ups', lv⟩ false false e = .ok v' → SameVal src v') := by
  obtain ⟨err, hmiss, hm⟩ := evalExpr_miss fuel hv hx
  obtain ⟨c0, hc0, hsol⟩ := solveField_cases hval
  have hnabb : ∀ e, val ≠ .abb e := by
    intro e he
    rcases hsol with ⟨_, _, rfl⟩ | ⟨_, _, _, rfl, _⟩
    · rw [he] at hsrc; simp [SameVal] at hsrc
    · cases he
  have hst : Step cur cur1 := setVarval_step hset hmiss hm hnabb
  refine ⟨hst, fun hc hw => ?_⟩
  obtain ⟨hlv, _⟩ := missing_local hmiss hm
  have hget := setVarval_same (ups := ups) hset (r' := r) ⟨rfl, rfl⟩ hlv
  obtain ⟨u', hu', hext⟩ := hc.found (ups' := ups') hlv hget
  obtain ⟨ρ, l', rfl, hρ, hag⟩ := field_again (hc.before hst) hv hw
  cases hag with
  | num c c' h1 h2 h3 h4 h5 =>
    rw [hc0] at h1; cases h1
    obtain ⟨u, hu⟩ := h5 r hx
    rw [hu] at hu'; cases hu'
    rw [h2]
    have h3' : c'.val = c0.val + v.k.val * u.val := by
      rw [h3]; simp only [Lin.at, hx, hρ r u hu]
    rcases hsol with ⟨k1, k2, rfl⟩ | ⟨s, x, rfl, rfl, k1, k2⟩
    · have hl := hext.leafRel.same hsrc
      cases val <;> simp only [SameVal] at hl ⊢
      rw [h3', k1, k2, hl]; ring
    · have hl := hext.leafRel.same (a := .num x) rfl
      simp only [SameVal] at hl ⊢
      rw [h3', k2, hl]
  | data h1 => rw [h1] at hx; cases hx
  | unknown r0 u h1 h2 h3 h4 =>
    subst h1
    cases hx
    cases hc0
    rw [h2] at hu'; cases hu'
    rw [h3]
    rcases hsol with ⟨k1, k2, rfl⟩ | ⟨s, x, rfl, rfl, k1, k2⟩
    · exact hext.leafRel.same hsrc
    · have hl := hext.leafRel.same (a := .num x) rfl
      cases u' <;> simp only [SameVal] at hl
      exact absurd rfl (h4 _)
  | other h1 => exact absurd hc0 (h1 _)

/-- reading fields only adds to the dictionary -/
theorem mapOnce_step {fuel : Nat} {po : POpts} {ups : List DDic} {lv : Dict Name Int} {fs : List (Expr × Val)}
    (hfs : ∀ p ∈ fs, SameVal p.2 p.2) {cur cur' : DDic} {f f' : Bool}
    (h : mapOnce fuel po ups lv fs cur f = .ok (cur', f')) : Step cur cur' := by
  induction fs generalizing cur f with
  | nil => cases h; exact .refl _
  | cons p fs ih =>
    obtain ⟨e, src⟩ := p
    have ih' := fun {cur f} => ih (cur := cur) (f := f) (fun p hp => hfs p (List.mem_cons_of_mem _ hp))
    simp only [mapOnce] at h
    split at h
    · exact ih' h
    · cases h
    · rename_i v hv
      split at h
      · split at h
        · cases h
        · split at h
          · cases h
          · exact ih' h
      · rename_i r hx
        split at h
        · cases h
        · rename_i val hval
          split at h
          · cases h
          · rename_i cur1 hset
            exact (field_found (fuel' := 0) (w := []) (ups' := []) (v' := .mark) (hfs (e, src) (by simp)) hv hx hval hset).1.trans (ih' h)

theorem mapTries_step {fuel : Nat} {po : POpts} {ups : List DDic} {lv : Dict Name Int} {fs : List (Expr × Val)}
    (hfs : ∀ p ∈ fs, SameVal p.2 p.2) (n : Nat) {cur cur' : DDic} (h : mapTries fuel po ups lv fs n cur = .ok cur') :
    Step cur cur' := by
  induction n generalizing cur with
  | zero => simp [mapTries] at h
  | succ n ih =>
    simp only [mapTries] at h
    split at h
    · cases h
    · rename_i cur1 h1
      cases h
      exact mapOnce_step hfs h1
    · rename_i cur1 h1
      exact (mapOnce_step hfs h1).trans (ih h)

theorem mapOnce_rel {fuel : Nat} {po : POpts} (hs : Strict po) (hi : po.ignoreAll = false) {ups : List DDic}
    {lv : Dict Name Int} {fs : List (Expr × Val)} (hfs : ∀ p ∈ fs, SameVal p.2 p.2) {cur cur' : DDic} {f f' : Bool}
    (h : mapOnce fuel po ups lv fs cur f = .ok (cur', f')) :
    Step cur cur' ∧ (f' = false → f = false ∧ ∀ p ∈ fs, ∀ fuel' w ups' v', Cover cur' w →
      evalKnown fuel' ⟨w, ups', lv⟩ false false p.1 = .ok v' → SameVal p.2 v') := by
  induction fs generalizing cur f with
  | nil =>
    simp only [mapOnce, Except.ok.injEq, Prod.mk.injEq] at h
    obtain ⟨rfl, rfl⟩ := h
    exact ⟨.refl _, fun h => ⟨h, by simp⟩⟩
  | cons p fs ih =>
    obtain ⟨e, src⟩ := p
    have hsrc : SameVal src src := hfs (e, src) (by simp)
    have ih' := fun {cur f} => ih (cur := cur) (f := f) (fun p hp => hfs p (List.mem_cons_of_mem _ hp))
    simp only [mapOnce] at h
    split at h
    · obtain ⟨g1, g2⟩ := ih' h
      exact ⟨g1, fun hf => by cases (g2 hf).1⟩
    · cases h
    · rename_i v hv
      split at h
      · rename_i hx
        split at h
        · cases h
        · split at h
          · cases h
          · rename_i hchk
            obtain ⟨g1, g2⟩ := ih' h
            refine ⟨g1, fun hf => ⟨(g2 hf).1, ?_⟩⟩
            intro p hp fuel' w ups' v' hc hw
            rcases List.mem_cons.1 hp with rfl | hp
            · have hsame := checkField_strict hs hi hchk
              obtain ⟨ρ, l', rfl, hρ, hag⟩ := field_again (hc.before g1) hv hw
              cases hag with
              | num c c' h1 h2 h3 h4 h5 =>
                rw [h2]
                rw [h1] at hsame
                cases src <;> simp only [SameVal] at hsame ⊢
                rw [h3, hsame]
                simp [Lin.at, hx]
              | data h1 h2 h3 => exact hsame.trans h3
              | unknown r u h1 => rw [h1] at hx; cases hx
              | other h1 h2 h3 =>
                exfalso
                cases src <;> cases hvc : v.c <;> rw [hvc] at hsame <;> simp only [SameVal] at hsame
                · exact h1 _ hvc
                · exact h3 _ hvc
                · exact h2 _ hvc
            · exact (g2 hf).2 p hp fuel' w ups' v' hc hw
      · rename_i r hx
        split at h
        · cases h
        · rename_i val hval
          split at h
          · cases h
          · rename_i cur1 hset
            obtain ⟨g1, g2⟩ := ih' h
            obtain ⟨hst, -⟩ := field_found (fuel' := 0) (w := []) (ups' := []) (v' := .mark) hsrc hv hx hval hset
            refine ⟨hst.trans g1, fun hf => ⟨(g2 hf).1, ?_⟩⟩
            intro p hp fuel' w ups' v' hc hw
            rcases List.mem_cons.1 hp with rfl | hp
            · exact (field_found hsrc hv hx hval hset).2 (hc.before g1) hw
            · exact (g2 hf).2 p hp fuel' w ups' v' hc hw

theorem mapTries_rel {fuel : Nat} {po : POpts} (hs : Strict po) (hi : po.ignoreAll = false) {ups : List DDic}
    {lv : Dict Name Int} {fs : List (Expr × Val)} (hfs : ∀ p ∈ fs, SameVal p.2 p.2) (n : Nat) {cur cur' : DDic}
    (h : mapTries fuel po ups lv fs n cur = .ok cur') :
    Step cur cur' ∧ ∀ p ∈ fs, ∀ fuel' w ups' v', Cover cur' w →
      evalKnown fuel' ⟨w, ups', lv⟩ false false p.1 = .ok v' → SameVal p.2 v' := by
  induction n generalizing cur with
  | zero => simp [mapTries] at h
  | succ n ih =>
    simp only [mapTries] at h
    split at h
    · cases h
    · rename_i cur1 h1
      cases h
      have := mapOnce_rel hs hi hfs h1
      exact ⟨this.1, (this.2 rfl).2⟩
    · rename_i cur1 h1
      have := mapOnce_rel hs hi hfs h1
      obtain ⟨g1, g2⟩ := ih h
      exact ⟨this.1.trans g1, g2⟩

theorem mapM_forall₂ {α β : Type} {f : α → Res β} {l : List α} {m : List β} (h : l.mapM f = .ok m) :
    List.Forall₂ (fun a b => f a = .ok b) l m := by
  induction l generalizing m with
  | nil => simp only [List.mapM_nil, pure_ok] at h; subst h; exact .nil
  | cons a l ih =>
    simp only [List.mapM_cons, bind_ok, pure_ok] at h
    obtain ⟨b, hb, m', hm, rfl⟩ := h
    exact .cons hb (ih hm)

/-- The fields of a record that has been read, computed again from a dictionary with all that was read. -/
theorem mapRead_again {fuel : Nat} {po : POpts} (hs : Strict po) (hi : po.ignoreAll = false) {ups : List DDic}
    {lv : Dict Name Int} {es : List Expr} {vals : List Val} (hv : ∀ v ∈ vals, SameVal v v) (hlen : es.length = vals.length)
    {cur cur' : DDic} (h : mapRead fuel po ups lv es vals cur = .ok cur') :
    Step cur cur' ∧ ∀ fuel' w ups' out, Cover cur' w → mapWrite fuel' ⟨w, ups', lv⟩ es = .ok out →
      List.Forall₂ SameVal vals out := by
  obtain ⟨g1, g2⟩ := mapTries_rel hs hi (fun p hp => hv p.2 (List.of_mem_zip hp).2) 3 h
  refine ⟨g1, fun fuel' w ups' out hc hw => ?_⟩
  have h3 := mapM_forall₂ hw
  clear hw h hv
  induction es generalizing vals out with
  | nil =>
    cases h3
    cases vals
    · exact .nil
    · cases hlen
  | cons e es ih =>
    cases vals with
    | nil => cases hlen
    | cons v vals =>
      cases h3 with
      | cons h4 h5 =>
        refine .cons (g2 (e, v) (by simp) _ _ _ _ hc h4) (ih (by simpa using hlen) (fun p hp => g2 p ?_) _ h5)
        simp only [List.zip_cons_cons]; exact List.mem_cons_of_mem _ hp

end Verif
