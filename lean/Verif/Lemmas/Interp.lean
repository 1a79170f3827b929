import Verif.Lemmas.Level
/-
What a successful run of the interpreter leaves unchanged, by induction over recipes.
-/
namespace Verif
open Spec

theorem Out.andThen_ok {σ : Type} {o : Out σ} {f : σ → Out σ} {s' : σ} :
    o.andThen f = .ok s' ↔ ∃ s1, o = .ok s1 ∧ f s1 = .ok s' := by
  cases o <;> simp [Out.andThen]

theorem Out.lift_ok {σ α : Type} {s : σ} {r : Res α} {f : α → Out σ} {s' : σ} :
    Out.lift s r f = .ok s' ↔ ∃ a, r = .ok a ∧ f a = .ok s' := by
  cases r <;> simp [Out.lift]

theorem Out.ok_inj {σ : Type} {a b : σ} : Out.ok a = .ok b ↔ a = b := by simp

theorem Spec.BlankFrom.refl (lines : List Str) (a : Nat) : BlankFrom lines a a := ⟨le_rfl, fun _ _ _ => by omega⟩

theorem Spec.BlankFrom.trans {lines : List Str} {a b d : Nat} (h1 : BlankFrom lines a b) (h2 : BlankFrom lines b d) :
    BlankFrom lines a d := by
  refine ⟨le_trans h1.1 h2.1, fun j g1 g2 h => ?_⟩
  by_cases hj : j < b
  · exact h1.2 j g1 hj h
  · exact h2.2 j (by omega) g2 h

theorem Spec.Covers.blank {lines : List Str} {a b d : Nat} {sp} (h1 : BlankFrom lines a b) (h2 : Covers lines b sp d) :
    Covers lines a sp d := by
  cases h2 with
  | nil h => exact .nil (h1.trans h)
  | cons h hx hc => exact .cons (h1.trans h) hx hc

theorem Spec.Covers.refl (lines : List Str) (a : Nat) : Covers lines a [] a := .nil (.refl _ _)

theorem Spec.Covers.append {lines : List Str} {a b d : Nat} {sp sp'} (h1 : Covers lines a sp b) (h2 : Covers lines b sp' d) :
    Covers lines a (sp ++ sp') d := by
  induction h1 with
  | nil h => exact h2.blank h
  | cons h hx _ ih => exact .cons h hx (ih h2)

theorem skipBlankLines_ok {lines : List Str} {a b : Nat} (h : skipBlankLines lines a = .ok b) :
    BlankFrom lines a b ∧ ∃ hb : b < lines.length, strip lines[b] ≠ [] := by
  induction hn : lines.length - a generalizing a with
  | zero =>
    rw [skipBlankLines, dif_neg (by omega)] at h; cases h
  | succ n ih =>
    rw [skipBlankLines] at h
    have ha : a < lines.length := by omega
    rw [dif_pos ha] at h
    split at h
    · rename_i hb
      obtain ⟨g1, g2⟩ := ih h (by omega)
      refine ⟨⟨le_trans (Nat.le_succ a) g1.1, fun j h1 h2 hj => ?_⟩, g2⟩
      by_cases e : j = a
      · subst e; simpa [isBlankLine] using hb
      · exact g1.2 j (by omega) h2 hj
    · rename_i hb
      cases h
      exact ⟨.refl _ _, ha, by simpa [isBlankLine] using hb⟩

/-- what a successful step leaves unchanged -/
structure Frame (a : Bool) (c : RCtx) (s s' : RSt) : Prop where
  ups : s'.ups = s.ups
  lv : s'.lv = s.lv
  ign : s'.ignoreAll = s.ignoreAll
  look : s.look = none → s'.look = none
  lvl : Lvl a s.cur → Lvl a s'.cur ∧ dHas .up s'.cur = dHas .up s.cur
  cov : ∃ sp, s'.spans = s.spans ++ sp ∧ Covers c.lines s.ofs sp s'.ofs

theorem Frame.refl (a : Bool) (c : RCtx) (s : RSt) : Frame a c s s :=
  ⟨rfl, rfl, rfl, fun h => h, fun h => ⟨h, rfl⟩, [], by simp, .refl _ _⟩

theorem Frame.trans {a : Bool} {c : RCtx} {s s1 s2 : RSt} (h1 : Frame a c s s1) (h2 : Frame a c s1 s2) :
    Frame a c s s2 := by
  obtain ⟨sp1, e1, c1⟩ := h1.cov
  obtain ⟨sp2, e2, c2⟩ := h2.cov
  refine ⟨h2.ups.trans h1.ups, h2.lv.trans h1.lv, h2.ign.trans h1.ign, fun h => h2.look (h1.look h),
    fun h => ?_, sp1 ++ sp2, by rw [e2, e1, List.append_assoc], c1.append c2⟩
  obtain ⟨g1, g2⟩ := h1.lvl h
  obtain ⟨g3, g4⟩ := h2.lvl g1
  exact ⟨g3, g4.trans g2⟩

theorem Frame.setCur {a : Bool} {c : RCtx} {s : RSt} {cur : DDic}
    (h2 : Lvl a s.cur → Lvl a cur ∧ dHas .up cur = dHas .up s.cur) : Frame a c s { s with cur := cur } :=
  ⟨rfl, rfl, rfl, fun h => h, h2, [], by simp, .refl _ _⟩

theorem Frame.logRec {a : Bool} {c : RCtx} {s s' : RSt} {r : ARec} (h : logRec r s = .ok s') : Frame a c s s' := by
  unfold Verif.logRec at h; cases h
  exact ⟨rfl, rfl, rfl, fun h => h, fun h => ⟨h, rfl⟩, [], by simp, .refl _ _⟩

theorem Frame.proceed {a : Bool} {c : RCtx} {s s' : RSt} (h : s.proceed = some s') : Frame a c s s' := by
  unfold RSt.proceed at h
  split at h
  · cases h; exact .refl _ _ _
  · rename_i n hn
    split at h
    · cases h
    · cases h
      exact ⟨rfl, rfl, rfl, fun h => (by rw [hn] at h; cases h), fun h => ⟨h, rfl⟩, [], by simp, .refl _ _⟩

theorem mapRead_frame {a : Bool} {c : RCtx} {s : RSt} {es : List Expr} {vals : List Val} (hv : ∀ v ∈ vals, Clean v)
    {cur : DDic} (h : mapRead c.fuel (s.po c) s.outer s.lv es vals s.cur = .ok cur) : Frame a c s { s with cur := cur } :=
  .setCur fun hl => mapRead_lvl hv hl h

theorem mapFields_frame {a : Bool} {c : RCtx} {s s' : RSt} {es : List Expr} {vals : List Val} (hv : ∀ v ∈ vals, Clean v)
    (h : mapFields c es vals s = .ok s') : Frame a c s s' := by
  unfold mapFields at h
  rw [Out.lift_ok] at h
  obtain ⟨cur, h1, h2⟩ := h
  cases h2
  exact mapRead_frame hv h1

theorem Lvl.weaken {a : Bool} {d : DDic} (h : Lvl false d) : Lvl a d :=
  ⟨h.nodup, h.idx, fun n v hv => (h.var n v hv).elim .inl (fun h => by cases h.1),
    fun v hv => (by cases (h.abbrevs v hv).1), fun v hv => (by cases h.startidcs v hv)⟩

/-- around a sub-dictionary -/
theorem openClose_frame {a : Bool} {c : RCtx} {s s1 s2 s3 : RSt} {r : VarRef} (h1 : openR s r = .ok s1)
    (h2 : Frame false c s1 s2) (h3 : closeR s2 = .ok s3) : Frame a c s s3 := by
  unfold openR at h1
  simp only [bind_ok, pure_ok] at h1
  obtain ⟨is, his, d, hd, rfl⟩ := h1
  have hu := h2.ups
  unfold closeR at h3
  rw [hu] at h3
  simp only [bind_ok, pure_ok] at h3
  obtain ⟨new, hn, rfl⟩ := h3
  refine ⟨rfl, h2.lv, h2.ign, h2.look, fun hl => ?_, h2.cov⟩
  have hc : Clean (.dic d) := subDic_clean (fun d' hd' => hl.dic_clean hd') hd
  have hl1 : Lvl false (dSet .up .mark d) := (Lvl.of_clean hc).set_up _
  have hl2 := (h2.lvl hl1).1
  refine ⟨hl.set_var _ (setArr_clean (fun d' hd' => hl.dic_clean hd') hl2.clean hn), ?_⟩
  unfold dHas; rw [dGet_dSet_ne (by simp)]

theorem inTable_frame {a : Bool} {c : RCtx} {s s' : RSt} {name : Option VarRef} {f : RSt → Out RSt}
    (hf : ∀ (a : Bool) (s s' : RSt), f s = .ok s' → Frame a c s s') (h : inTable name s f = .ok s') : Frame a c s s' := by
  unfold inTable at h
  split at h
  · exact hf _ _ _ h
  · simp only [Out.lift_ok, Out.andThen_ok] at h
    obtain ⟨s1, h1, s2, h2, s3, h3, h4⟩ := h
    cases h4
    exact openClose_frame h1 (hf false _ _ h2) h3

theorem takeRec_ok {α : Type} {c : RCtx} {s s' : RSt} {rd : List Str → Nat → Res (α × Nat)} {f : α → RSt → Out RSt}
    (h : takeRec c s rd f = .ok s') : ∃ ofs r ofs', skipBlankLines c.lines s.ofs = .ok ofs ∧
      rd c.lines ofs = .ok (r, ofs') ∧ f r { s with ofs := ofs', spans := s.spans ++ [(ofs, ofs')] } = .ok s' := by
  unfold takeRec at h
  simp only [Out.lift_ok] at h
  obtain ⟨ofs, h1, ⟨r, ofs'⟩, h2, h3⟩ := h
  exact ⟨ofs, r, ofs', h1, h2, h3⟩

theorem takeRec_frame {α : Type} {a : Bool} {c : RCtx} {s s' : RSt} {rd : List Str → Nat → Res (α × Nat)}
    {f : α → RSt → Out RSt} (hrd : ∀ l o r o', rd l o = .ok (r, o') → o < o')
    (hf : ∀ r s s', f r s = .ok s' → Frame a c s s') (h : takeRec c s rd f = .ok s') : Frame a c s s' := by
  obtain ⟨ofs, r, ofs', h1, h2, h3⟩ := takeRec_ok h
  have hstep : Frame a c s { s with ofs := ofs', spans := s.spans ++ [(ofs, ofs')] } :=
    ⟨rfl, rfl, rfl, fun h => h, fun h => ⟨h, rfl⟩, [(ofs, ofs')], rfl,
      .cons (skipBlankLines_ok h1).1 (hrd _ _ _ _ h2) (.refl _ _)⟩
  exact hstep.trans (hf _ _ _ h3)

theorem readText_adv {o : ROpts} (l : List Str) (n : Nat) (r : TextRec) (m : Nat) (h : readText o l n = .ok (r, m)) : n < m := by
  unfold readText at h
  simp only [bind_ok, pure_ok] at h
  obtain ⟨_, _, _, _, h⟩ := h
  have := (Prod.ext_iff.1 h).2
  simp only at this; omega

theorem readCont_adv {o : ROpts} (l : List Str) (n : Nat) (r : ContRec) (m : Nat) (h : readCont o l n = .ok (r, m)) : n < m := by
  unfold readCont at h
  simp only [bind_ok, pure_ok] at h
  obtain ⟨_, _, _, _, _, _, _, _, _, _, _, _, _, _, _, _, h⟩ := h
  have := (Prod.ext_iff.1 h).2
  simp only at this; omega

theorem readDir_adv {o : ROpts} (l : List Str) (n : Nat) (r : DirRec) (m : Nat) (h : readDir o l n = .ok (r, m)) : n < m := by
  unfold readDir at h
  simp only [bind_ok, pure_ok] at h
  obtain ⟨_, _, _, _, _, _, _, _, _, _, _, _, h⟩ := h
  have := (Prod.ext_iff.1 h).2
  simp only at this; omega

theorem readIntg_adv {o : ROpts} {nd : Int} (l : List Str) (n : Nat) (r : IntgRec) (m : Nat)
    (h : readIntg o nd l n = .ok (r, m)) : n < m := by
  unfold readIntg at h
  split at h
  · cases h
  · simp only [bind_ok, pure_ok] at h
    obtain ⟨_, _, _, _, _, _, _, _, _, _, h⟩ := h
    have := (Prod.ext_iff.1 h).2
    simp only at this; omega

theorem readList_adv {o : ROpts} (l : List Str) (n : Nat) (r : ListRec) (m : Nat) (h : readList o l n = .ok (r, m)) : n < m := by
  unfold readList at h
  simp only [bind_ok] at h
  obtain ⟨⟨hd, n1⟩, h1, h2⟩ := h
  have hc := readCont_adv _ _ _ _ h1
  dsimp only at h2
  split at h2
  · cases h2; exact hc
  · simp only [bind_ok, pure_ok] at h2
    obtain ⟨⟨vs, n2⟩, h3, h4⟩ := h2
    have := (C19_read_count _ _ _ _ _ _ h3).2
    cases h4; omega

theorem readTab2_adv {o : ROpts} (l : List Str) (n : Nat) (r : Tab2Rec) (m : Nat) (h : readTab2 o l n = .ok (r, m)) : n < m := by
  unfold readTab2 at h
  simp only [bind_ok, pure_ok] at h
  obtain ⟨⟨hd, n1⟩, h1, ⟨v1, n2⟩, h2, h3⟩ := h
  have hc := readCont_adv _ _ _ _ h1
  have := (C19_read_count _ _ _ _ _ _ h2).2
  cases h3; omega

theorem readTab1_adv {o : ROpts} (l : List Str) (n : Nat) (r : Tab1Rec) (m : Nat) (h : readTab1 o l n = .ok (r, m)) : n < m := by
  unfold readTab1 at h
  simp only [bind_ok, pure_ok] at h
  obtain ⟨⟨hd, n1⟩, h1, ⟨v1, n2⟩, h2, ⟨v2, n3⟩, h3, h4⟩ := h
  have hc := readCont_adv _ _ _ _ h1
  have := (C19_read_count _ _ _ _ _ _ h2).2
  have := (C19_read_count _ _ _ _ _ _ h3).2
  cases h4; omega

theorem slot_clean (s : Slot) : Clean s.toVal := by cases s <;> exact .num _

theorem contVals_clean (r : ContRec) : ∀ v ∈ r.vals, Clean v := by
  intro v hv
  simp only [ContRec.vals, List.mem_cons, List.not_mem_nil, or_false] at hv
  rcases hv with rfl | rfl | rfl | rfl | rfl | rfl
  · exact .num _
  · exact .num _
  all_goals exact slot_clean _

/-! ## loops -/

theorem iterate_frame {σ : Type} {R : σ → σ → Prop} (hr : ∀ s, R s s) (ht : ∀ {a b d}, R a b → R b d → R a d)
    {setVar : Int → σ → σ} {body : σ → Out σ} (hb : ∀ i s s', body (setVar i s) = .ok s' → R s s')
    (is : List Int) {s s' : σ} (h : iterate setVar body is s = .ok s') : R s s' := by
  induction is generalizing s with
  | nil => cases h; exact hr _
  | cons i is ih =>
    rw [iterate, Out.andThen_ok] at h
    obtain ⟨s1, h1, h2⟩ := h
    exact ht (hb _ _ _ h1) (ih h2)

theorem loopHead_ok {fuel : Nat} {env : Env} {v : Name} {e1 e2 : Expr} {x y : Int}
    (h : loopHead fuel env v e1 e2 = .ok (x, y)) : dHas v env.lv = false := by
  unfold loopHead at h
  simp only [bind_ok] at h
  obtain ⟨_, _, _, _, _, _, _, _, h⟩ := h
  split at h
  · cases h
  · rename_i hh; simpa using hh

theorem intRange_empty {x y : Int} (h : y < x) : intRange x y = [] := by
  unfold intRange
  have : (y + 1 - x).toNat = 0 := by omega
  rw [this]; rfl

theorem intRange_cons {x y : Int} (h : x ≤ y) : intRange x y = x :: intRange (x + 1) y := by
  unfold intRange
  have : (y + 1 - x).toNat = (y + 1 - (x + 1)).toNat + 1 := by omega
  rw [this, List.range_succ_eq_map]
  simp only [List.map_cons, Nat.cast_zero, add_zero, List.map_map, List.cons.injEq, true_and]
  apply List.map_congr_left
  intro i _
  simp only [Function.comp_apply, Nat.cast_succ]
  omega

/-- the loop variable inside a loop over states with a component `lv` -/
theorem iterate_lv {σ : Type} {lv : σ → Dict Name Int} {setVar : Int → σ → σ} {body : σ → Out σ} {v : Name}
    (hset : ∀ i s, lv (setVar i s) = dSet v i (lv s)) (hb : ∀ s s', body s = .ok s' → lv s' = lv s)
    (is : List Int) {s s' : σ} (h : iterate setVar body is s = .ok s') (hne : is ≠ []) :
    ∃ i, lv s' = dSet v i (lv s) := by
  induction is generalizing s with
  | nil => exact absurd rfl hne
  | cons i is ih =>
    rw [iterate, Out.andThen_ok] at h
    obtain ⟨s1, h1, h2⟩ := h
    have e1 : lv s1 = dSet v i (lv s) := by rw [hb _ _ h1, hset]
    by_cases hi : is = []
    · subst hi; cases h2; exact ⟨i, e1⟩
    · obtain ⟨j, hj⟩ := ih h2 hi
      exact ⟨j, by rw [hj, e1, dSet_dSet]⟩

/-- the loop variables of a loop are the old ones afterwards -/
theorem loop_lv {σ : Type} {lv : σ → Dict Name Int} {setVar : Int → σ → σ} {body : σ → Out σ} {v : Name}
    (hset : ∀ i s, lv (setVar i s) = dSet v i (lv s)) (hb : ∀ s s', body s = .ok s' → lv s' = lv s)
    {x y : Int} {s s' : σ} (hv : dHas v (lv s) = false) (h : iterate setVar body (intRange x y) s = .ok s') :
    (if x ≤ y then dDel v (lv s') else lv s') = lv s := by
  split
  · rename_i hxy
    obtain ⟨i, hi⟩ := iterate_lv hset hb _ h (by rw [intRange_cons hxy]; simp)
    rw [hi, dDel_dSet _ hv]
  · rename_i hxy
    rw [intRange_empty (by omega)] at h
    cases h; rfl

/-- a frame without the loop variables -/
structure Frame' (a : Bool) (c : RCtx) (s s' : RSt) : Prop where
  ups : s'.ups = s.ups
  ign : s'.ignoreAll = s.ignoreAll
  look : s.look = none → s'.look = none
  lvl : Lvl a s.cur → Lvl a s'.cur ∧ dHas .up s'.cur = dHas .up s.cur
  cov : ∃ sp, s'.spans = s.spans ++ sp ∧ Covers c.lines s.ofs sp s'.ofs

theorem Frame'.to {a : Bool} {c : RCtx} {s s' : RSt} (h : Frame' a c s s') {l : Dict Name Int} (hl : l = s.lv) :
    Frame a c s { s' with lv := l } := ⟨h.ups, hl, h.ign, h.look, h.lvl, h.cov⟩

theorem Frame.to' {a : Bool} {c : RCtx} {s s' : RSt} {l : Dict Name Int} (h : Frame a c { s with lv := l } s') :
    Frame' a c s s' := ⟨h.ups, h.ign, h.look, h.lvl, h.cov⟩

theorem Frame'.refl (a : Bool) (c : RCtx) (s : RSt) : Frame' a c s s := (Frame.refl a c s).to'

theorem Frame'.trans {a : Bool} {c : RCtx} {s s1 s2 : RSt} (h1 : Frame' a c s s1) (h2 : Frame' a c s1 s2) :
    Frame' a c s s2 := by
  have g1 : Frame a c s { s1 with lv := s.lv } := h1.to rfl
  have g2 : Frame a c { s1 with lv := s.lv } { s2 with lv := s.lv } := ⟨h2.ups, rfl, h2.ign, h2.look, h2.lvl, h2.cov⟩
  have g := g1.trans g2
  exact ⟨g.ups, g.ign, g.look, g.lvl, g.cov⟩

/-! ## list bodies -/

theorem readBody_frame {a : Bool} {c : RCtx} {vals : List PyNum} {b : LBody} {l l' : LSt}
    (h : readBody c vals b l = .ok l') : Frame a c l.st l'.st := by
  induction b generalizing l l' with
  | nil => cases h; exact .refl _ _ _
  | seq b1 b2 ih1 ih2 =>
    rw [readBody, Out.andThen_ok] at h
    obtain ⟨l1, h1, h2⟩ := h
    exact (ih1 h1).trans (ih2 h2)
  | expr e =>
    rw [readBody] at h
    split at h
    · cases h
    · rw [Out.lift_ok] at h
      obtain ⟨cur, h1, h2⟩ := h
      cases h2
      exact mapRead_frame (by simpa using Clean.num _) h1
  | pad => cases h; exact .refl _ _ _
  | loop v e1 e2 b ih =>
    rw [readBody, Out.lift_ok] at h
    obtain ⟨⟨x, y⟩, h1, h⟩ := h
    rw [Out.andThen_ok] at h
    obtain ⟨l1, h2, h3⟩ := h
    have hv := loopHead_ok h1
    have hlv := loop_lv (lv := fun l : LSt => l.st.lv) (fun _ _ => rfl)
      (fun s s' hs => (ih (l := s) (l' := s') hs).lv) hv h2
    have hf : Frame' a c l.st l1.st :=
      iterate_frame (R := fun s s' : LSt => Frame' a c s.st s'.st) (fun s => .refl _ _ _) (fun h1 h2 => h1.trans h2)
        (fun i s s' hs => (ih (l := LSt.setVar v i s) hs).to') _ h2
    cases h3
    split
    · rename_i hxy; simp only [hxy, if_true] at hlv
      exact hf.to hlv
    · rename_i hxy; simp only [hxy, if_false] at hlv
      exact hf.to hlv

theorem readNamedBody_frame {a : Bool} {c : RCtx} {vals : List PyNum} {b : LBody} {name : Option VarRef} {s : RSt}
    {l' : LSt} (h : readNamedBody c vals b name s = .ok l') : Frame a c s l'.st := by
  unfold readNamedBody at h
  split at h
  · exact readBody_frame h
  · simp only [Out.lift_ok, Out.andThen_ok] at h
    obtain ⟨s1, h1, l2, h2, s3, h3, h4⟩ := h
    cases h4
    exact openClose_frame h1 (readBody_frame h2) h3

/-! ## records -/

theorem clean_take {l : List Val} (h : ∀ v ∈ l, Clean v) (n : Nat) : ∀ v ∈ l.take n, Clean v :=
  fun v hv => h v (List.mem_of_mem_take hv)

theorem cols_clean (l : List (List PyNum)) : ∀ v ∈ l.map Val.lst, Clean v := by
  intro v hv
  rw [List.mem_map] at hv
  obtain ⟨x, _, rfl⟩ := hv
  exact .lst _

theorem readAct_frame {a : Bool} {c : RCtx} {act : Act} {s s' : RSt} (h : readAct c act s = .ok s') :
    Frame a c s s' := by
  cases act with
  | text k fs =>
    rw [readAct] at h
    refine takeRec_frame readText_adv ?_ h
    intro r s s' h
    simp only [Out.lift_ok] at h
    obtain ⟨_, _, cur, h1, h2⟩ := h
    refine Frame.trans (.setCur ?_) (.logRec h2)
    intro hl
    obtain ⟨g1, g2⟩ := mapTextRead_lvl hl h1
    obtain ⟨g3, g4⟩ := setCtrl_lvl g1 r.ctrl
    exact ⟨g3, g4.trans g2⟩
  | cont isHead k fs =>
    rw [readAct] at h
    refine takeRec_frame readCont_adv ?_ h
    intro r s s' h
    simp only [Out.lift_ok, Out.andThen_ok] at h
    obtain ⟨_, _, s1, h1, h2⟩ := h
    refine (mapFields_frame (contVals_clean r) h1).trans ?_
    refine Frame.trans ?_ (.logRec h2)
    split
    · exact .setCur fun hl => setCtrl_lvl hl _
    · exact .refl _ _ _
  | dir k fs =>
    rw [readAct] at h
    refine takeRec_frame readDir_adv ?_ h
    intro r s s' h
    simp only [Out.lift_ok, Out.andThen_ok] at h
    obtain ⟨_, _, s1, h1, h2⟩ := h
    refine (mapFields_frame ?_ h1).trans (.logRec h2)
    intro v hv
    simp only [List.mem_cons, List.not_mem_nil, or_false] at hv
    rcases hv with rfl | rfl | rfl | rfl <;> exact .num _
  | intg k fs nd =>
    rw [readAct, Out.lift_ok] at h
    obtain ⟨n, _, h⟩ := h
    split at h
    · refine takeRec_frame readIntg_adv ?_ h
      intro r s s' h
      simp only [Out.lift_ok, Out.andThen_ok] at h
      obtain ⟨_, _, s1, h1, h2⟩ := h
      refine (mapFields_frame ?_ h1).trans (.logRec h2)
      intro v hv
      simp only [List.mem_cons, List.not_mem_nil, or_false] at hv
      rcases hv with rfl | rfl | rfl
      · exact .num _
      · exact .num _
      · exact .lst _
    · cases h
  | tab1 k fs x y name =>
    rw [readAct] at h
    refine takeRec_frame readTab1_adv ?_ h
    intro r s s' h
    simp only [Out.lift_ok, Out.andThen_ok] at h
    obtain ⟨_, _, s1, h1, h2⟩ := h
    refine (mapFields_frame (clean_take (contVals_clean _) 4) h1).trans ?_
    split at h2
    · cases h2; exact .refl _ _ _
    · rename_i s2 hp
      rw [Out.andThen_ok] at h2
      obtain ⟨s3, h3, h4⟩ := h2
      refine (Frame.proceed hp).trans (Frame.trans (inTable_frame ?_ h3) (.logRec h4))
      intro a s s' h
      exact mapFields_frame (cols_clean [_, _, _, _]) h
  | tab2 k fs name =>
    rw [readAct] at h
    refine takeRec_frame readTab2_adv ?_ h
    intro r s s' h
    simp only [Out.lift_ok, Out.andThen_ok] at h
    obtain ⟨_, _, s1, h1, h2⟩ := h
    refine (mapFields_frame ?_ h1).trans ?_
    · intro v hv
      rcases List.mem_append.1 hv with hv | hv
      · exact contVals_clean _ _ (List.mem_of_mem_take hv)
      · exact contVals_clean _ _ (List.mem_of_mem_drop hv)
    split at h2
    · cases h2; exact .refl _ _ _
    · rename_i s2 hp
      rw [Out.andThen_ok] at h2
      obtain ⟨s3, h3, h4⟩ := h2
      refine (Frame.proceed hp).trans (Frame.trans (inTable_frame ?_ h3) (.logRec h4))
      intro a s s' h
      exact mapFields_frame (cols_clean [_, _]) h
  | list k fs body name =>
    rw [readAct] at h
    refine takeRec_frame readList_adv ?_ h
    intro r s s' h
    simp only [Out.lift_ok, Out.andThen_ok] at h
    obtain ⟨_, _, s1, h1, h2⟩ := h
    refine (mapFields_frame (contVals_clean _) h1).trans ?_
    split at h2
    · cases h2; exact .refl _ _ _
    · rename_i s2 hp
      refine (Frame.proceed hp).trans ?_
      split at h2
      · cases h2
      · rename_i l hl
        split at h2
        · cases h2
        · exact (readNamedBody_frame hl).trans (.logRec h2)
  | send =>
    rw [readAct, Out.lift_ok] at h
    obtain ⟨ofs, h1, h⟩ := h
    rw [Out.lift_ok] at h
    obtain ⟨⟨r, _⟩, _, h2⟩ := h
    refine Frame.trans ?_ (.logRec h2)
    exact ⟨rfl, rfl, rfl, fun h => h, fun h => ⟨h, rfl⟩, [], by simp, .nil (skipBlankLines_ok h1).1⟩
  | stop =>
    rw [readAct, Out.lift_ok] at h
    obtain ⟨_, _, h⟩ := h
    cases h

/-! ## recipes -/

theorem readProg_frame {c : RCtx} {p : Prog} {s s' : RSt} (h : readProg c p s = .ok s') : Frame true c s s' := by
  induction p generalizing s s' with
  | skip => cases h; exact .refl _ _ _
  | seq a b iha ihb =>
    rw [readProg, Out.andThen_ok] at h
    obtain ⟨s1, h1, h2⟩ := h
    exact (iha h1).trans (ihb h2)
  | act a =>
    rw [readProg] at h
    split at h
    · cases h; exact .refl _ _ _
    · rename_i s1 hp
      exact (Frame.proceed hp).trans (readAct_frame h)
  | sect r body ih =>
    rw [readProg] at h
    split at h
    · cases h; exact .refl _ _ _
    · simp only [Out.lift_ok, Out.andThen_ok] at h
      obtain ⟨s1, h1, s2, h2, cur, h3, s4, h4, h5⟩ := h
      cases h5
      refine openClose_frame h1 ?_ h4
      have hf := ih h2
      refine ⟨hf.ups, hf.lv, hf.ign, hf.look, fun hl => ?_, hf.cov⟩
      obtain ⟨g1, g2⟩ := hf.lvl (initWork_lvl hl)
      obtain ⟨g3, g4⟩ := removeWork_lvl g1 h3
      exact ⟨g3, by rw [g4, g2]; exact initWork_up _⟩
  | loop v e1 e2 body ih =>
    rw [readProg] at h
    split at h
    · cases h; exact .refl _ _ _
    · rw [Out.lift_ok] at h
      obtain ⟨⟨x, y⟩, h1, h⟩ := h
      rw [Out.andThen_ok] at h
      obtain ⟨s1, h2, h3⟩ := h
      have hv := loopHead_ok h1
      have hlv := loop_lv (lv := fun l : RSt => l.lv) (fun _ _ => rfl) (fun s s' hs => (ih (s := s) (s' := s') hs).lv) hv h2
      have hf : Frame' true c s s1 := iterate_frame (R := Frame' true c) (fun s => .refl _ _ _) (fun h1 h2 => h1.trans h2)
        (fun i s s' hs => (ih (s := RSt.setVar v i s) hs).to') _ h2
      cases h3
      split
      · rename_i hxy; simp only [hxy, if_true] at hlv
        exact hf.to hlv
      · rename_i hxy; simp only [hxy, if_false] at hlv
        exact hf.to hlv
  | ite cond look thn els iht ihe =>
    rw [readProg.eq_def] at h
    dsimp only at h
    split at h
    · cases h; exact .refl _ _ _
    · have hb : ∀ t : Bool, (if t then readProg c thn s else readProg c els s) = .ok s' → Frame true c s s' := by
        intro t ht
        split at ht
        · exact iht ht
        · exact ihe ht
      split at h
      · rw [Out.lift_ok] at h
        obtain ⟨t, _, h⟩ := h
        exact hb t h
      · rw [Out.lift_ok] at h
        obtain ⟨n, _, h⟩ := h
        split at h
        · rw [Out.lift_ok] at h
          obtain ⟨t, _, h⟩ := h
          exact hb t h
        · rw [Out.lift_ok] at h
          obtain ⟨t, _, h⟩ := h
          exact hb t h
        · cases h
  | abbr n e =>
    rw [readProg] at h
    split at h
    · cases h; exact .refl _ _ _
    · rw [Out.lift_ok] at h
      obtain ⟨cur, h1, h2⟩ := h
      cases h2
      exact .setCur fun hl => introAbbr_lvl hl h1

end Verif
