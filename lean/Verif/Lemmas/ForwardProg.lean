import Verif.Lemmas.ForwardAct
/-
Reading the records that have been written: whole recipes.
-/
namespace Verif
open Spec

theorem Adv.mono {D d d' : DDic} {U V : List Path} (h : Adv D d d' U) (hv : ∀ q ∈ V, q ∈ U) : Adv D d d' V :=
  ⟨h.step, h.hold, fun q hq => h.cov q (hv q hq)⟩

/-! ## records are only appended -/

theorem mapFields_recs {c : RCtx} {es : List Expr} {vals : List Val} {s s' : RSt} (h : mapFields c es vals s = .ok s') :
    s'.recs = s.recs := by
  obtain ⟨_, _, rfl⟩ := mapFields_ok h; rfl

theorem closeR_recs {s s' : RSt} (h : closeR s = .ok s') : s'.recs = s.recs := by
  unfold closeR at h
  split at h
  · cases h
  · simp only [bind_ok, pure_ok] at h
    obtain ⟨_, _, rfl⟩ := h; rfl

theorem openR_recs {s s' : RSt} {r : VarRef} (h : openR s r = .ok s') : s'.recs = s.recs := by
  obtain ⟨_, _, _, _, rfl⟩ := openR_ok h; rfl

theorem inTable_recs {name : Option VarRef} {c : RCtx} {es : List Expr} {vals : List Val} {s s' : RSt}
    (h : inTable name s (mapFields c es vals) = .ok s') : s'.recs = s.recs := by
  unfold inTable at h
  split at h
  · exact mapFields_recs h
  · simp only [Out.lift_ok, Out.andThen_ok] at h
    obtain ⟨sa, ha, sb, hb, sc, hc, hd⟩ := h
    cases hd
    rw [closeR_recs hc, mapFields_recs hb, openR_recs ha]

theorem readBody_recs {c : RCtx} {vals : List PyNum} {b : LBody} {l l' : LSt} (h : readBody c vals b l = .ok l') :
    l'.st.recs = l.st.recs := by
  induction b generalizing l l' with
  | nil => cases h; rfl
  | seq b1 b2 i1 i2 =>
    rw [readBody, Out.andThen_ok] at h
    obtain ⟨l1, h1, h2⟩ := h
    rw [i2 h2, i1 h1]
  | expr e =>
    rw [readBody] at h
    split at h
    · cases h
    · rw [Out.lift_ok] at h
      obtain ⟨cur, h1, h2⟩ := h
      cases h2; rfl
  | pad => rw [readBody] at h; cases h; rfl
  | loop v e1 e2 body ih =>
    rw [readBody, Out.lift_ok] at h
    obtain ⟨⟨x, y⟩, h1, h2⟩ := h
    rw [Out.andThen_ok] at h2
    obtain ⟨l1, h2, h3⟩ := h2
    have := iterate_frame (R := fun l l' : LSt => l'.st.recs = l.st.recs)
      (fun s => rfl) (fun h1 h2 => h2.trans h1) (fun i s s' hs' => ih (l := LSt.setVar v i s) hs') _ h2
    cases h3
    split
    · exact this
    · exact this

theorem readNamedBody_recs {c : RCtx} {vals : List PyNum} {b : LBody} {name : Option VarRef} {s : RSt} {l' : LSt}
    (h : readNamedBody c vals b name s = .ok l') : l'.st.recs = s.recs := by
  unfold readNamedBody at h
  split at h
  · exact readBody_recs (l := ⟨0, s⟩) h
  · simp only [Out.lift_ok, Out.andThen_ok] at h
    obtain ⟨sa, ha, sb, hb, sc, hc, hd⟩ := h
    cases hd
    rw [closeR_recs hc, readBody_recs hb, openR_recs ha]

theorem proceed_recs {s s' : RSt} (h : s.proceed = some s') : s'.recs = s.recs := by
  unfold RSt.proceed at h
  split at h
  · cases h; rfl
  · split at h
    · cases h
    · cases h; rfl

theorem readAct_recs {c : RCtx} {act : Act} {s s' : RSt} (h : readAct c act s = .ok s') : s.recs <+: s'.recs := by
  cases act with
  | text k fs =>
    rw [readAct] at h
    obtain ⟨r, s1, hn, h, e1, e2, e3, e4, e5, e6⟩ := takeRec_next h
    simp only [Out.lift_ok] at h
    obtain ⟨_, _, cur, h1, h2⟩ := h
    unfold logRec at h2; cases h2
    rw [← e6]; exact List.prefix_append _ _
  | cont isHead k fs =>
    rw [readAct] at h
    obtain ⟨r, s1, hn, h, e1, e2, e3, e4, e5, e6⟩ := takeRec_next h
    simp only [Out.lift_ok, Out.andThen_ok] at h
    obtain ⟨_, _, s2, h1, h2⟩ := h
    unfold logRec at h2; cases h2
    rw [← e6, ← mapFields_recs h1]
    cases isHead <;> exact List.prefix_append _ _
  | dir k fs =>
    rw [readAct] at h
    obtain ⟨r, s1, hn, h, e1, e2, e3, e4, e5, e6⟩ := takeRec_next h
    simp only [Out.lift_ok, Out.andThen_ok] at h
    obtain ⟨_, _, s2, h1, h2⟩ := h
    unfold logRec at h2; cases h2
    rw [← e6, ← mapFields_recs h1]; exact List.prefix_append _ _
  | intg k fs nd =>
    rw [readAct, Out.lift_ok] at h
    obtain ⟨n, hnd, h⟩ := h
    split at h
    · obtain ⟨r, s1, hn, h, e1, e2, e3, e4, e5, e6⟩ := takeRec_next h
      simp only [Out.lift_ok, Out.andThen_ok] at h
      obtain ⟨_, _, s2, h1, h2⟩ := h
      unfold logRec at h2; cases h2
      rw [← e6, ← mapFields_recs h1]; exact List.prefix_append _ _
    · cases h
  | tab1 k fs x y name =>
    rw [readAct] at h
    obtain ⟨r, s1, hn, h, e1, e2, e3, e4, e5, e6⟩ := takeRec_next h
    simp only [Out.lift_ok, Out.andThen_ok] at h
    obtain ⟨_, _, s2, h1, h2⟩ := h
    split at h2
    · cases h2; rw [← e6, mapFields_recs h1]
    · rename_i s3 hp
      simp only [Out.andThen_ok] at h2
      obtain ⟨s4, h2, h3⟩ := h2
      unfold logRec at h3; cases h3
      rw [← e6, ← mapFields_recs h1, ← proceed_recs hp, ← inTable_recs h2]; exact List.prefix_append _ _
  | tab2 k fs name =>
    rw [readAct] at h
    obtain ⟨r, s1, hn, h, e1, e2, e3, e4, e5, e6⟩ := takeRec_next h
    simp only [Out.lift_ok, Out.andThen_ok] at h
    obtain ⟨_, _, s2, h1, h2⟩ := h
    split at h2
    · cases h2; rw [← e6, mapFields_recs h1]
    · rename_i s3 hp
      simp only [Out.andThen_ok] at h2
      obtain ⟨s4, h2, h3⟩ := h2
      unfold logRec at h3; cases h3
      rw [← e6, ← mapFields_recs h1, ← proceed_recs hp, ← inTable_recs h2]; exact List.prefix_append _ _
  | list k fs body name =>
    rw [readAct] at h
    obtain ⟨r, s1, hn, h, e1, e2, e3, e4, e5, e6⟩ := takeRec_next h
    simp only [Out.lift_ok, Out.andThen_ok] at h
    obtain ⟨_, _, s2, h1, h2⟩ := h
    split at h2
    · cases h2; rw [← e6, mapFields_recs h1]
    · rename_i s3 hp
      split at h2
      · cases h2
      · rename_i l hb
        split at h2
        · cases h2
        · unfold logRec at h2; cases h2
          rw [← e6, ← mapFields_recs h1, ← proceed_recs hp, ← readNamedBody_recs hb]; exact List.prefix_append _ _
  | send =>
    rw [readAct] at h
    simp only [Out.lift_ok] at h
    obtain ⟨ofs, _, ⟨r, n⟩, _, h2⟩ := h
    unfold logRec at h2; cases h2
    exact List.prefix_append _ _
  | stop =>
    rw [readAct] at h
    simp only [Out.lift_ok] at h
    obtain ⟨_, _, h⟩ := h
    cases h

theorem readProg_recs {c : RCtx} {p : Prog} {s s' : RSt} (h : readProg c p s = .ok s') : s.recs <+: s'.recs := by
  induction p generalizing s s' with
  | skip => cases h; exact List.prefix_refl _
  | seq a b iha ihb =>
    rw [readProg, Out.andThen_ok] at h
    obtain ⟨s1, h1, h2⟩ := h
    exact (iha h1).trans (ihb h2)
  | act a =>
    rw [readProg] at h
    split at h
    · cases h; exact List.prefix_refl _
    · rename_i s1 hp
      rw [← proceed_recs hp]; exact readAct_recs h
  | sect r body ih =>
    rw [readProg] at h
    split at h
    · cases h; exact List.prefix_refl _
    · simp only [Out.lift_ok, Out.andThen_ok] at h
      obtain ⟨s1, h1, s2, h2, cur, h3, s3, h4, h5⟩ := h
      cases h5
      have := ih h2
      rw [← openR_recs h1, closeR_recs h4]
      exact this
  | loop v e1 e2 body ih =>
    rw [readProg] at h
    split at h
    · cases h; exact List.prefix_refl _
    · simp only [Out.lift_ok, Out.andThen_ok] at h
      obtain ⟨⟨x, y⟩, h1, s1, h2, h3⟩ := h
      have := iterate_frame (R := fun s s' : RSt => s.recs <+: s'.recs)
        (fun s => List.prefix_refl _) (fun h1 h2 => h1.trans h2) (fun i s s' hs' => ih (s := RSt.setVar v i s) hs') _ h2
      cases h3
      split
      · exact this
      · exact this
  | ite cond look thn els iht ihe =>
    have hbr : ∀ t : Bool, (if t then readProg c thn s else readProg c els s) = .ok s' → s.recs <+: s'.recs := by
      intro t ht
      cases t
      · exact ihe (by simpa using ht)
      · exact iht (by simpa using ht)
    cases look with
    | none =>
      rw [readProg] at h
      split at h
      · cases h; exact List.prefix_refl _
      · simp only [Out.lift_ok] at h
        obtain ⟨t, _, h⟩ := h
        exact hbr t h
    | some e =>
      rw [readProg] at h
      split at h
      · cases h; exact List.prefix_refl _
      · simp only [Out.lift_ok] at h
        obtain ⟨n, _, h⟩ := h
        split at h
        · rw [Out.lift_ok] at h
          obtain ⟨t, _, h⟩ := h
          exact hbr t h
        · rw [Out.lift_ok] at h
          obtain ⟨t, _, h⟩ := h
          exact hbr t h
        · cases h
  | abbr n e =>
    rw [readProg] at h
    split at h
    · cases h; exact List.prefix_refl _
    · simp only [Out.lift_ok] at h
      obtain ⟨cur, h1, h2⟩ := h
      cases h2; exact List.prefix_refl _

theorem writeProg_out {fuel : Nat} {p : Prog} {w w' : WSt} (h : writeProg fuel p w = .ok w') : w.out <+: w'.out := by
  induction p generalizing w w' with
  | skip => cases h; exact List.prefix_refl _
  | seq a b iha ihb =>
    rw [writeProg, bind_ok] at h
    obtain ⟨s1, h1, h2⟩ := h
    exact (iha h1).trans (ihb h2)
  | act a =>
    simp only [writeProg, bind_ok, pure_ok] at h
    obtain ⟨r, _, rfl⟩ := h
    exact List.prefix_append _ _
  | sect r body ih =>
    simp only [writeProg, bind_ok] at h
    obtain ⟨s1, h1, s2, h2, cur, h3, h4⟩ := h
    have := ih h2
    obtain ⟨_, _, _, _, rfl⟩ := openW_ok h1
    unfold closeW at h4
    split at h4
    · cases h4
    · simp only [bind_ok, pure_ok] at h4
      obtain ⟨_, _, rfl⟩ := h4
      exact this
  | loop v a b body ih =>
    simp only [writeProg, bind_ok, pure_ok] at h
    obtain ⟨⟨x, y⟩, h1, l1, h2, h3⟩ := h
    have := iterateW_prefix (get := WSt.out) (setW := WSt.setVar v) (fun _ _ => rfl) (fun s s' hs => ih hs) _ h2
    subst h3
    dsimp only
    split
    · exact this
    · exact this
  | ite cond look thn els iht ihe =>
    simp only [writeProg, bind_ok] at h
    obtain ⟨t, _, h⟩ := h
    split at h
    · exact iht h
    · exact ihe h
  | abbr n e =>
    simp only [writeProg, bind_ok, pure_ok] at h
    obtain ⟨cur, _, rfl⟩ := h
    exact List.prefix_refl _

/-! ## one record -/

theorem act_fwd {A N : List Name} {top D : DDic} {s s' : RSt} {w : WSt} {L : List Level} {a : Bool}
    {c : RCtx} {fuel : Nat} {act : Act} {r : ARec} (hT : Top A N top) (hN : ∀ n ∈ actNames act, n ∈ N) (hl : Lvl a s.cur)
    (hk : s.look = none) (hal : AlongAct w act) (h : readAct c act s = .ok s') (hat : Fw A N top s w D L)
    (hw : writeAct fuel w act = .ok r) :
    ∃ q, s'.recs = s.recs ++ [q] ∧ (SameRec q r → Adv D s.cur s'.cur (usesAct fuel w act)) := by
  have henv : w.env = ⟨w.cur, w.outer, s.lv⟩ := by rw [← hat.lv]; rfl
  -- the fields of the record
  have hfield : ∀ {s1 s2 : RSt} {es : List Expr} {vals out : List Val}, s1.cur = s.cur → s1.lv = s.lv →
      (∀ v ∈ vals, Clean v) → mapFields c es vals s1 = .ok s2 → mapWrite fuel w.env es = .ok out →
      List.Forall₂ SameVal vals out → Adv D s.cur s2.cur (usesFields w.cur w.lv es) := by
    intro s1 s2 es vals out e1 e2 hcl h1 hout hsame
    rw [henv, ← e2] at hout
    rw [hat.lv, ← e2, ← e1]
    exact mapFields_fwd ((mapM_forall₂ hout).length_eq.trans hsame.length_eq.symm) hcl (e1 ▸ hl) (e1 ▸ hat.lev)
      (e1 ▸ hat.hold) hout hsame h1
  cases act with
  | text kk fs =>
    rw [readAct] at h
    obtain ⟨r, s1, hn, h, e1, e2, e3, e4, e5, e6⟩ := takeRec_next h
    simp only [Out.lift_ok] at h
    obtain ⟨_, _, cur, h1, h2⟩ := h
    unfold logRec at h2; cases h2
    simp only [writeAct, bind_ok, pure_ok] at hw
    obtain ⟨kc, hk1, _, _, t, hm, rfl⟩ := hw
    refine ⟨⟨.text, [.txt r.hl], [], r.ctrl⟩, by simp [e6], fun hsame => ?_⟩
    have hc : r.ctrl = kc := hsame.ctrl
    have hf : r.hl = t := by
      have := hsame.flds
      rw [List.forall₂_cons] at this
      exact this.1
    subst hc hf
    rw [e1, e2] at h1
    have hg1 : Adv D s.cur cur ((fs.filterMap TextField.ref).flatMap (usesRef w.cur w.lv)) := by
      rw [henv] at hm
      rw [hat.lv]
      refine text_fwd (full := r.hl) (pos := 0) hal.2.1 ?_ hl hat.lev hat.hold (by simpa using hm) h1
      rw [← hat.lv]; exact hal.2.2
    have hl1 := hg1.lev hat.lev (mapTextRead_lvl hl h1).2
    refine (hg1.trans (ctrl_fwd hl1 hg1.hold hal.1 hk1)).mono fun q hq => ?_
    simp only [usesAct, List.mem_append] at hq ⊢
    exact hq.symm
  | cont isHead kk fs =>
    rw [readAct] at h
    obtain ⟨r, s1, hn, h, e1, e2, e3, e4, e5, e6⟩ := takeRec_next h
    simp only [Out.lift_ok, Out.andThen_ok] at h
    obtain ⟨_, _, s2, h1, h2⟩ := h
    unfold logRec at h2; cases h2
    simp only [writeAct, bind_ok, pure_ok] at hw
    obtain ⟨kc, hk1, _, _, out, hout, rfl⟩ := hw
    refine ⟨⟨if isHead then .head else .cont, r.vals, [], r.ctrl⟩, ?_, fun hsame => ?_⟩
    · cases isHead <;> simp [← e6, ← mapFields_recs h1]
    · have hg := hfield e1 e2 (contVals_clean r) h1 hout hsame.flds
      cases isHead with
      | false => exact hg
      | true =>
        have hc : r.ctrl = kc := hsame.ctrl
        subst hc
        have hup : dHas .up s2.cur = dHas .up s.cur := by
          rw [← e1]; exact ((mapFields_frame (a := a) (contVals_clean r) h1).lvl (e1 ▸ hl)).2
        refine (hg.trans (ctrl_fwd (hg.lev hat.lev hup) hg.hold hal hk1)).mono fun q hq => ?_
        simp only [usesAct, if_true, List.mem_append] at hq ⊢
        exact hq.symm
  | dir kk fs =>
    rw [readAct] at h
    obtain ⟨r, s1, hn, h, e1, e2, e3, e4, e5, e6⟩ := takeRec_next h
    simp only [Out.lift_ok, Out.andThen_ok] at h
    obtain ⟨_, _, s2, h1, h2⟩ := h
    unfold logRec at h2; cases h2
    simp only [writeAct, bind_ok, pure_ok] at hw
    obtain ⟨kc, hk1, _, _, out, hout, rfl⟩ := hw
    refine ⟨⟨.dir, [.num (.int r.l1), .num (.int r.l2), .num (.int r.n1), .num (.int r.n2)], [], r.ctrl⟩,
      by simp [← e6, ← mapFields_recs h1], fun hsame => ?_⟩
    refine hfield (s2 := s2) e1 e2 ?_ h1 hout hsame.flds
    intro v hv
    simp only [List.mem_cons, List.not_mem_nil, or_false] at hv
    rcases hv with rfl | rfl | rfl | rfl <;> exact .num _
  | intg kk fs nd =>
    rw [readAct] at h
    rw [Out.lift_ok] at h
    obtain ⟨n, hnd, h⟩ := h
    split at h
    · rename_i n
      obtain ⟨r, s1, hn, h, e1, e2, e3, e4, e5, e6⟩ := takeRec_next h
      simp only [Out.lift_ok, Out.andThen_ok] at h
      obtain ⟨_, _, s2, h1, h2⟩ := h
      unfold logRec at h2; cases h2
      simp only [writeAct, bind_ok] at hw
      obtain ⟨kc, hk1, _, _, out, hout, n', hn', hw⟩ := hw
      refine ⟨⟨.intg n, [.num (.int r.ii), .num (.int r.jj), intsVal r.kij], [], r.ctrl⟩,
        by simp [← e6, ← mapFields_recs h1], fun hsame => ?_⟩
      split at hw
      · cases hw
        refine hfield (s2 := s2) e1 e2 ?_ h1 hout hsame.flds
        intro v hv
        simp only [List.mem_cons, List.not_mem_nil, or_false] at hv
        rcases hv with rfl | rfl | rfl
        · exact .num _
        · exact .num _
        · exact .lst _
      · cases hw
    · cases h
  | tab1 kk fs x y name =>
    rw [readAct] at h
    obtain ⟨r, s1, hn, h, e1, e2, e3, e4, e5, e6⟩ := takeRec_next h
    simp only [Out.lift_ok, Out.andThen_ok] at h
    obtain ⟨_, _, s2, h1, h2⟩ := h
    have hf := mapFields_frame (a := a) (clean_take (contVals_clean r.head) 4) h1
    rw [proceed_none (hf.look (e5.trans hk))] at h2
    simp only [Out.andThen_ok] at h2
    obtain ⟨s3, h2, h3⟩ := h2
    unfold logRec at h3; cases h3
    simp only [writeAct, bind_ok, pure_ok] at hw
    obtain ⟨kc, hk1, _, _, out, hout, cols, hcols, rfl⟩ := hw
    refine ⟨⟨.tab1, r.head.vals.take 4, [intsVal r.nbt, intsVal r.int, numsVal r.xs, numsVal r.ys], r.head.ctrl⟩,
      by simp [← e6, ← mapFields_recs h1, ← inTable_recs h2], fun hsame => ?_⟩
    have hg := hfield e1 e2 (clean_take (contVals_clean r.head) 4) h1 hout hsame.flds
    have hl2 := hf.lvl (e1 ▸ hl)
    have hat1 : Fw A N top s2 w D L :=
      hat.move hg (hl2.2.trans (by rw [e1])) (hf.ups.trans e3) (hf.lv.trans e2)
    exact hg.trans (inTable_fwd (s' := s3) hT hat1 hl2.1 (cols_clean [_, _, _, _]) h2 hcols hsame.tbl)
  | tab2 kk fs name =>
    rw [readAct] at h
    obtain ⟨r, s1, hn, h, e1, e2, e3, e4, e5, e6⟩ := takeRec_next h
    simp only [Out.lift_ok, Out.andThen_ok] at h
    obtain ⟨_, _, s2, h1, h2⟩ := h
    have hv2 : ∀ v ∈ r.head.vals.take 4 ++ r.head.vals.drop 5, Clean v := by
      intro v hv
      rcases List.mem_append.1 hv with h | h
      · exact contVals_clean _ v (List.mem_of_mem_take h)
      · exact contVals_clean _ v (List.mem_of_mem_drop h)
    have hf := mapFields_frame (a := a) hv2 h1
    rw [proceed_none (hf.look (e5.trans hk))] at h2
    simp only [Out.andThen_ok] at h2
    obtain ⟨s3, h2, h3⟩ := h2
    unfold logRec at h3; cases h3
    simp only [writeAct, bind_ok, pure_ok] at hw
    obtain ⟨kc, hk1, _, _, out, hout, cols, hcols, rfl⟩ := hw
    refine ⟨⟨.tab2, r.head.vals.take 4 ++ r.head.vals.drop 5, [intsVal r.nbt, intsVal r.int], r.head.ctrl⟩,
      by simp [← e6, ← mapFields_recs h1, ← inTable_recs h2], fun hsame => ?_⟩
    have hg := hfield e1 e2 hv2 h1 hout hsame.flds
    have hl2 := hf.lvl (e1 ▸ hl)
    have hat1 : Fw A N top s2 w D L :=
      hat.move hg (hl2.2.trans (by rw [e1])) (hf.ups.trans e3) (hf.lv.trans e2)
    exact hg.trans (inTable_fwd (s' := s3) hT hat1 hl2.1 (cols_clean [_, _]) h2 hcols hsame.tbl)
  | list kk fs body name =>
    rw [readAct] at h
    obtain ⟨r, s1, hn, h, e1, e2, e3, e4, e5, e6⟩ := takeRec_next h
    simp only [Out.lift_ok, Out.andThen_ok] at h
    obtain ⟨_, _, s2, h1, h2⟩ := h
    have hf := mapFields_frame (a := a) (contVals_clean r.head) h1
    rw [proceed_none (hf.look (e5.trans hk))] at h2
    dsimp only at h2
    split at h2
    · cases h2
    · rename_i l hbody
      split at h2
      · cases h2
      · unfold logRec at h2; cases h2
        simp only [writeAct, bind_ok, pure_ok] at hw
        obtain ⟨kc, hk1, _, _, out, hout, wl, hwl, rfl⟩ := hw
        refine ⟨⟨.list, r.head.vals, [.lst (r.vals.map PyNum.num)], r.head.ctrl⟩,
          by simp [← e6, ← mapFields_recs h1, ← readNamedBody_recs hbody], fun hsame => ?_⟩
        have hg := hfield e1 e2 (contVals_clean r.head) h1 hout hsame.flds
        have hl2 := hf.lvl (e1 ▸ hl)
        have hat1 : Fw A N top s2 w D L :=
          hat.move hg (hl2.2.trans (by rw [e1])) (hf.ups.trans e3) (hf.lv.trans e2)
        have hG : (r.vals.map PyNum.num).map PyNum.val = wl.vals.map PyNum.val := by
          have := hsame.tbl
          rw [List.forall₂_cons] at this
          exact this.1
        exact hg.trans (namedBody_fwd hN hT hat1 hl2.1 hbody hwl hG)
  | send =>
    rw [readAct] at h
    simp only [Out.lift_ok] at h
    obtain ⟨ofs, _, ⟨r, n⟩, _, h2⟩ := h
    unfold logRec at h2; cases h2
    exact ⟨_, rfl, fun _ => .refl hat.hold⟩
  | stop =>
    rw [readAct] at h
    simp only [Out.lift_ok] at h
    obtain ⟨_, _, h⟩ := h
    cases h

/-! ## recipes -/

theorem prefix_last {F G : List ARec} (h : List.Forall₂ SameRec F G) {a b : List ARec} {q r : ARec}
    (h1 : a ++ [q] <+: F) (h2 : b ++ [r] <+: G) (hl : a.length = b.length) : SameRec q r := by
  obtain ⟨t, rfl⟩ := h1
  obtain ⟨u, rfl⟩ := h2
  rw [List.append_assoc, List.append_assoc] at h
  induction a generalizing b with
  | nil =>
    cases b with
    | nil => cases h; assumption
    | cons => simp at hl
  | cons x a ih =>
    cases b with
    | nil => simp at hl
    | cons y b =>
      cases h with
      | cons _ h => exact ih (by simpa using hl) h

theorem removeWork_back {d d' : DDic} (h : WInv d) (hr : removeWork d = .ok d') {k : Key} {v : Val}
    (hg : dGet k d' = some v) : dGet k d = some v := by
  rw [removeWork_core h hr] at hg
  unfold core at hg
  exact dGet_of_mem h.lvl.nodup (List.mem_of_mem_filter (dGet_mem hg))

theorem Cov.removeWork {d d' : DDic} (h : WInv d) (hr : removeWork d = .ok d') {q : Path} (hq : Cov d q) : Cov d' q := by
  obtain ⟨k, ks, u, v, rfl, hk, h1, h2, h3⟩ := hq
  exact ⟨k, ks, u, v, rfl, hk, removeWork_get h hr hk (leaf_not_abb h2 h3) h1, h2, h3⟩

/-- what reading a part of the recipe achieves -/
structure Ahead (A N : List Name) (top : DDic) (s s' : RSt) (w' : WSt) (D : DDic) (L : List Level) (U : List Path) : Prop where
  fw : Fw A N top s' w' D L
  len : s'.recs.length = w'.out.length
  grow : Grow s.cur s'.cur
  winv : WInv s'.cur
  cov : ∀ q ∈ U, Cov s'.cur q

theorem fwd {A N : List Name} {top : DDic} {c : RCtx} {fuel : Nat} (hT : Top A N top) {F G : List ARec}
    (hFG : List.Forall₂ SameRec F G)
    {p : Prog} (hN : ∀ n ∈ looked p, n ∈ N) (hA : ∀ n ∈ abbrs p, n ∈ A) {s s' : RSt} {w w' : WSt} {D : DDic}
    {L : List Level} (hw : WInv s.cur) (hww : WInv w.cur) (hk : s.look = none)
    (ht : Along c fuel p s w) (h : readProg c p s = .ok s') (hW : writeProg fuel p w = .ok w')
    (hat : Fw A N top s w D L) (hlen : s.recs.length = w.out.length) (hF : s'.recs <+: F) (hG : w'.out <+: G) :
    Ahead A N top s s' w' D L (uses fuel p w) := by
  induction p generalizing s s' w w' D L with
  | skip => cases h; cases hW; exact ⟨hat, hlen, .refl _, hw, by simp [uses]⟩
  | seq a b iha ihb =>
    rw [readProg, Out.andThen_ok] at h
    obtain ⟨s1, h1, h2⟩ := h
    rw [writeProg, bind_ok] at hW
    obtain ⟨w1, hW1, hW2⟩ := hW
    have g1 := iha (fun n hn => hN n (List.mem_append_left _ hn)) (fun n hn => hA n (List.mem_append_left _ hn))
      hw hww hk ht.1 h1 hW1 hat hlen ((readProg_recs h2).trans hF) ((writeProg_out hW2).trans hG)
    have g2 := ihb (fun n hn => hN n (List.mem_append_right _ hn)) (fun n hn => hA n (List.mem_append_right _ hn))
      g1.winv ((writeProg_frame hW1).inv hww).1 ((readProg_frame h1).look hk) (ht.2 _ _ h1 hW1) h2 hW2 g1.fw g1.len hF hG
    refine ⟨g2.fw, g2.len, g1.grow.trans g2.grow, g2.winv, fun q hq => ?_⟩
    simp only [uses, hW1, List.mem_append] at hq
    rcases hq with hq | hq
    · exact (g1.cov q hq).grow g2.grow
    · exact g2.cov q hq
  | act a =>
    rw [readProg, proceed_none hk] at h
    simp only [writeProg, bind_ok, pure_ok] at hW
    obtain ⟨r, hr, rfl⟩ := hW
    obtain ⟨q, hq1, hq2⟩ := act_fwd hT hN hw.lvl hk ht h hat hr
    have hf := readAct_frame (a := true) h
    rw [hq1] at hF
    have ha := hq2 (prefix_last hFG hF hG hlen)
    have hl := hf.lvl hw.lvl
    have hm := hat.move ha hl.2 hf.ups hf.lv
    exact ⟨⟨hm.out, hm.lev, hm.hold, hm.so, hm.wo, hm.lv⟩, by rw [hq1]; simp [hlen], ha.step.grow,
      hw.step hl.1 ha.step.abb, ha.cov⟩
  | sect r body ih =>
    have hfr := readProg_frame h
    have hstop : s.stopped = false := by simp [RSt.stopped, hk]
    rw [readProg, hstop] at h
    simp only [Bool.false_eq_true, if_false, Out.lift_ok, Out.andThen_ok] at h
    obtain ⟨s1, h1, s2, h2, cur, h3, s3, h4, h5⟩ := h
    cases h5
    obtain ⟨w1, w2, hw1, hw2, rfl⟩ := writeSect_same hww hW
    have hf := readProg_frame h2
    obtain ⟨is, d, dW, v, hi, hs1, hw1c, hw1o, hc, hcW, hD, hy, hna, hfw⟩ := hat.enter hT hw.lvl h1 hw1
    have hl1 : Lvl false s1.cur := by rw [hs1]; exact (Lvl.of_clean hc).set_up _
    have hlW : Lvl false w1.cur := by rw [hw1c]; exact (Lvl.of_clean hcW).set_up _
    have hrec : s'.recs = s2.recs := closeR_recs (s := { s2 with cur := cur }) h4
    have hlook : s1.look = none := by rw [hs1]; exact hk
    have hin := ih hN hA (s := { s1 with cur := initWork s1.cur }) (w := { w1 with cur := initWork w1.cur })
      (clean_work hl1).1 (clean_work hlW).1 hlook (ht _ _ h1 hw1) h2 hw2
      ⟨hfw.out, hfw.lev.init, (by
        intro k u hk hu ha
        have e : dGet k (initWork s1.cur) = dGet k s1.cur := by
          unfold initWork
          rw [dGet_dSet_ne (by rintro rfl; simp [Key.data] at hk), dGet_dSet_ne (by rintro rfl; simp [Key.data] at hk)]
        rw [e] at hu
        exact hfw.hold k u hk hu ha), hfw.so, hfw.wo, hfw.lv⟩
      (by rw [openR_recs h1, hw1o]; exact hlen) (hrec ▸ hF) hG
    have hst := sect_step hw.lvl h1 hf hin.grow hin.winv h3 h4
    have hu := hf.ups
    dsimp only at hu
    rw [hs1] at hu
    obtain ⟨new, hn, rfl⟩ := closeR_ok (s := { s2 with cur := cur }) hu h4
    obtain ⟨g1, g2⟩ := leave_fwd hat.lev hat.hold (removeWork_lvl hin.winv.lvl h3).1
      (fun k u hk hu ha => hin.fw.hold k u hk (removeWork_back hin.winv h3 hu) ha) hD hy hna hn
    refine ⟨⟨hat.out, hat.lev.sync' hst.abb (hfr.lvl hw.lvl).2, g1, ?_, hat.wo, hat.lv.trans hfr.lv.symm⟩, ?_,
      hst.grow, hw.step (hfr.lvl hw.lvl).1 hst.abb, fun q hq => ?_⟩
    · exact hat.so
    · rw [hrec]; exact hin.len
    · simp only [uses, usesIn, hw1, refPath, hat.lv, hi, List.mem_map] at hq
      obtain ⟨q', hq', rfl⟩ := hq
      exact g2 _ ((hin.cov _ hq').removeWork hin.winv h3)
  | loop v e1 e2 body ih =>
    have hstop : s.stopped = false := by simp [RSt.stopped, hk]
    rw [readProg, hstop] at h
    simp only [Bool.false_eq_true, if_false, Out.lift_ok, Out.andThen_ok] at h
    obtain ⟨⟨x, y⟩, h1, s1, h2, h3⟩ := h
    simp only [writeProg, bind_ok, pure_ok] at hW
    obtain ⟨⟨x', y'⟩, hw1, w1, hw2, hw3⟩ := hW
    have hh := hat.here hT
    have h1' : loopHead c.fuel ⟨s.cur, L.map Level.d, s.lv⟩ v e1 e2 = .ok (x, y) := by
      rw [← hat.so]; exact h1
    have hw1' : loopHead fuel ⟨w.cur, L.map Level.w, s.lv⟩ v e1 e2 = .ok (x', y') := by
      rw [← hat.wo, ← hat.lv]; exact hw1
    obtain ⟨rfl, rfl⟩ := hh.loopHead (fun n hn => hN n (by simp [looked, hn])) (fun n hn => hN n (by simp [looked, hn])) h1' hw1'
    have hF1 : s1.recs <+: F := by
      cases h3
      split at hF
      · exact hF
      · exact hF
    have hG1 : w1.out <+: G := by
      subst hw3
      split at hG
      · exact hG
      · exact hG
    obtain ⟨g1, g2, g3⟩ := iterate_fwd
      (I := fun s w => Fw A N top s w D L ∧ s.recs.length = w.out.length ∧ WInv s.cur ∧ WInv w.cur ∧ s.look = none)
      (K := fun s w => s.recs <+: F ∧ w.out <+: G) (P := Along c fuel body)
      (R := fun s s' : RSt => Grow s.cur s'.cur) (C := fun s q => Cov s.cur q)
      (f := uses fuel body) (fun s => .refl _) (fun h1 h2 => h1.trans h2) (fun h1 h2 => h2.grow h1)
      (fun i s w s1 w1 hb hbw hk => ⟨(readProg_recs (s := RSt.setVar v i s) hb).trans hk.1,
        (writeProg_out (w := WSt.setVar v i w) hbw).trans hk.2⟩)
      (fun i s w s1 w1 hI hP hK hb hbw => by
        obtain ⟨q1, q2, q3, q4, q5⟩ := hI
        have := ih (fun n hn => hN n (by simp [looked, hn])) hA (s := RSt.setVar v i s) (w := WSt.setVar v i w)
          q3 q4 q5 hP hb hbw ⟨q1.out, q1.lev, q1.hold, q1.so, q1.wo, by simp only [RSt.setVar, WSt.setVar, q1.lv]⟩ q2 hK.1 hK.2
        exact ⟨⟨this.fw, this.len, this.winv, ((writeProg_frame hbw).inv q4).1, (readProg_frame hb).look q5⟩,
          this.grow, this.cov⟩)
      _ ⟨hat, hlen, hw, hww, hk⟩ (ht x y h1) ⟨hF1, hG1⟩ h2 hw2
    obtain ⟨q1, q2, q3, q4, q5⟩ := g1
    have hu : ∀ q ∈ uses fuel (.loop v e1 e2 body) w, Cov s1.cur q := by
      simp only [uses, hw1]
      exact g3
    cases h3
    subst hw3
    dsimp only
    split
    · exact ⟨⟨q1.out, q1.lev, q1.hold, q1.so, q1.wo, by simp only [q1.lv]⟩, q2, g2, q3, hu⟩
    · exact ⟨q1, q2, g2, q3, hu⟩
  | ite cond look thn els iht ihe =>
    have hstop : s.stopped = false := by simp [RSt.stopped, hk]
    have hNc : ∀ n ∈ condNames cond, n ∈ N := fun n hn => hN n (by simp [looked, hn])
    have hNt : ∀ n ∈ looked thn, n ∈ N := fun n hn => hN n (by simp [looked, hn])
    have hNe : ∀ n ∈ looked els, n ∈ N := fun n hn => hN n (by simp [looked, hn])
    have hAt : ∀ n ∈ abbrs thn, n ∈ A := fun n hn => hA n (by simp [abbrs, hn])
    have hAe : ∀ n ∈ abbrs els, n ∈ A := fun n hn => hA n (by simp [abbrs, hn])
    simp only [writeProg, bind_ok] at hW
    obtain ⟨t', hc', hW⟩ := hW
    cases look with
    | none =>
      rw [readProg, hstop] at h
      simp only [Bool.false_eq_true, if_false, Out.lift_ok] at h
      obtain ⟨t, h1, h2⟩ := h
      have hcw : evalCond fuel ⟨w.cur, L.map Level.w, s.lv⟩ cond = .ok t' := by
        rw [← hat.wo, ← hat.lv]; exact hc'
      have e1 : evalCond c.fuel ⟨s.cur, L.map Level.d, s.lv⟩ cond = .ok t := by rw [← hat.so]; exact h1
      have e2 : Decided c.fuel ⟨s.cur, L.map Level.d, s.lv⟩ cond := by rw [← hat.so]; exact ht.1
      have := (hat.here hT).cond hNc e2 e1 hcw
      subst this
      simp only [uses, hc']
      cases t with
      | true =>
        exact iht hNt hAt hw hww hk (ht.2.1 h1) (by simpa using h2) (by simpa using hW) hat hlen hF hG
      | false =>
        exact ihe hNe hAe hw hww hk (ht.2.2 h1) (by simpa using h2) (by simpa using hW) hat hlen hF hG
    | some n =>
      obtain ⟨b1, b2⟩ := ht s' h
      simp only [uses, hc']
      cases t' with
      | true =>
        obtain ⟨b3, b4⟩ := b1 hc'
        exact iht hNt hAt hw hww hk b4 b3 (by simpa using hW) hat hlen hF hG
      | false =>
        obtain ⟨b3, b4⟩ := b2 hc'
        exact ihe hNe hAe hw hww hk b4 b3 (by simpa using hW) hat hlen hF hG
  | abbr n e =>
    have hfr := readProg_frame h
    have hstop : s.stopped = false := by simp [RSt.stopped, hk]
    rw [readProg, hstop] at h
    simp only [Bool.false_eq_true, if_false, Out.lift_ok] at h
    obtain ⟨cur, h1, h2⟩ := h
    cases h2
    simp only [writeProg, bind_ok, pure_ok] at hW
    obtain ⟨curw, hw1, rfl⟩ := hW
    obtain ⟨ch, hch, _⟩ := hat.out.nest
    have hnA : n ∈ A := hA n (by simp [abbrs])
    have hD : dHas (.var n) D = false := hT.unu ch D hch n hnA
    have hlev := hat.lev.abbr hD hnA (fun r hr => hN _ (List.mem_map.2 ⟨r, hr, rfl⟩)) h1 hw1
    obtain ⟨g1, g2⟩ := introAbbr_grow hw h1
    obtain ⟨a1, a2⟩ := introAbbr_get h1
    refine ⟨⟨hat.out, hlev, ?_, hat.so, hat.wo, hat.lv⟩, hlen, g1, ?_, by simp [uses]⟩
    · intro k u hk hu ha
      by_cases hkn : k = .var n
      · subst hkn
        rw [a1] at hu; cases hu; exact absurd rfl (ha e)
      · dsimp only at hu
        rw [a2 k hkn (by rintro rfl; simp [Key.data] at hk)] at hu
        exact hat.hold k u hk hu ha
    · exact (introAbbr_core hw h1).1

end Verif
