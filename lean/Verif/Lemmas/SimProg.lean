import Verif.Lemmas.Simulate
import Verif.Lemmas.Reread
/-
Writing along the path of reading: records and whole recipes.
-/
namespace Verif
open Spec

variable [Lit]

theorem namedBody_sim {A N : List Name} {Q : ARec → ARec → Prop} {top D : DDic} {s : RSt} {w : WSt} {L : List Level} {a : Bool}
    {c : RCtx} {fuel : Nat} {name : Option VarRef} {b : LBody} {vals : List PyNum} {l' : LSt} {wl : WLSt} (hs : Strict c.po)
    (hN : ∀ n ∈ bodyNames b, n ∈ N)
    (hi : s.ignoreAll = false) (hT : Top A N top) (h : At A N Q top s w D L) (hl : Lvl a s.cur)
    (ht : match name with
      | none => TidyBody c vals b ⟨0, s⟩
      | some ref => ∀ s3, openR s ref = .ok s3 → TidyBody c vals b ⟨0, s3⟩)
    (hr : readNamedBody c vals b name s = .ok l') (hH : Hold l'.st.cur D)
    (hw : inTableW name w (fun s1 => writeBody fuel s1 b ⟨[], s1.lv⟩) = .ok wl) (hp : ¬ l'.pos < vals.length) :
    wl.vals.map PyNum.val = vals.map PyNum.val := by
  suffices wl.vals.map PyNum.val = (vals.take l'.pos).map PyNum.val by
    rw [this, List.take_of_length_le (by omega)]
  cases name with
  | none =>
    simp only [readNamedBody, inTableW] at hr hw
    exact (body_sim hs hT h.out h.wo hN (l := ⟨0, s⟩) hl hi ht hr hw ⟨h.lev, h.so, h.lv, rfl, by simp⟩ hH).vals
  | some r =>
    simp only [readNamedBody, Out.lift_ok, Out.andThen_ok] at hr
    obtain ⟨s1, h1, l2, h2, s3, h3, h4⟩ := hr
    cases h4
    simp only [inTableW, bind_ok] at hw
    obtain ⟨w1, hw1, hw⟩ := hw
    have h1' := h1
    obtain ⟨is, d, hi', hd, rfl⟩ := openR_ok h1'
    have hc : Clean (.dic d) := subDic_clean (fun d' hd' => hl.dic_clean hd') hd
    have hl1 : Lvl false (dSet .up .mark d) := (Lvl.of_clean hc).set_up _
    have hf := readBody_frame (a := false) h2
    have g1 := readBody_step (l := ⟨0, { s with cur := dSet .up .mark d, ups := (s.cur, r.name, is) :: s.ups }⟩) hi h2
    have hst := openClose_step hl h1 hf g1 h3
    obtain ⟨dW, e1, e2, e3, e4, hat⟩ := h.enter hT hl h1 (hf.ups) (hf.lvl hl1).1.nodup h3 hst hH hw1
    exact (body_sim hs hT hat.out hat.wo hN
      (l := ⟨0, { s with cur := dSet .up .mark d, ups := (s.cur, r.name, is) :: s.ups }⟩) hl1 hi (ht _ h1) h2 hw
      ⟨hat.lev, hat.so, hat.lv, rfl, by simp⟩ e3).vals

theorem like_of {k : Ctrl} {q r : ARec} (hk : q.kind = r.kind) (hns : q.kind ≠ .send) (hc : r.ctrl = k)
    (hf : List.Forall₂ SameVal q.flds r.flds) (ht : List.Forall₂ SameVal q.tbl r.tbl) : Like k q r := by
  intro h
  rw [if_neg hns] at h
  exact ⟨hk, h.trans hc.symm, hf, ht⟩

theorem act_sim {A N : List Name} {Q : ARec → ARec → Prop} {k : Ctrl} {top D : DDic} {s s' : RSt} {w : WSt} {L : List Level} {a : Bool}
    {c : RCtx} {fuel : Nat} {act : Act} {r : ARec} (hs : Strict c.po) (hT : Top A N top) (hC : CtrlAll k top) (hwf : ActWF act)
    (hN : ∀ n ∈ actNames act, n ∈ N) (hl : Lvl a s.cur) (hi : s.ignoreAll = false) (hk : s.look = none)
    (ht : TidyAct c act s) (h : readAct c act s = .ok s') (hat : At A N Q top s w D L) (hH : Hold s'.cur D)
    (hw : writeAct fuel w act = .ok r) : ∃ q, s'.recs = s.recs ++ [q] ∧ Like k q r := by
  have hst := readAct_step hl hi hk ht h
  have hfr := readAct_frame (a := a) h
  have hlev : Lev A N s'.cur w.cur D := hat.lev.sync' hst.abb (hfr.lvl hl).2
  have hcov : Cover s'.cur w.cur := hlev.cover hH
  have hctrl : ∀ kk, getCtrl w = .ok kk → kk = k := fun kk hkk =>
    Here.ctrl (d := s'.cur) ⟨hT, hat.out, hlev, hH⟩ hC hat.wo hkk
  have henv : (⟨w.cur, w.outer, s.lv⟩ : Env) = w.env := by rw [← hat.lv]; rfl
  cases act with
  | text kk fs =>
    rw [readAct] at h
    obtain ⟨r, s1, hn, h, e1, e2, e3, e4, e5, e6⟩ := takeRec_next h
    simp only [Out.lift_ok] at h
    obtain ⟨_, _, cur, h1, h2⟩ := h
    unfold logRec at h2; cases h2
    obtain ⟨t1, t2⟩ := ht r s1 hn
    rw [e1, e2] at h1
    have hcov1 : Cover cur w.cur := Cover.before (setCtrl_step (t2 _ h1)) hcov
    simp only [writeAct, bind_ok, pure_ok] at hw
    obtain ⟨kc, hk1, _, _, hl2, hm, rfl⟩ := hw
    refine ⟨⟨.text, [.txt r.hl], [], r.ctrl⟩, by simp [e6], like_of rfl (by simp) (hctrl _ hk1) ?_ .nil⟩
    rw [← henv] at hm
    have := mapTextRead_again t1 h1 hcov1 hm
    refine .cons ?_ .nil
    rw [this]; rfl
  | cont isHead kk fs =>
    rw [readAct] at h
    obtain ⟨r, s1, hn, h, e1, e2, e3, e4, e5, e6⟩ := takeRec_next h
    simp only [Out.lift_ok, Out.andThen_ok] at h
    obtain ⟨_, _, s2, h1, h2⟩ := h
    have h1' := h1
    obtain ⟨cur, hm, rfl⟩ := mapFields_ok h1'
    obtain ⟨g1, g2⟩ := mapRead_again (strict_po hs) (e4.trans hi) (contVals_leaf r) (by exact hwf) hm
    unfold logRec at h2; cases h2
    simp only [writeAct, bind_ok, pure_ok] at hw
    obtain ⟨kc, hk1, _, _, out, hout, rfl⟩ := hw
    have hcov1 : Cover cur w.cur := by
      cases isHead with
      | false => exact hcov
      | true => exact Cover.before (setCtrl_step (ht r s1 hn _ h1)) hcov
    refine ⟨⟨if isHead then .head else .cont, r.vals, [], r.ctrl⟩, ?_, like_of rfl ?_ (hctrl _ hk1) ?_ .nil⟩
    · cases isHead <;> simp [e6]
    · cases isHead <;> simp
    · rw [← henv, ← e2] at hout
      exact g2 _ _ _ _ hcov1 hout
  | dir kk fs =>
    rw [readAct] at h
    obtain ⟨r, s1, hn, h, e1, e2, e3, e4, e5, e6⟩ := takeRec_next h
    simp only [Out.lift_ok, Out.andThen_ok] at h
    obtain ⟨_, _, s2, h1, h2⟩ := h
    obtain ⟨cur, hm, rfl⟩ := mapFields_ok h1
    obtain ⟨g1, g2⟩ := mapRead_again (strict_po hs) (e4.trans hi) (by simp [SameVal]) (by exact hwf) hm
    unfold logRec at h2; cases h2
    simp only [writeAct, bind_ok, pure_ok] at hw
    obtain ⟨kc, hk1, _, _, out, hout, rfl⟩ := hw
    refine ⟨⟨.dir, [.num (.int r.l1), .num (.int r.l2), .num (.int r.n1), .num (.int r.n2)], [], r.ctrl⟩, by simp [e6], like_of rfl (by simp) (hctrl _ hk1) ?_ .nil⟩
    rw [← henv, ← e2] at hout
    exact g2 _ _ _ _ hcov hout
  | intg kk fs nd =>
    rw [readAct] at h
    rw [Out.lift_ok] at h
    obtain ⟨n, hnd, h⟩ := h
    split at h
    · rename_i n
      obtain ⟨r, s1, hn, h, e1, e2, e3, e4, e5, e6⟩ := takeRec_next h
      simp only [Out.lift_ok, Out.andThen_ok] at h
      obtain ⟨_, _, s2, h1, h2⟩ := h
      obtain ⟨cur, hm, rfl⟩ := mapFields_ok h1
      obtain ⟨g1, g2⟩ := mapRead_again (strict_po hs) (e4.trans hi) (by simp [SameVal, intsVal]) (by exact hwf) hm
      unfold logRec at h2; cases h2
      simp only [writeAct, bind_ok] at hw
      obtain ⟨kc, hk1, _, _, out, hout, n', hn', hw⟩ := hw
      have hh : Here A N top s.cur w.cur D L := ⟨hT, hat.out, hat.lev, hH.before hst.grow⟩
      have q1 : evalKnown c.fuel ⟨s.cur, L.map Level.d, s.lv⟩ true true nd = .ok (.num (.int n)) := by
        rw [← hat.so]; exact hnd
      have q2 : evalKnown fuel ⟨w.cur, L.map Level.w, s.lv⟩ true true nd = .ok n' := by
        rw [← hat.wo, henv]; exact hn'
      obtain ⟨y, rfl, hy⟩ := hh.known hN q1 q2 _ rfl
      cases y with
      | num y => simp only [reduceCtorEq] at hw
      | int m =>
        simp only [pure_ok] at hw
        subst hw
        have : n = m := by simpa [PyNum.val] using hy
        subst this
        refine ⟨⟨.intg n, [.num (.int r.ii), .num (.int r.jj), intsVal r.kij], [], r.ctrl⟩, by simp [e6], like_of rfl (by simp) (hctrl _ hk1) ?_ .nil⟩
        rw [← henv, ← e2] at hout
        exact g2 _ _ _ _ hcov hout
    · cases h
  | tab1 kk fs x y name =>
    rw [readAct] at h
    obtain ⟨r, s1, hn, h, e1, e2, e3, e4, e5, e6⟩ := takeRec_next h
    simp only [Out.lift_ok, Out.andThen_ok] at h
    obtain ⟨_, _, s2, h1, h2⟩ := h
    have hf := mapFields_frame (a := a) (clean_take (contVals_clean r.head) 4) h1
    rw [proceed_none (hf.look (e5.trans hk))] at h2
    simp only [Out.andThen_ok] at h2
    obtain ⟨s3, h2, h3⟩ := h2
    unfold logRec at h3; cases h3
    obtain ⟨cur, hm, rfl⟩ := mapFields_ok h1
    have hlen : (fs.take 4).length = (r.head.vals.take 4).length := by
      have : fs.length = 6 := hwf
      simp [this, ContRec.vals]
    obtain ⟨g1, g2⟩ := mapRead_again (strict_po hs) (e4.trans hi) (leaf_take (contVals_leaf r.head) 4) hlen hm
    have hl2 := (hf.lvl (e1 ▸ hl))
    have hst2 := inTable_step (c := c) hl2.1
      (fun a s s' hh => mapFields_frame (cols_clean [_, _, _, _]) hh)
      (fun sa sb hh hm => mapFields_step (hh.trans (hf.ign.trans (e4.trans hi))) (cols_leaf [_, _, _, _]) hm) h2
    have hat1 : At A N Q top { s1 with cur := cur } w D L :=
      hat.move (e1 ▸ g1.abb) (hl2.2.trans (by rw [e1])) e3 e2 e6
    simp only [writeAct, bind_ok, pure_ok] at hw
    obtain ⟨kc, hk1, _, _, out, hout, cols, hcols, rfl⟩ := hw
    have hrec : s3.recs = s.recs := by
      have : s3.recs = s1.recs := by
        unfold inTable at h2
        split at h2
        · obtain ⟨_, _, rfl⟩ := mapFields_ok h2; rfl
        · simp only [Out.lift_ok, Out.andThen_ok] at h2
          obtain ⟨sa, ha, sb, hb, sc, hc, hd⟩ := h2
          cases hd
          obtain ⟨_, _, _, _, rfl⟩ := openR_ok ha
          obtain ⟨_, _, rfl⟩ := mapFields_ok hb
          obtain ⟨_, _, rfl⟩ := closeR_ok rfl hc
          rfl
      rw [this, e6]
    refine ⟨⟨.tab1, r.head.vals.take 4, [intsVal r.nbt, intsVal r.int, numsVal r.xs, numsVal r.ys], r.head.ctrl⟩, by simp [hrec], like_of rfl (by simp) (hctrl _ hk1) ?_ ?_⟩
    · rw [← henv, ← e2] at hout
      exact g2 _ _ _ _ (Cover.before hst2 hcov) hout
    · exact inTable_sim (s := { s1 with cur := cur }) hs (e4.trans hi) hT hat1 hl2.1 rfl (cols_clean [_, _, _, _]) (cols_leaf [_, _, _, _]) h2 hH hcols
  | tab2 kk fs name =>
    rw [readAct] at h
    obtain ⟨r, s1, hn, h, e1, e2, e3, e4, e5, e6⟩ := takeRec_next h
    simp only [Out.lift_ok, Out.andThen_ok] at h
    obtain ⟨_, _, s2, h1, h2⟩ := h
    have hv : ∀ v ∈ r.head.vals.take 4 ++ r.head.vals.drop 5, SameVal v v := by
      intro v hv
      rcases List.mem_append.1 hv with h | h
      · exact contVals_leaf _ v (List.mem_of_mem_take h)
      · exact contVals_leaf _ v (List.mem_of_mem_drop h)
    have hv2 : ∀ v ∈ r.head.vals.take 4 ++ r.head.vals.drop 5, Clean v := by
      intro v hv
      rcases List.mem_append.1 hv with h | h
      · exact contVals_clean _ v (List.mem_of_mem_take h)
      · exact contVals_clean _ v (List.mem_of_mem_drop h)
    have hf := mapFields_frame (a := a) hv2 h1
    rw [proceed_none (hf.look (e5.trans hk))] at h2
    simp only [Out.andThen_ok] at h2
    obtain ⟨s3, h2, h3⟩ := h2
    unfold logRec at h3; cases h3
    obtain ⟨cur, hm, rfl⟩ := mapFields_ok h1
    have hlen : (fs.take 4 ++ fs.drop 5).length = (r.head.vals.take 4 ++ r.head.vals.drop 5).length := by
      have : fs.length = 6 := hwf
      simp [this, ContRec.vals]
    obtain ⟨g1, g2⟩ := mapRead_again (strict_po hs) (e4.trans hi) hv hlen hm
    have hl2 := (hf.lvl (e1 ▸ hl))
    have hst2 := inTable_step (c := c) hl2.1
      (fun a s s' hh => mapFields_frame (cols_clean [_, _]) hh)
      (fun sa sb hh hm => mapFields_step (hh.trans (hf.ign.trans (e4.trans hi))) (cols_leaf [_, _]) hm) h2
    have hat1 : At A N Q top { s1 with cur := cur } w D L :=
      hat.move (e1 ▸ g1.abb) (hl2.2.trans (by rw [e1])) e3 e2 e6
    simp only [writeAct, bind_ok, pure_ok] at hw
    obtain ⟨kc, hk1, _, _, out, hout, cols, hcols, rfl⟩ := hw
    have hrec : s3.recs = s.recs := by
      have : s3.recs = s1.recs := by
        unfold inTable at h2
        split at h2
        · obtain ⟨_, _, rfl⟩ := mapFields_ok h2; rfl
        · simp only [Out.lift_ok, Out.andThen_ok] at h2
          obtain ⟨sa, ha, sb, hb, sc, hc, hd⟩ := h2
          cases hd
          obtain ⟨_, _, _, _, rfl⟩ := openR_ok ha
          obtain ⟨_, _, rfl⟩ := mapFields_ok hb
          obtain ⟨_, _, rfl⟩ := closeR_ok rfl hc
          rfl
      rw [this, e6]
    refine ⟨⟨.tab2, r.head.vals.take 4 ++ r.head.vals.drop 5, [intsVal r.nbt, intsVal r.int], r.head.ctrl⟩, by simp [hrec], like_of rfl (by simp) (hctrl _ hk1) ?_ ?_⟩
    · rw [← henv, ← e2] at hout
      exact g2 _ _ _ _ (Cover.before hst2 hcov) hout
    · exact inTable_sim (s := { s1 with cur := cur }) hs (e4.trans hi) hT hat1 hl2.1 rfl (cols_clean [_, _]) (cols_leaf [_, _]) h2 hH hcols
  | list kk fs body name =>
    rw [readAct] at h
    obtain ⟨r, s1, hn, h, e1, e2, e3, e4, e5, e6⟩ := takeRec_next h
    simp only [Out.lift_ok, Out.andThen_ok] at h
    obtain ⟨_, _, s2, h1, h2⟩ := h
    have hf := mapFields_frame (a := a) (contVals_clean r.head) h1
    rw [proceed_none (hf.look (e5.trans hk))] at h2
    dsimp only at h2
    split at h2
    · cases h2
    · rename_i l hbody
      split at h2
      · cases h2
      · rename_i hp
        unfold logRec at h2; cases h2
        have ht1 := ht r s1 hn _ h1
        obtain ⟨cur, hm, rfl⟩ := mapFields_ok h1
        obtain ⟨g1, g2⟩ := mapRead_again (strict_po hs) (e4.trans hi) (contVals_leaf r.head) (by exact hwf) hm
        have hl2 := (hf.lvl (e1 ▸ hl))
        have hst2 := readNamedBody_step hl2.1 (hf.ign.trans (e4.trans hi)) hbody
        have hat1 : At A N Q top { s1 with cur := cur } w D L :=
          hat.move (e1 ▸ g1.abb) (hl2.2.trans (by rw [e1])) e3 e2 e6
        simp only [writeAct, bind_ok, pure_ok] at hw
        obtain ⟨kc, hk1, _, _, out, hout, wl, hwl, rfl⟩ := hw
        have hrec : l.st.recs = s.recs := by
          have hb : ∀ (b : LBody) (l l' : LSt), readBody c (r.vals.map PyNum.num) b l = .ok l' → l'.st.recs = l.st.recs := by
            intro b
            induction b with
            | nil => intro l l' h; cases h; rfl
            | seq b1 b2 i1 i2 =>
              intro l l' h
              rw [readBody, Out.andThen_ok] at h
              obtain ⟨l1, h1, h2⟩ := h
              rw [i2 _ _ h2, i1 _ _ h1]
            | expr e =>
              intro l l' h
              rw [readBody] at h
              split at h
              · cases h
              · rw [Out.lift_ok] at h
                obtain ⟨cur, h1, h2⟩ := h
                cases h2; rfl
            | pad => intro l l' h; rw [readBody] at h; cases h; rfl
            | loop v e1 e2 body ih =>
              intro l l' h
              rw [readBody, Out.lift_ok] at h
              obtain ⟨⟨x, y⟩, h1, h2⟩ := h
              rw [Out.andThen_ok] at h2
              obtain ⟨l1, h2, h3⟩ := h2
              have := iterate_frame (R := fun l l' : LSt => l'.st.recs = l.st.recs)
                (fun s => rfl) (fun h1 h2 => h2.trans h1) (fun i s s' hs' => ih (LSt.setVar v i s) s' hs') _ h2
              cases h3
              split
              · exact this
              · exact this
          have : l.st.recs = s1.recs := by
            unfold readNamedBody at hbody
            split at hbody
            · exact hb _ _ _ hbody
            · simp only [Out.lift_ok, Out.andThen_ok] at hbody
              obtain ⟨sa, ha, sb, hb', sc, hc, hd⟩ := hbody
              cases hd
              have q1 := hb _ _ _ hb'
              obtain ⟨_, _, _, _, rfl⟩ := openR_ok ha
              have hu := (readBody_frame (a := false) hb').ups
              obtain ⟨_, _, rfl⟩ := closeR_ok hu hc
              exact q1
          rw [this, e6]
        refine ⟨⟨.list, r.head.vals, [.lst (r.vals.map PyNum.num)], r.head.ctrl⟩, by simp [hrec], like_of rfl (by simp) (hctrl _ hk1) ?_ ?_⟩
        · rw [← henv, ← e2] at hout
          exact g2 _ _ _ _ (Cover.before hst2 hcov) hout
        · refine .cons ?_ .nil
          exact (namedBody_sim (s := { s1 with cur := cur }) hs hN (e4.trans hi) hT hat1 hl2.1 ht1 hbody hH hwl hp).symm
  | send =>
    rw [readAct] at h
    simp only [Out.lift_ok] at h
    obtain ⟨ofs, _, ⟨r, n⟩, _, h2⟩ := h
    unfold logRec at h2; cases h2
    simp only [writeAct, bind_ok, pure_ok] at hw
    obtain ⟨kc, hk1, rfl⟩ := hw
    refine ⟨_, rfl, fun hc => ⟨rfl, ?_, .nil, .nil⟩⟩
    rw [hctrl _ hk1]
    exact hc
  | stop =>
    rw [readAct] at h
    simp only [Out.lift_ok] at h
    obtain ⟨_, _, h⟩ := h
    cases h

/-! ## recipes -/

theorem introAbbr_get {d d' : DDic} {n : Name} {e : Expr} (hi : introAbbr d n e = .ok d') :
    dGet (.var n) d' = some (.abb e) ∧ ∀ k, k ≠ .var n → k ≠ .abbrevs → dGet k d' = dGet k d := by
  unfold introAbbr at hi
  dsimp only at hi
  split at hi
  · cases hi
  · cases hi
    refine ⟨dGet_dSet_self _ _ _, fun k h1 h2 => ?_⟩
    rw [dGet_dSet_ne (Ne.symm h1), dGet_dSet_ne (Ne.symm h2)]

theorem Lev.abbr {A N : List Name} {d d' w w' D : DDic} {n : Name} {e : Expr} (h : Lev A N d w D)
    (hD : dHas (.var n) D = false) (hA : n ∈ A) (hN : ∀ r ∈ e.refs, r.name ∈ N)
    (h1 : introAbbr d n e = .ok d') (h2 : introAbbr w n e = .ok w') : Lev A N d' w' D := by
  obtain ⟨a1, a2⟩ := introAbbr_get h1
  obtain ⟨b1, b2⟩ := introAbbr_get h2
  have ea : ∀ m, m ≠ n → dGet (.var m) d' = dGet (.var m) d := fun m hm => a2 _ (by simpa using hm) (by simp)
  have eb : ∀ m, m ≠ n → dGet (.var m) w' = dGet (.var m) w := fun m hm => b2 _ (by simpa using hm) (by simp)
  refine ⟨?_, ?_, ?_, ?_, ?_⟩
  · intro m e'
    by_cases hm : m = n
    · subst hm; rw [a1, b1]
    · rw [ea m hm, eb m hm]; exact h.sync m e'
  · intro m v hv
    by_cases hm : m = n
    · subst hm; rw [b1] at hv; cases hv; exact .inl ⟨_, rfl⟩
    · rw [eb m hm] at hv; exact h.split m v hv
  · intro m v hv
    have hm : m ≠ n := by
      rintro rfl
      rw [dHas_none] at hD
      rw [hD] at hv; cases hv
    rw [eb m hm]; exact h.sub m v hv
  · intro m e' hv
    by_cases hm : m = n
    · subst hm; rw [b1] at hv; cases hv; exact ⟨hA, hN⟩
    · rw [eb m hm] at hv; exact h.good m e' hv
  · unfold dHas
    rw [a2 _ (by simp) (by simp), b2 _ (by simp) (by simp)]
    exact h.up

theorem writeSect_same {fuel : Nat} {r : VarRef} {body : Prog} {w w' : WSt} (hw : WInv w.cur)
    (h : writeProg fuel (.sect r body) w = .ok w') :
    ∃ w1 w2, openW w r = .ok w1 ∧ writeProg fuel body { w1 with cur := initWork w1.cur } = .ok w2 ∧
      w' = { w with out := w2.out } := by
  have hff := writeProg_frame h
  simp only [writeProg, bind_ok] at h
  obtain ⟨s1, h1, s2, h2, cur, h3, h4⟩ := h
  refine ⟨s1, s2, h1, h2, ?_⟩
  obtain ⟨is, d, _, hd, rfl⟩ := openW_ok h1
  have hf := writeProg_frame h2
  have hu := hf.ups
  have hlv := hf.lv
  unfold closeW at h4
  simp only [hu, bind_ok, pure_ok] at h4
  obtain ⟨new, hn, rfl⟩ := h4
  have hc : Clean (.dic d) := subDicW_clean (fun d' hd' => hw.lvl.dic_clean hd') hd
  have hl1 : Lvl false (dSet .up .mark d) := (Lvl.of_clean hc).set_up _
  obtain ⟨w1, w2⟩ := clean_work hl1
  obtain ⟨w3, w4⟩ := hf.inv w1
  have hcur := removeWork_core w3 h3
  rw [w4, w2] at hcur
  have hdel : dDel Key.up cur = d := by
    rw [hcur]
    apply dDel_dSet
    cases hc with
    | dic _ c1 c2 c3 =>
      unfold dHas
      cases hg : dGet Key.up d with
      | none => rfl
      | some v => exact absurd (.inl rfl) (c2 _ _ hg)
  obtain ⟨v, hv, hset⟩ := setArr_subDicW hd
  rw [hdel, hset] at hn
  cases hn
  rw [dSet_same hv]
  dsimp only at hlv
  rw [hlv]

/-- what is known about the records read and written by single actions -/
def ActPairs (A N : List Name) (Q : ARec → ARec → Prop) (top : DDic) (c : RCtx) (fuel : Nat) : Prop :=
  ∀ (act : Act) (s s' : RSt) (w : WSt) (D : DDic) (L : List Level) (r : ARec), ActWF act → (∀ n ∈ actNames act, n ∈ N) →
    WInv s.cur → s.ignoreAll = false → s.look = none → TidyAct c act s → readAct c act s = .ok s' → At A N Q top s w D L →
    Hold s'.cur D → writeAct fuel w act = .ok r → ∃ q, s'.recs = s.recs ++ [q] ∧ Q q r

theorem pairs_like {A N : List Name} {k : Ctrl} {top : DDic} {c : RCtx} {fuel : Nat} (hs : Strict c.po) (hT : Top A N top)
    (hC : CtrlAll k top) : ActPairs A N (Like k) top c fuel :=
  fun _ _ _ _ _ _ _ hwf hN hw hi hk ht h hat hH hr => act_sim hs hT hC hwf hN hw.lvl hi hk ht h hat hH hr

theorem pairs_any {A N : List Name} {top : DDic} {c : RCtx} {fuel : Nat} : ActPairs A N (fun _ _ => True) top c fuel := by
  intro act s s' w D L r _ _ _ _ hk _ h _ _ _
  obtain ⟨q, hq, -⟩ := readAct_put hk h
  exact ⟨q, hq, trivial⟩

theorem sim {A N : List Name} {Q : ARec → ARec → Prop} {top : DDic} {c : RCtx} {fuel : Nat} (hq : ActPairs A N Q top c fuel) (hT : Top A N top)
    {p : Prog} (hwf : WF p) (hN : ∀ n ∈ looked p, n ∈ N) (hA : ∀ n ∈ abbrs p, n ∈ A) {s s' : RSt} {w w' : WSt} {D : DDic}
    {L : List Level} (hw : WInv s.cur) (hww : WInv w.cur) (hi : s.ignoreAll = false) (hk : s.look = none)
    (ht : Tidy c p s) (h : readProg c p s = .ok s') (hW : writeProg fuel p w = .ok w') (hat : At A N Q top s w D L)
    (hH : Hold s'.cur D) : At A N Q top s' w' D L := by
  induction p generalizing s s' w w' D L with
  | skip => cases h; cases hW; exact hat
  | seq a b iha ihb =>
    rw [readProg, Out.andThen_ok] at h
    obtain ⟨s1, h1, h2⟩ := h
    rw [writeProg, bind_ok] at hW
    obtain ⟨w1, hW1, hW2⟩ := hW
    have hf := readProg_frame h1
    have g1 := readProg_grow hw hi hk ht.1 h1
    have g2 := readProg_grow g1.2 (hf.ign.trans hi) (hf.look hk) (ht.2 _ h1) h2
    have hat1 := iha hwf.1 (fun n hn => hN n (List.mem_append_left _ hn)) (fun n hn => hA n (List.mem_append_left _ hn))
      hw hww hi hk ht.1 h1 hW1 hat (hH.before g2.1)
    exact ihb hwf.2 (fun n hn => hN n (List.mem_append_right _ hn)) (fun n hn => hA n (List.mem_append_right _ hn))
      g1.2 ((writeProg_frame hW1).inv hww).1 (hf.ign.trans hi) (hf.look hk) (ht.2 _ h1) h2 hW2 hat1 hH
  | act a =>
    rw [readProg, proceed_none hk] at h
    simp only [writeProg, bind_ok, pure_ok] at hW
    obtain ⟨r, hr, rfl⟩ := hW
    obtain ⟨q, hq1, hq2⟩ := hq _ _ _ _ _ _ _ hwf hN hw hi hk ht h hat hH hr
    have hst := readAct_step hw.lvl hi hk ht h
    have hf := readAct_frame (a := true) h
    refine ⟨hat.out, hat.lev.sync' hst.abb (hf.lvl hw.lvl).2, ?_, hat.wo, hat.lv.trans hf.lv.symm, ?_⟩
    · rw [RSt.outer, hf.ups]; exact hat.so
    · rw [hq1]
      exact List.rel_append hat.recs (.cons hq2 .nil)
  | sect r body ih =>
    have hfr := readProg_frame h
    have hstop : s.stopped = false := by simp [RSt.stopped, hk]
    rw [readProg, hstop] at h
    simp only [Bool.false_eq_true, if_false, Out.lift_ok, Out.andThen_ok] at h
    obtain ⟨s1, h1, s2, h2, cur, h3, s3, h4, h5⟩ := h
    cases h5
    obtain ⟨w1, w2, hw1, hw2, rfl⟩ := writeSect_same hww hW
    have hf := readProg_frame h2
    have h1' := h1
    obtain ⟨is, d, hidx, hd, rfl⟩ := openR_ok h1'
    have hc : Clean (.dic d) := subDic_clean (fun d' hd' => hw.lvl.dic_clean hd') hd
    have hl1 : Lvl false (dSet .up .mark d) := (Lvl.of_clean hc).set_up _
    have ht1 := ht _ h1
    obtain ⟨g1, g2⟩ := readProg_grow (s := { s with cur := initWork (dSet .up .mark d), ups := (s.cur, r.name, is) :: s.ups }) (clean_work hl1).1 hi hk ht1 h2
    have hst := sect_step hw.lvl h1 hf g1 g2 h3 h4
    obtain ⟨dW, e1, e2, e3, e4, hat1⟩ := hat.enter hT hw.lvl h1 (s2 := { s2 with cur := cur }) hf.ups
      (removeWork_lvl g2.lvl h3).1.nodup h4 hst hH hw1
    have hHi : Hold s2.cur dW := by
      intro n v hv ha
      exact e3 n v (removeWork_get g2 h3 rfl ha hv) ha
    have hlW : Lvl false w1.cur := by rw [e1]; exact (Lvl.of_clean e2).set_up _
    have hin := ih hwf hN hA (s := { s with cur := initWork (dSet .up .mark d), ups := (s.cur, r.name, is) :: s.ups })
      (w := { w1 with cur := initWork w1.cur }) (clean_work hl1).1 (clean_work hlW).1 hi hk ht1 h2 hw2
      ⟨hat1.out, hat1.lev.init, hat1.so, hat1.wo, hat1.lv, hat1.recs⟩ hHi
    have hrec : s'.recs = s2.recs := by
      obtain ⟨_, _, rfl⟩ := closeR_ok (s := { s2 with cur := cur }) hf.ups h4; rfl
    refine ⟨hat.out, hat.lev.sync' hst.abb (hfr.lvl hw.lvl).2, ?_, hat.wo, hat.lv.trans hfr.lv.symm, ?_⟩
    · rw [RSt.outer, hfr.ups]; exact hat.so
    · rw [hrec]; exact hin.recs
  | loop v e1 e2 body ih =>
    have hstop : s.stopped = false := by simp [RSt.stopped, hk]
    rw [readProg, hstop] at h
    simp only [Bool.false_eq_true, if_false, Out.lift_ok, Out.andThen_ok] at h
    obtain ⟨⟨x, y⟩, h1, s1, h2, h3⟩ := h
    simp only [writeProg, bind_ok, pure_ok] at hW
    obtain ⟨⟨x', y'⟩, hw1, w1, hw2, hw3⟩ := hW
    have hH1 : Hold s1.cur D := by
      cases h3
      split at hH
      · exact hH
      · exact hH
    have hV : ∀ i (s s1 : RSt), (WInv s.cur ∧ s.ignoreAll = false ∧ s.look = none) → Tidy c body (RSt.setVar v i s) →
        readProg c body (RSt.setVar v i s) = .ok s1 →
        Grow s.cur s1.cur ∧ (WInv s1.cur ∧ s1.ignoreAll = false ∧ s1.look = none) := by
      intro i s s1 hI hP hb
      obtain ⟨g1, g2⟩ := readProg_grow (s := RSt.setVar v i s) hI.1 hI.2.1 hI.2.2 hP hb
      have hf := readProg_frame hb
      exact ⟨g1, g2, hf.ign.trans hI.2.1, hf.look hI.2.2⟩
    have hg := iterate_all (R := fun s s' : RSt => Grow s.cur s'.cur)
      (I := fun s => WInv s.cur ∧ s.ignoreAll = false ∧ s.look = none)
      (fun s => Grow.refl _) (fun h1 h2 => h1.trans h2) hV _ ⟨hw, hi, hk⟩ (ht x y h1) h2
    have hh : Here A N top s.cur w.cur D L := hat.here hT (hH1.before hg.1)
    have h1' : loopHead c.fuel ⟨s.cur, L.map Level.d, s.lv⟩ v e1 e2 = .ok (x, y) := by
      rw [← hat.so]; exact h1
    have hw1' : loopHead fuel ⟨w.cur, L.map Level.w, s.lv⟩ v e1 e2 = .ok (x', y') := by
      rw [← hat.wo, ← hat.lv]; exact hw1
    obtain ⟨rfl, rfl⟩ := hh.loopHead (fun n hn => hN n (by simp [looked, hn])) (fun n hn => hN n (by simp [looked, hn])) h1' hw1'
    have := iterate_sim (V := fun s : RSt => WInv s.cur ∧ s.ignoreAll = false ∧ s.look = none)
      (I := fun s w => At A N Q top s w D L ∧ WInv w.cur) (E := fun s => Hold s.cur D) (P := Tidy c body)
      (fun i s s1 hVs hP hb => ⟨fun he => he.before (hV i s s1 hVs hP hb).1, (hV i s s1 hVs hP hb).2⟩)
      (fun i s w s1 w1 hVs hIs hP hEs hb hbw => by
        refine ⟨ih hwf (fun n hn => hN n (by simp [looked, hn])) hA (s := RSt.setVar v i s) (w := WSt.setVar v i w)
          hVs.1 hIs.2 hVs.2.1 hVs.2.2 hP hb hbw ?_ hEs, ((writeProg_frame hbw).inv hIs.2).1⟩
        exact ⟨hIs.1.out, hIs.1.lev, hIs.1.so, hIs.1.wo, by simp only [RSt.setVar, WSt.setVar, hIs.1.lv], hIs.1.recs⟩)
      _ ⟨hw, hi, hk⟩ ⟨hat, hww⟩ (ht x y h1) hH1 h2 hw2
    cases h3
    subst hw3
    have hq := this.1
    dsimp only
    split
    · exact ⟨hq.out, hq.lev, hq.so, hq.wo, by simp only [hq.lv], hq.recs⟩
    · exact hq
  | ite cond look thn els iht ihe =>
    have hstop : s.stopped = false := by simp [RSt.stopped, hk]
    have hfr := readProg_frame h
    have hNc : ∀ n ∈ condNames cond, n ∈ N := fun n hn => hN n (by simp [looked, hn])
    have hNt : ∀ n ∈ looked thn, n ∈ N := fun n hn => hN n (by simp [looked, hn])
    have hNe : ∀ n ∈ looked els, n ∈ N := fun n hn => hN n (by simp [looked, hn])
    have hAt : ∀ n ∈ abbrs thn, n ∈ A := fun n hn => hA n (by simp [abbrs, hn])
    have hAe : ∀ n ∈ abbrs els, n ∈ A := fun n hn => hA n (by simp [abbrs, hn])
    have hgrow := readProg_grow hw hi hk ht h
    simp only [writeProg, bind_ok] at hW
    obtain ⟨t', hc', hW⟩ := hW
    have hcw : evalCond fuel ⟨w.cur, L.map Level.w, s.lv⟩ cond = .ok t' := by
      rw [← hat.wo, ← hat.lv]; exact hc'
    cases look with
    | none =>
      rw [readProg, hstop] at h
      simp only [Bool.false_eq_true, if_false, Out.lift_ok] at h
      obtain ⟨t, h1, h2⟩ := h
      have hh : Here A N top s.cur w.cur D L := hat.here hT (hH.before hgrow.1)
      have e1 : evalCond c.fuel ⟨s.cur, L.map Level.d, s.lv⟩ cond = .ok t := by rw [← hat.so]; exact h1
      have e2 : Decided c.fuel ⟨s.cur, L.map Level.d, s.lv⟩ cond := by rw [← hat.so]; exact ht.1
      have := hh.cond hNc e2 e1 hcw
      subst this
      cases t with
      | true =>
        exact iht hwf.1 hNt hAt hw hww hi hk (ht.2.1 h1) (by simpa using h2) (by simpa using hW) hat hH
      | false =>
        exact ihe hwf.2 hNe hAe hw hww hi hk (ht.2.2 h1) (by simpa using h2) (by simpa using hW) hat hH
    | some n =>
      obtain ⟨hd, hab, hbr⟩ := ht s' h
      have hlev : Lev A N s'.cur w.cur D :=
        ⟨fun n e => (hab n e).symm.trans (hat.lev.sync n e), hat.lev.split, hat.lev.sub, hat.lev.good,
          (hfr.lvl hw.lvl).2.trans hat.lev.up⟩
      have hh : Here A N top s'.cur w.cur D L := ⟨hT, hat.out, hlev, hH⟩
      have hso : s'.outer = L.map Level.d := by rw [RSt.outer, hfr.ups]; exact hat.so
      have e2 : Decided c.fuel ⟨s'.cur, L.map Level.d, s.lv⟩ cond := by rw [← hso, ← hfr.lv]; exact hd
      have e1 : ∀ t, evalCond c.fuel s'.env cond = .ok t →
          evalCond c.fuel ⟨s'.cur, L.map Level.d, s.lv⟩ cond = .ok t := by
        intro t ht; rw [← hso, ← hfr.lv]; exact ht
      rcases hbr with ⟨b1, b2, b3⟩ | ⟨b1, b2, b3⟩
      · have := hh.cond hNc e2 (e1 _ b1) hcw
        subst this
        exact iht hwf.1 hNt hAt hw hww hi hk b3 b2 (by simpa using hW) hat hH
      · have := hh.cond hNc e2 (e1 _ b1) hcw
        subst this
        exact ihe hwf.2 hNe hAe hw hww hi hk b3 b2 (by simpa using hW) hat hH
  | abbr n e =>
    have hstop : s.stopped = false := by simp [RSt.stopped, hk]
    rw [readProg, hstop] at h
    simp only [Bool.false_eq_true, if_false, Out.lift_ok] at h
    obtain ⟨cur, h1, h2⟩ := h
    cases h2
    simp only [writeProg, bind_ok, pure_ok] at hW
    obtain ⟨curw, hw1, rfl⟩ := hW
    obtain ⟨ch, hch, _⟩ := hat.out.nest
    have hnA : n ∈ A := hA n (by simp [abbrs])
    have hD : dHas (.var n) D = false := hT.unu ch D hch n hnA
    refine ⟨hat.out, hat.lev.abbr hD hnA ?_ h1 hw1, hat.so, hat.wo, hat.lv, hat.recs⟩
    intro r hr
    exact hN _ (List.mem_map.2 ⟨r, hr, rfl⟩)

end Verif
