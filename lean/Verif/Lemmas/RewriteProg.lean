import Verif.Lemmas.Rewrite
import Verif.Lemmas.AbbrDict
/-
What has been read can be written: records and whole recipes.
-/
namespace Verif
open Spec

variable [Lit]

theorem mapTextRead_has {lv : Dict Name Int} {full : Str} {fs : List TextField} {pos : Nat} {cur cur' : DDic}
    (h : mapTextRead lv full fs pos cur = .ok cur') :
    (∀ k, dHas k cur = true → dHas k cur' = true) ∧ ∀ f ∈ fs, ∀ r, f.ref = some r → dHas (.var r.name) cur' = true := by
  induction fs generalizing pos cur with
  | nil => simp only [mapTextRead, Except.ok.injEq] at h; subst h; exact ⟨fun _ h => h, by simp⟩
  | cons f fs ih =>
    simp only [mapTextRead] at h
    have key : ∀ upper : Nat,
        (if upper ≤ pos then (.error .sizeMismatch : Res DDic) else
          match f.ref with
          | none => mapTextRead lv full fs upper cur
          | some r => match setVarval cur lv r (.txt (slice full pos upper)) with
            | .error e => .error e
            | .ok cur' => mapTextRead lv full fs upper cur') = .ok cur' →
        (∀ k, dHas k cur = true → dHas k cur' = true) ∧ ∀ g ∈ f :: fs, ∀ r, g.ref = some r → dHas (.var r.name) cur' = true := by
      intro upper h
      split at h
      · cases h
      · cases hr : f.ref with
        | none =>
          rw [hr] at h
          obtain ⟨h1, h2⟩ := ih h
          refine ⟨h1, fun g hg r hgr => ?_⟩
          rcases List.mem_cons.1 hg with rfl | hg
          · rw [hr] at hgr; cases hgr
          · exact h2 g hg r hgr
        | some r =>
          rw [hr] at h
          dsimp only at h
          split at h
          · cases h
          · rename_i cur1 hs
            obtain ⟨h1, h2⟩ := ih h
            unfold setVarval at hs
            simp only [bind_ok, pure_ok] at hs
            obtain ⟨is, _, new, _, rfl⟩ := hs
            refine ⟨fun k hk => h1 k ?_, fun g hg r' hgr => ?_⟩
            · unfold dHas at hk ⊢
              by_cases he : Key.var r.name = k
              · subst he; rw [dGet_dSet_self]; rfl
              · rw [dGet_dSet_ne he]; exact hk
            · rcases List.mem_cons.1 hg with rfl | hg
              · rw [hr] at hgr; cases hgr
                exact h1 _ (dHas_some.2 ⟨_, dGet_dSet_self _ _ _⟩)
              · exact h2 g hg r' hgr
    cases hf : f.len with
    | none => rw [hf] at h; exact key _ h
    | some n => rw [hf] at h; exact key _ h

theorem setCtrl_has {k : Ctrl} {d : DDic} {n : Key} (h : dHas n d = true) : dHas n (setCtrl k d) = true := by
  have key : ∀ (m : Key) (v : Val) (d : DDic), dHas n d = true → dHas n (dSet m v d) = true := by
    intro m v d h
    unfold dHas at h ⊢
    by_cases he : m = n
    · subst he; rw [dGet_dSet_self]; rfl
    · rw [dGet_dSet_ne he]; exact h
  unfold setCtrl
  exact key _ _ _ (key _ _ _ (key _ _ _ h))

theorem act_run (hL : Lit.on = true) {A N V : List Name} {Q : ARec → ARec → Prop} {k : Ctrl} {top D : DDic} {s s' : RSt} {w : WSt} {L : List Level} {a : Bool}
    {c : RCtx} {fuel : Nat} {act : Act} (hT : Top A N top) (hC : CtrlAll k top) (hV : Unused V top)
    (hN : ∀ n ∈ actNames act, n ∈ N) (hB : ∀ n ∈ loopVars (.act act), n ∈ V) (hl : Lvl a s.cur) (hi : s.ignoreAll = false) (hk : s.look = none)
    (ht : TidyAct c act s) (hwh : Whole c (.act act) s) (h : readAct c act s = .ok s') (hat : At A N Q top s w D L) (hH : Hold s'.cur D)
    (hlv : ∀ n, dHas n s.lv = true → n ∈ V) (hf : c.fuel ≤ fuel) : ∃ r, writeAct fuel w act = .ok r := by
  have hst := readAct_step hl hi hk ht h
  have hfr := readAct_frame (a := a) h
  have hlev : Lev A N s'.cur w.cur D := hat.lev.sync' hst.abb (hfr.lvl hl).2
  have hl' : Lvl a s'.cur := (hfr.lvl hl).1
  have hless : Less A N top (asW s') w D L :=
    ⟨⟨hT, hat.out, hlev, hH⟩, by
      show s'.ups.map _ = _
      rw [hfr.ups]; exact hat.so, hat.wo, hat.lv.trans hfr.lv.symm⟩
  have hlv' : ∀ n, dHas n (asW s').lv = true → n ∈ V := by
    intro n hn; apply hlv; rw [← hfr.lv]; exact hn
  obtain ⟨r, hr⟩ := hwh s' h
  cases act with
  | text kk fs =>
    have hfs : ∀ f ∈ fs, ∀ r, f.ref = some r → dHas (.var r.name) (asW s').cur = true := by
      rw [readAct] at h
      obtain ⟨r, s1, hn, h, e1, e2, e3, e4, e5, e6⟩ := takeRec_next h
      simp only [Out.lift_ok] at h
      obtain ⟨_, _, cur, h1, h2⟩ := h
      unfold logRec at h2; cases h2
      exact fun f hf r hr => setCtrl_has ((mapTextRead_has h1).2 f hf r hr)
    simp only [writeAct, bind_ok, pure_ok] at hr ⊢
    obtain ⟨kc, h1, u, h2, t, h3, _⟩ := hr
    obtain ⟨rfl, h1'⟩ := hless.ctrl hL hC h1
    exact ⟨_, kc, h1', u, h2, t, hless.text hL hV hlv' hf hfs h3, rfl⟩
  | cont isHead kk fs =>
    simp only [writeAct, bind_ok, pure_ok] at hr ⊢
    obtain ⟨kc, h1, u, h2, t, h3, _⟩ := hr
    obtain ⟨rfl, h1'⟩ := hless.ctrl hL hC h1
    obtain ⟨t', h3'⟩ := hless.fields hL hV hlv' hf h3
    exact ⟨_, kc, h1', u, h2, t', h3', rfl⟩
  | dir kk fs =>
    simp only [writeAct, bind_ok, pure_ok] at hr ⊢
    obtain ⟨kc, h1, u, h2, t, h3, _⟩ := hr
    obtain ⟨rfl, h1'⟩ := hless.ctrl hL hC h1
    obtain ⟨t', h3'⟩ := hless.fields hL hV hlv' hf h3
    exact ⟨_, kc, h1', u, h2, t', h3', rfl⟩
  | intg kk fs nd =>
    simp only [writeAct, bind_ok] at hr ⊢
    obtain ⟨kc, h1, u, h2, t, h3, n, h4, h5⟩ := hr
    obtain ⟨rfl, h1'⟩ := hless.ctrl hL hC h1
    obtain ⟨t', h3'⟩ := hless.fields hL hV hlv' hf h3
    split at h5
    · rename_i n
      rw [WSt.env, hless.so] at h4
      obtain ⟨n', h4', hx⟩ := hless.here.eval hL hV hlv' (fun _ => hN) hf h4
      rw [hx.num_lit hL] at h4'
      refine ⟨⟨.intg n, t', [], kc⟩, kc, h1', u, h2, t', h3', .num (.int n), ?_, rfl⟩
      rw [WSt.env, hless.wo, hless.lv]; exact h4'
    · cases h5
  | tab1 kk fs x y name =>
    simp only [writeAct, bind_ok, pure_ok] at hr ⊢
    obtain ⟨kc, h1, u, h2, t, h3, q, h4, _⟩ := hr
    obtain ⟨rfl, h1'⟩ := hless.ctrl hL hC h1
    obtain ⟨t', h3'⟩ := hless.fields hL hV hlv' hf h3
    obtain ⟨q', h4'⟩ := hless.table hL hl' hV hlv' hf h4
    exact ⟨_, kc, h1', u, h2, t', h3', q', h4', rfl⟩
  | tab2 kk fs name =>
    simp only [writeAct, bind_ok, pure_ok] at hr ⊢
    obtain ⟨kc, h1, u, h2, t, h3, q, h4, _⟩ := hr
    obtain ⟨rfl, h1'⟩ := hless.ctrl hL hC h1
    obtain ⟨t', h3'⟩ := hless.fields hL hV hlv' hf h3
    obtain ⟨q', h4'⟩ := hless.table hL hl' hV hlv' hf h4
    exact ⟨_, kc, h1', u, h2, t', h3', q', h4', rfl⟩
  | list kk fs body name =>
    simp only [writeAct, bind_ok, pure_ok] at hr ⊢
    obtain ⟨kc, h1, u, h2, t, h3, q, h4, _⟩ := hr
    obtain ⟨rfl, h1'⟩ := hless.ctrl hL hC h1
    obtain ⟨t', h3'⟩ := hless.fields hL hV hlv' hf h3
    have h4' : inTableW name w (fun s1 => writeBody fuel s1 body ⟨[], s1.lv⟩) = .ok q := by
      cases name with
      | none =>
        simp only [inTableW] at h4 ⊢
        have := hless.body hL hV hf hN hB (l := ⟨[], s'.lv⟩) hlv' h4
        rw [hless.lv]; exact this
      | some r =>
        simp only [inTableW, bind_ok] at h4 ⊢
        obtain ⟨s1, ho, h4⟩ := h4
        obtain ⟨w1, dW, hw, he, hin⟩ := hless.enter hl' ho
        refine ⟨w1, hw, ?_⟩
        have := hin.body hL hV hf hN hB (l := ⟨[], s1.lv⟩) (by rw [he]; exact hlv') h4
        rw [hin.lv]; exact this
    exact ⟨_, kc, h1', u, h2, t', h3', q, h4', rfl⟩
  | send =>
    simp only [writeAct, bind_ok, pure_ok] at hr ⊢
    obtain ⟨kc, h1, _⟩ := hr
    exact ⟨_, k, (hless.ctrl hL hC h1).2, rfl⟩
  | stop => cases hr

/-! ## abbreviations -/

/-- the list of abbreviations is complete and without repetitions -/
structure AbL (d : DDic) : Prop where
  nd : (abbrNames d).Nodup
  all : ∀ n e, dGet (.var n) d = some (.abb e) → n ∈ abbrNames d

theorem AbL.init {d : DDic} (h : ∀ n e, dGet (.var n) d ≠ some (.abb e)) : AbL (initWork d) := by
  have e : abbrNames (initWork d) = [] := by
    unfold abbrNames initWork; rw [dGet_dSet_ne (by simp), dGet_dSet_self]
  refine ⟨by rw [e]; exact .nil, fun n x hx => ?_⟩
  unfold initWork at hx
  rw [dGet_dSet_ne (by simp), dGet_dSet_ne (by simp)] at hx
  exact absurd hx (h n x)

theorem AbL.intro {d d' : DDic} {n : Name} {e : Expr} (h : AbL d) (hi : introAbbr d n e = .ok d') : AbL d' := by
  have hg := introAbbr_get hi
  have hnm : abbrNames d' = if (abbrNames d).contains n then abbrNames d else abbrNames d ++ [n] := by
    unfold introAbbr at hi
    dsimp only at hi
    split at hi
    · cases hi
    · cases hi
      generalize (if (abbrNames d).contains n = true then abbrNames d else abbrNames d ++ [n]) = l
      unfold abbrNames
      rw [dGet_dSet_ne (by simp), dGet_dSet_self]
  have hmem : n ∈ abbrNames d' ∧ ∀ m ∈ abbrNames d, m ∈ abbrNames d' := by
    rw [hnm]
    by_cases hc : n ∈ abbrNames d
    · simp [hc]
    · simp only [List.contains_iff_mem, hc, if_false]
      exact ⟨by simp, fun m hm => by simp [hm]⟩
  constructor
  · rw [hnm]
    by_cases hc : n ∈ abbrNames d
    · simp only [List.contains_iff_mem, hc, if_true]; exact h.nd
    · simp only [List.contains_iff_mem, hc, if_false]
      rw [List.nodup_append]
      refine ⟨h.nd, by simp, ?_⟩
      rintro a ha b hb rfl
      simp only [List.mem_singleton] at hb
      subst hb; exact hc ha
  · intro m x hx
    by_cases hm : m = n
    · subst hm; exact hmem.1
    · rw [hg.2 _ (by simpa using hm) (by simp)] at hx
      exact hmem.2 _ (h.all _ _ hx)

theorem writeProg_abl {fuel : Nat} {p : Prog} {w w' : WSt} (hw : WInv w.cur) (ha : AbL w.cur) (h : writeProg fuel p w = .ok w') : AbL w'.cur := by
  induction p generalizing w w' with
  | skip => cases h; exact ha
  | seq a b iha ihb =>
    rw [writeProg, bind_ok] at h
    obtain ⟨w1, h1, h2⟩ := h
    exact ihb ((writeProg_frame h1).inv hw).1 (iha hw ha h1) h2
  | act a =>
    simp only [writeProg, bind_ok, pure_ok] at h
    obtain ⟨_, _, rfl⟩ := h
    exact ha
  | sect r body ih =>
    obtain ⟨_, _, _, _, rfl⟩ := writeSect_same hw h
    exact ha
  | loop v a b body ih =>
    simp only [writeProg, bind_ok, pure_ok] at h
    obtain ⟨⟨x, y⟩, _, w1, h2, rfl⟩ := h
    have : AbL w1.cur := by
      have := iterateW_frame (R := fun w w' : WSt => WInv w.cur → AbL w.cur → WInv w'.cur ∧ AbL w'.cur) (fun _ h1 h2 => ⟨h1, h2⟩)
        (fun g1 g2 h1 h2 => g2 (g1 h1 h2).1 (g1 h1 h2).2) (setVar := WSt.setVar v) (body := writeProg fuel body)
        (fun i s s' hb h1 h2 => ⟨((writeProg_frame hb).inv h1).1, ih (w := WSt.setVar v i s) h1 h2 hb⟩) _ h2 hw ha
      exact this.2
    split
    · exact this
    · exact this
  | ite cond l t e iht ihe =>
    simp only [writeProg, bind_ok] at h
    obtain ⟨b, _, h⟩ := h
    cases b with
    | true => exact iht hw ha (by simpa using h)
    | false => exact ihe hw ha (by simpa using h)
  | abbr n e =>
    simp only [writeProg, bind_ok, pure_ok] at h
    obtain ⟨_, h1, rfl⟩ := h
    exact ha.intro h1

theorem removeWork_run {d : DDic} (h : WInv d) (ha : AbL d) : ∃ d', removeWork d = .ok d' := by
  obtain ⟨l, hl, hp⟩ := h.abb
  refine CF.removeWork_total h.lvl.nodup ⟨l, hl⟩ ha.nd ?_
  have e : abbrNames d = l := by unfold abbrNames; rw [hl]
  rw [e]; exact hp

/-! ## recipes -/

theorem iterate_run {σ τ : Type} {setR : Int → σ → σ} {bodyR : σ → Out σ} {setW : Int → τ → τ} {bodyW : τ → Res τ}
    {V : σ → Prop} {I : σ → τ → Prop} {E : σ → Prop} {P Q : σ → Prop}
    (hE : ∀ i s s1, V s → P (setR i s) → bodyR (setR i s) = .ok s1 → (E s1 → E s) ∧ V s1)
    (hI : ∀ i s w s1, V s → I s w → P (setR i s) → Q (setR i s) → E s1 → bodyR (setR i s) = .ok s1 →
      ∃ w1, bodyW (setW i w) = .ok w1 ∧ I s1 w1)
    (is : List Int) {s s' : σ} {w : τ} (hV : V s) (h : I s w) (hP : AllIter setR bodyR P is s) (hQ : AllIter setR bodyR Q is s) (he : E s')
    (hr : iterate setR bodyR is s = .ok s') : ∃ w', iterateW setW bodyW is w = .ok w' := by
  induction is generalizing s w with
  | nil => exact ⟨w, rfl⟩
  | cons i is ih =>
    rw [iterate, Out.andThen_ok] at hr
    obtain ⟨s1, h1, h2⟩ := hr
    have g := (hE i s s1 hV hP.1 h1).2
    have e1 : E s1 := (iterate_all (R := fun s s' => E s' → E s) (I := V) (fun _ h => h) (fun h1 h2 h => h1 (h2 h))
      hE is g (hP.2 _ h1) h2).1 he
    obtain ⟨w1, hw1, hI1⟩ := hI i s w s1 hV h hP.1 hQ.1 e1 h1
    obtain ⟨w', hw'⟩ := ih g hI1 (hP.2 _ h1) (hQ.2 _ h1) h2
    exact ⟨w', by rw [iterateW, bind_ok]; exact ⟨w1, hw1, hw'⟩⟩

theorem At.opens {A N : List Name} {Q : ARec → ARec → Prop} {top D : DDic} {s s1 s2 s3 : RSt} {w : WSt} {L : List Level}
    {r : VarRef} (h : At A N Q top s w D L) (h1 : openR s r = .ok s1) (hu : s2.ups = s1.ups) (h3 : closeR s2 = .ok s3)
    (hH : Hold s3.cur D) : ∃ w1, openW w r = .ok w1 := by
  obtain ⟨is, d, hi, hd, rfl⟩ := openR_ok h1
  obtain ⟨new, hnew, rfl⟩ := closeR_ok hu h3
  have hna := setArr_not_abb (by simp) hnew
  obtain ⟨v', hv', hext⟩ := hH r.name new (dGet_dSet_self _ _ _) hna
  obtain ⟨y, hy, hye⟩ := hext.getArr (getArr_setArr_same hnew)
  obtain ⟨dW, rfl⟩ := hye.dic_inv
  obtain ⟨hwv, _⟩ := h.lev.sub _ _ hv'
  refine ⟨{ w with cur := dSet .up .mark dW, ups := (w.cur, r.name, is) :: w.ups }, ?_⟩
  unfold openW
  rw [dHas_some.2 ⟨_, hwv⟩, h.lv, hi, hwv]
  simp only [Bool.not_true, Bool.false_eq_true, if_false, bind, Except.bind, getArr_subDicW hy, pure, Except.pure, h.lv]

theorem run (hL : Lit.on = true) {A N V : List Name} {k : Ctrl} {top : DDic} {c : RCtx} {fuel : Nat} (hT : Top A N top)
    (hC : CtrlAll k top) (hV : Unused V top) (hf : c.fuel ≤ fuel)
    {p : Prog} (hwf : WF p) (hN : ∀ n ∈ looked p, n ∈ N) (hA : ∀ n ∈ abbrs p, n ∈ A) (hB : ∀ n ∈ loopVars p, n ∈ V)
    {s s' : RSt} {w : WSt} {D : DDic}
    {L : List Level} (hw : WInv s.cur) (hww : WInv w.cur) (hab : AbL w.cur) (hi : s.ignoreAll = false) (hk : s.look = none)
    (hlv : ∀ n, dHas n s.lv = true → n ∈ V)
    (ht : Tidy c p s) (hwh : Whole c p s) (h : readProg c p s = .ok s') (hat : At A N (fun _ _ => True) top s w D L)
    (hH : Hold s'.cur D) : ∃ w', writeProg fuel p w = .ok w' := by
  induction p generalizing s s' w D L with
  | skip => exact ⟨w, rfl⟩
  | seq a b iha ihb =>
    rw [readProg, Out.andThen_ok] at h
    obtain ⟨s1, h1, h2⟩ := h
    have hfr := readProg_frame h1
    have g1 := readProg_grow hw hi hk ht.1 h1
    have g2 := readProg_grow g1.2 (hfr.ign.trans hi) (hfr.look hk) (ht.2 _ h1) h2
    have hNa : ∀ n ∈ looked a, n ∈ N := fun n hn => hN n (List.mem_append_left _ hn)
    have hAa : ∀ n ∈ abbrs a, n ∈ A := fun n hn => hA n (List.mem_append_left _ hn)
    obtain ⟨w1, hw1⟩ := iha hwf.1 hNa hAa (fun n hn => hB n (List.mem_append_left _ hn))
      hw hww hab hi hk hlv ht.1 hwh.1 h1 hat (hH.before g2.1)
    have hat1 := sim pairs_any hT hwf.1 hNa hAa hw hww hi hk ht.1 h1 hw1 hat (hH.before g2.1)
    obtain ⟨w2, hw2⟩ := ihb hwf.2 (fun n hn => hN n (List.mem_append_right _ hn)) (fun n hn => hA n (List.mem_append_right _ hn))
      (fun n hn => hB n (List.mem_append_right _ hn))
      g1.2 ((writeProg_frame hw1).inv hww).1 (writeProg_abl hww hab hw1) (hfr.ign.trans hi) (hfr.look hk)
      (by rw [hfr.lv]; exact hlv) (ht.2 _ h1) (hwh.2 _ h1) h2 hat1 hH
    exact ⟨w2, by rw [writeProg, bind_ok]; exact ⟨w1, hw1, hw2⟩⟩
  | act a =>
    rw [readProg, proceed_none hk] at h
    obtain ⟨r, hr⟩ := act_run hL hT hC hV hN hB hw.lvl hi hk ht hwh h hat hH hlv hf
    exact ⟨_, by simp only [writeProg, bind_ok, pure_ok]; exact ⟨r, hr, rfl⟩⟩
  | sect r body ih =>
    have hfr := readProg_frame h
    have hstop : s.stopped = false := by simp [RSt.stopped, hk]
    rw [readProg, hstop] at h
    simp only [Bool.false_eq_true, if_false, Out.lift_ok, Out.andThen_ok] at h
    obtain ⟨s1, h1, s2, h2, cur, h3, s3, h4, h5⟩ := h
    cases h5
    have hfr2 := readProg_frame h2
    have h1' := h1
    obtain ⟨is, d, hidx, hd, rfl⟩ := openR_ok h1'
    obtain ⟨w1, hw1⟩ := hat.opens h1 (s2 := { s2 with cur := cur }) hfr2.ups h4 hH
    have hc : Clean (.dic d) := subDic_clean (fun d' hd' => hw.lvl.dic_clean hd') hd
    have hl1 : Lvl false (dSet .up .mark d) := (Lvl.of_clean hc).set_up _
    have ht1 := ht _ h1
    obtain ⟨g1, g2⟩ := readProg_grow (s := { s with cur := initWork (dSet .up .mark d), ups := (s.cur, r.name, is) :: s.ups }) (clean_work hl1).1 hi hk ht1 h2
    have hst := sect_step hw.lvl h1 hfr2 g1 g2 h3 h4
    obtain ⟨dW, e1, e2, e3, e4, hat1⟩ := hat.enter hT hw.lvl h1 (s2 := { s2 with cur := cur }) hfr2.ups
      (removeWork_lvl g2.lvl h3).1.nodup h4 hst hH hw1
    have hHi : Hold s2.cur dW := by
      intro n v hv ha
      exact e3 n v (removeWork_get g2 h3 rfl ha hv) ha
    have hlW : Lvl false w1.cur := by rw [e1]; exact (Lvl.of_clean e2).set_up _
    have habW : AbL (initWork w1.cur) := by
      refine AbL.init fun n e => ?_
      rw [e1, dGet_dSet_ne (by simp)]
      exact fun hx => clean_get_not_abb e2 hx e rfl
    have hatI : At A N (fun _ _ => True) top { s with cur := initWork (dSet .up .mark d), ups := (s.cur, r.name, is) :: s.ups }
        { w1 with cur := initWork w1.cur } dW (⟨s.cur, w.cur, D⟩ :: L) :=
      ⟨hat1.out, hat1.lev.init, hat1.so, hat1.wo, hat1.lv, hat1.recs⟩
    obtain ⟨w2, hw2⟩ := ih hwf hN hA hB (s := { s with cur := initWork (dSet .up .mark d), ups := (s.cur, r.name, is) :: s.ups })
      (w := { w1 with cur := initWork w1.cur }) (clean_work hl1).1 (clean_work hlW).1 habW hi hk hlv ht1 (hwh _ h1) h2
      hatI hHi
    have hfw := writeProg_frame hw2
    obtain ⟨v1, v2⟩ := hfw.inv (clean_work hlW).1
    obtain ⟨curw, h3w⟩ := removeWork_run v1 (writeProg_abl (clean_work hlW).1 habW hw2)
    have hcur := removeWork_core v1 h3w
    obtain ⟨isw, dd, hiw, hdw, rfl⟩ := openW_ok hw1
    have hud : dSet Key.up Val.mark dd = dSet Key.up Val.mark dW := e1
    rw [v2, (clean_work hlW).2] at hcur
    have hcd : Clean (.dic dd) := subDicW_clean (fun d' hd' => hww.lvl.dic_clean hd') hdw
    have hdel : dDel Key.up curw = dd := by
      rw [hcur]
      apply dDel_dSet
      cases hcd with
      | dic _ c1 c2 c3 =>
        unfold dHas
        cases hg : dGet Key.up dd with
        | none => rfl
        | some v => exact absurd (.inl rfl) (c2 _ _ hg)
    obtain ⟨v, hv, hset⟩ := setArr_subDicW hdw
    refine ⟨{ w2 with cur := dSet (.var r.name) v w.cur, ups := w.ups }, ?_⟩
    simp only [writeProg, bind_ok]
    refine ⟨_, hw1, w2, hw2, curw, h3w, ?_⟩
    have hu := hfw.ups
    unfold closeW
    simp only [hu, bind_ok, pure_ok]
    exact ⟨v, by rw [hdel]; exact hset, rfl⟩
  | loop v e1 e2 body ih =>
    have hstop : s.stopped = false := by simp [RSt.stopped, hk]
    rw [readProg, hstop] at h
    simp only [Bool.false_eq_true, if_false, Out.lift_ok, Out.andThen_ok] at h
    obtain ⟨⟨x, y⟩, h1, s1, h2, h3⟩ := h
    have hH1 : Hold s1.cur D := by
      cases h3
      split at hH
      · exact hH
      · exact hH
    have hvV : v ∈ V := hB v (by simp [loopVars])
    have hVV : ∀ i (s s1 : RSt), (WInv s.cur ∧ s.ignoreAll = false ∧ s.look = none ∧ ∀ n, dHas n s.lv = true → n ∈ V) → Tidy c body (RSt.setVar v i s) →
        readProg c body (RSt.setVar v i s) = .ok s1 →
        Grow s.cur s1.cur ∧ (WInv s1.cur ∧ s1.ignoreAll = false ∧ s1.look = none ∧ ∀ n, dHas n s1.lv = true → n ∈ V) := by
      intro i s s1 hI hP hb
      obtain ⟨g1, g2⟩ := readProg_grow (s := RSt.setVar v i s) hI.1 hI.2.1 hI.2.2.1 hP hb
      have hfr := readProg_frame hb
      refine ⟨g1, g2, hfr.ign.trans hI.2.1, hfr.look hI.2.2.1, fun n hn => ?_⟩
      rw [hfr.lv] at hn
      rcases dHas_dSet_lv hn with rfl | hn
      · exact hvV
      · exact hI.2.2.2 n hn
    have hg := iterate_all (R := fun s s' : RSt => Grow s.cur s'.cur)
      (I := fun s => WInv s.cur ∧ s.ignoreAll = false ∧ s.look = none ∧ ∀ n, dHas n s.lv = true → n ∈ V)
      (fun s => Grow.refl _) (fun h1 h2 => h1.trans h2) hVV _ ⟨hw, hi, hk, hlv⟩ (ht x y h1) h2
    have hh : Here A N top s.cur w.cur D L := hat.here hT (hH1.before hg.1)
    have h1' : loopHead c.fuel ⟨s.cur, L.map Level.d, s.lv⟩ v e1 e2 = .ok (x, y) := by
      rw [← hat.so]; exact h1
    have hw1 : loopHead fuel w.env v e1 e2 = .ok (x, y) := by
      rw [WSt.env, hat.wo, hat.lv]
      exact hh.loop hL hV hlv (fun n hn => hN n (by simp [looked, hn])) (fun n hn => hN n (by simp [looked, hn])) hf h1'
    have hNb : ∀ n ∈ looked body, n ∈ N := fun n hn => hN n (by simp [looked, hn])
    obtain ⟨w1, hw2⟩ := iterate_run (V := fun s : RSt => WInv s.cur ∧ s.ignoreAll = false ∧ s.look = none ∧ ∀ n, dHas n s.lv = true → n ∈ V)
      (I := fun s w => At A N (fun _ _ => True) top s w D L ∧ WInv w.cur ∧ AbL w.cur) (E := fun s => Hold s.cur D) (P := Tidy c body) (Q := Whole c body)
      (setW := WSt.setVar v) (bodyW := writeProg fuel body)
      (fun i s s1 hVs hP hb => ⟨fun he => he.before (hVV i s s1 hVs hP hb).1, (hVV i s s1 hVs hP hb).2⟩)
      (fun i s w s1 hVs hIs hP hQ hEs hb => by
        have hat1 : At A N (fun _ _ => True) top (RSt.setVar v i s) (WSt.setVar v i w) D L :=
          ⟨hIs.1.out, hIs.1.lev, hIs.1.so, hIs.1.wo, by simp only [RSt.setVar, WSt.setVar, hIs.1.lv], hIs.1.recs⟩
        have hlv1 : ∀ n, dHas n (RSt.setVar v i s).lv = true → n ∈ V := by
          intro n hn
          rcases dHas_dSet_lv hn with rfl | hn
          · exact hvV
          · exact hVs.2.2.2 n hn
        obtain ⟨w1, hw1⟩ := ih hwf hNb hA (fun n hn => hB n (by simp [loopVars, hn])) (s := RSt.setVar v i s) (w := WSt.setVar v i w)
          hVs.1 hIs.2.1 hIs.2.2 hVs.2.1 hVs.2.2.1 hlv1 hP hQ hb hat1 hEs
        exact ⟨w1, hw1, sim (p := body) pairs_any hT hwf hNb hA (s := RSt.setVar v i s) (w := WSt.setVar v i w) hVs.1 hIs.2.1 hVs.2.1 hVs.2.2.1 hP hb hw1 hat1 hEs,
          ((writeProg_frame hw1).inv hIs.2.1).1, writeProg_abl (w := WSt.setVar v i w) hIs.2.1 hIs.2.2 hw1⟩)
      _ ⟨hw, hi, hk, hlv⟩ ⟨hat, hww, hab⟩ (ht x y h1) (hwh x y h1) hH1 h2
    exact ⟨_, by simp only [writeProg, bind_ok, pure_ok]; exact ⟨(x, y), hw1, w1, hw2, rfl⟩⟩
  | ite cond look thn els iht ihe =>
    have hstop : s.stopped = false := by simp [RSt.stopped, hk]
    have hfr := readProg_frame h
    have hNc : ∀ n ∈ condNames cond, n ∈ N := fun n hn => hN n (by simp [looked, hn])
    have hNt : ∀ n ∈ looked thn, n ∈ N := fun n hn => hN n (by simp [looked, hn])
    have hNe : ∀ n ∈ looked els, n ∈ N := fun n hn => hN n (by simp [looked, hn])
    have hAt : ∀ n ∈ abbrs thn, n ∈ A := fun n hn => hA n (by simp [abbrs, hn])
    have hAe : ∀ n ∈ abbrs els, n ∈ A := fun n hn => hA n (by simp [abbrs, hn])
    have hBt : ∀ n ∈ loopVars thn, n ∈ V := fun n hn => hB n (by simp [loopVars, hn])
    have hBe : ∀ n ∈ loopVars els, n ∈ V := fun n hn => hB n (by simp [loopVars, hn])
    have hgrow := readProg_grow hw hi hk ht h
    have fin : ∀ t, evalCond fuel ⟨w.cur, L.map Level.w, s.lv⟩ cond = .ok t →
        (t = true → ∃ w', writeProg fuel thn w = .ok w') → (t = false → ∃ w', writeProg fuel els w = .ok w') →
        ∃ w', writeProg fuel (.ite cond look thn els) w = .ok w' := by
      intro t hc h1 h2
      have hc' : evalCond fuel w.env cond = .ok t := by rw [WSt.env, hat.wo, hat.lv]; exact hc
      cases t with
      | true =>
        obtain ⟨w', hw'⟩ := h1 rfl
        exact ⟨w', by simp only [writeProg, bind_ok]; exact ⟨true, hc', by simpa using hw'⟩⟩
      | false =>
        obtain ⟨w', hw'⟩ := h2 rfl
        exact ⟨w', by simp only [writeProg, bind_ok]; exact ⟨false, hc', by simpa using hw'⟩⟩
    cases look with
    | none =>
      rw [readProg, hstop] at h
      simp only [Bool.false_eq_true, if_false, Out.lift_ok] at h
      obtain ⟨t, h1, h2⟩ := h
      have hh : Here A N top s.cur w.cur D L := hat.here hT (hH.before hgrow.1)
      have e1 : evalCond c.fuel ⟨s.cur, L.map Level.d, s.lv⟩ cond = .ok t := by rw [← hat.so]; exact h1
      have e2 : Decided c.fuel ⟨s.cur, L.map Level.d, s.lv⟩ cond := by rw [← hat.so]; exact ht.1
      refine fin t (hh.decide hL hV hlv hNc hf e2 e1) ?_ ?_
      · rintro rfl
        exact iht hwf.1 hNt hAt hBt hw hww hab hi hk hlv (ht.2.1 h1) (hwh.1 h1) (by simpa using h2) hat hH
      · rintro rfl
        exact ihe hwf.2 hNe hAe hBe hw hww hab hi hk hlv (ht.2.2 h1) (hwh.2 h1) (by simpa using h2) hat hH
    | some n =>
      obtain ⟨hd, hab', hbr⟩ := ht s' h
      have hlev : Lev A N s'.cur w.cur D :=
        ⟨fun n e => (hab' n e).symm.trans (hat.lev.sync n e), hat.lev.split, hat.lev.sub, hat.lev.good,
          (hfr.lvl hw.lvl).2.trans hat.lev.up⟩
      have hh : Here A N top s'.cur w.cur D L := ⟨hT, hat.out, hlev, hH⟩
      have hso : s'.outer = L.map Level.d := by rw [RSt.outer, hfr.ups]; exact hat.so
      have e2 : Decided c.fuel ⟨s'.cur, L.map Level.d, s.lv⟩ cond := by rw [← hso, ← hfr.lv]; exact hd
      have e1 : ∀ t, evalCond c.fuel s'.env cond = .ok t →
          evalCond c.fuel ⟨s'.cur, L.map Level.d, s.lv⟩ cond = .ok t := by
        intro t ht; rw [← hso, ← hfr.lv]; exact ht
      obtain ⟨q1, q2⟩ := hwh s' h
      rcases hbr with ⟨b1, b2, b3⟩ | ⟨b1, b2, b3⟩
      · exact fin true (hh.decide hL hV hlv hNc hf e2 (e1 _ b1))
          (fun _ => iht hwf.1 hNt hAt hBt hw hww hab hi hk hlv b3 (q1 b1) b2 hat hH) (fun h => by cases h)
      · exact fin false (hh.decide hL hV hlv hNc hf e2 (e1 _ b1)) (fun h => by cases h)
          (fun _ => ihe hwf.2 hNe hAe hBe hw hww hab hi hk hlv b3 (q2 b1) b2 hat hH)
  | abbr n e =>
    obtain ⟨ch, hch, _⟩ := hat.out.nest
    have hnA : n ∈ A := hA n (by simp [abbrs])
    have hD : dHas (.var n) D = false := hT.unu ch D hch n hnA
    have : ∃ cur, introAbbr w.cur n e = .ok cur := by
      unfold introAbbr
      dsimp only
      rw [if_neg]
      · exact ⟨_, rfl⟩
      · intro hx
        rw [Bool.and_eq_true] at hx
        obtain ⟨x1, x2⟩ := hx
        obtain ⟨v, hv⟩ := dHas_some.1 x2
        rcases hat.lev.split _ _ hv with ⟨e', rfl⟩ | hD'
        · have := hab.all _ _ hv
          simp [this] at x1
        · rw [dHas_some.2 ⟨_, hD'⟩] at hD; cases hD
    obtain ⟨cur, hc⟩ := this
    exact ⟨_, by simp only [writeProg, bind_ok, pure_ok]; exact ⟨cur, hc, rfl⟩⟩

end Verif
