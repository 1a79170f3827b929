import Verif.Lemmas.SimProg
/-
Reading what has been written: wherever reading stored a value it stores the same value again, whatever deviations were
tolerated the first time.
-/
namespace Verif
open Spec

variable [Lit]

/-- two numbers or two lists of numbers in which equal numbers have the same type -/
def AlikeVal : Val → Val → Prop
  | .num x, .num y => x.val = y.val → x = y
  | .lst l, .lst m => ∀ x ∈ l, ∀ y ∈ m, x.val = y.val → x = y
  | _, _ => False

theorem AlikeVal.eq {u v : Val} (h : AlikeVal u v) (hs : SameVal u v) : v = u := by
  cases u with
  | num x =>
    cases v with
    | num y => rw [h hs]
    | _ => cases h
  | lst l =>
    cases v with
    | lst m =>
      have h' : ∀ x ∈ l, ∀ y ∈ m, x.val = y.val → x = y := h
      have hs' : l.map PyNum.val = m.map PyNum.val := hs
      clear h hs
      congr 1
      induction l generalizing m with
      | nil => simpa using hs'.symm
      | cons a l ih =>
        cases m with
        | nil => cases hs'
        | cons b m =>
          simp only [List.map_cons, List.cons.injEq] at hs'
          rw [h' a (by simp) b (by simp) hs'.1, ih m (fun x hx y hy => h' x (by simp [hx]) y (by simp [hy])) hs'.2]
    | _ => cases h
  | _ => cases v <;> cases h

theorem AlikeVal.refl_same {u v : Val} (h : AlikeVal u v) : SameVal u u := by
  cases u <;> cases v <;> first | exact rfl | cases h

theorem isClose_self (x : ℚ) : isClose x x = true := by
  unfold isClose
  rw [decide_eq_true_eq, sub_self, abs_zero]
  positivity

theorem checkField_same {po : POpts} {e : Expr} {src exp u : Val} (h : SameVal src exp) (ha : AlikeVal u src) :
    checkField po e src exp = .ok () := by
  have hl : src.len? = exp.len? := by
    cases src <;> cases exp <;> simp only [SameVal] at h <;> simp only [Val.len?]
    · rw [h]
    · have := congrArg List.length h
      simpa using this
  have hc : src.notClose exp = .ok false := by
    cases src with
    | num x =>
      cases exp <;> simp only [SameVal] at h
      rename_i y
      simp only [Val.notClose, h, isClose_self]
      rfl
    | lst l =>
      cases exp <;> simp only [SameVal] at h
      rename_i m
      have : ((l.zip m).all fun p => isClose p.1.val p.2.val) = true := by
        clear ha hl
        induction l generalizing m with
        | nil => simp
        | cons a l ih =>
          cases m with
          | nil => cases h
          | cons b m =>
            simp only [List.map_cons, List.cons.injEq] at h
            simp only [List.zip_cons_cons, List.all_cons, h.1, isClose_self, ih m h.2, Bool.and_self]
      simp only [Val.notClose, this]
      rfl
    | _ => cases u <;> cases ha
  have hn : src.ne exp = false := by
    cases src <;> cases exp <;> simp only [SameVal] at h <;> simp [Val.ne, h]
  unfold checkField
  rw [if_neg (by rw [hl]; simp)]
  rw [hc, hn]
  cases po.fuzzy <;> rfl

theorem forall₂_left {α β : Type} {R : α → β → Prop} {l : List α} {m : List β} (h : List.Forall₂ R l m) {a : α} (ha : a ∈ l) :
    ∃ b ∈ m, R a b := by
  induction h with
  | nil => cases ha
  | cons h1 _ ih =>
    rcases List.mem_cons.1 ha with rfl | ha
    · exact ⟨_, by simp, h1⟩
    · obtain ⟨b, hb, hr⟩ := ih ha
      exact ⟨b, by simp [hb], hr⟩

/-- a field, and the field with the number written for it -/
def Rewritten (fuel : Nat) (env : Env) (p p2 : Expr × Val) : Prop :=
  p2.1 = p.1 ∧ AlikeVal p.2 p2.2 ∧ ∃ v, evalKnown fuel env false false p.1 = .ok v ∧ SameVal v p2.2

theorem mapOnce_replay {fuel fuel' : Nat} {po : POpts} {ups ups' : List DDic} {lv : Dict Name Int} {w : DDic}
    {fs fs2 : List (Expr × Val)} (hr : List.Forall₂ (Rewritten fuel' ⟨w, ups', lv⟩) fs fs2) {cur cur' : DDic} {f f' : Bool}
    (hc : Cover cur' w) (h : mapOnce fuel po ups lv fs cur f = .ok (cur', f')) :
    mapOnce fuel po ups lv fs2 cur f = .ok (cur', f') := by
  induction hr generalizing cur f with
  | nil => exact h
  | @cons p p2 fs fs2 hp hr ih =>
    obtain ⟨e, src⟩ := p
    obtain ⟨e2, src2⟩ := p2
    obtain ⟨he, ha, v', hw, hs⟩ := hp
    dsimp only at he ha hw hs
    subst he
    have hfs : ∀ p ∈ fs, SameVal p.2 p.2 := by
      intro p hp
      obtain ⟨p2, _, hpp⟩ := forall₂_left hr hp
      exact hpp.2.1.refl_same
    simp only [mapOnce] at h ⊢
    split at h
    · rename_i hv
      exact ih h
    · cases h
    · rename_i v hv
      split at h
      · rename_i hx
        split at h
        · cases h
        · rename_i hk
          split at h
          · cases h
          · have hst := mapOnce_step hfs h
            have hsame : SameVal src2 v.c := by
              obtain ⟨ρ, l', rfl, hρ, hag⟩ := field_again (hc.before hst) hv hw
              cases hag with
              | num c c' h1 h2 h3 h4 h5 =>
                rw [h1]
                rw [h2] at hs
                cases src2 <;> simp only [SameVal] at hs ⊢
                rw [← hs, h3]
                simp [Lin.at, hx]
              | data h1 h2 h3 => exact (h3.trans hs).symm
              | unknown r u h1 => rw [h1] at hx; cases hx
              | other h1 h2 h3 h4 => exact absurd hs (h4 _)
            rw [if_neg hk, checkField_same hsame ha]
            exact ih h
      · rename_i r hx
        split at h
        · cases h
        · rename_i val hval
          split at h
          · cases h
          · rename_i cur1 hset
            have hst := mapOnce_step hfs h
            have hsame := (field_found ha.refl_same hv hx hval hset).2 (hc.before hst) hw
            have := ha.eq (hsame.trans hs)
            subst this
            rw [hval]
            dsimp only
            rw [hset]
            exact ih h

theorem mapTries_replay {fuel fuel' : Nat} {po : POpts} {ups ups' : List DDic} {lv : Dict Name Int} {w : DDic}
    {fs fs2 : List (Expr × Val)} (hr : List.Forall₂ (Rewritten fuel' ⟨w, ups', lv⟩) fs fs2) (hfs : ∀ p ∈ fs, SameVal p.2 p.2)
    (n : Nat) {cur cur' : DDic} (hc : Cover cur' w) (h : mapTries fuel po ups lv fs n cur = .ok cur') :
    mapTries fuel po ups lv fs2 n cur = .ok cur' := by
  induction n generalizing cur with
  | zero => simp [mapTries] at h
  | succ n ih =>
    simp only [mapTries] at h ⊢
    split at h
    · cases h
    · rename_i cur1 h1
      cases h
      rw [mapOnce_replay hr hc h1]
    · rename_i cur1 h1
      rw [mapOnce_replay hr (hc.before (mapTries_step hfs n h)) h1]
      exact ih h

theorem mapRead_replay {fuel fuel' : Nat} {po : POpts} {ups ups' : List DDic} {lv : Dict Name Int} {w : DDic} {es : List Expr}
    {vals vals2 out : List Val} (ha : List.Forall₂ AlikeVal vals vals2) (hw : mapWrite fuel' ⟨w, ups', lv⟩ es = .ok out)
    (ho : List.Forall₂ SameVal out vals2) {cur cur' : DDic} (hc : Cover cur' w)
    (h : mapRead fuel po ups lv es vals cur = .ok cur') : mapRead fuel po ups lv es vals2 cur = .ok cur' := by
  have hw' := mapM_forall₂ hw
  have hr : List.Forall₂ (Rewritten fuel' ⟨w, ups', lv⟩) (es.zip vals) (es.zip vals2) := by
    clear h hw
    induction hw' generalizing vals vals2 with
    | nil => exact .nil
    | cons h1 h2 ih =>
      cases ho with
      | cons o1 o2 =>
        cases ha with
        | cons a1 a2 => exact .cons ⟨rfl, a1, _, h1, o1⟩ (ih a2 o2)
  refine mapTries_replay hr (fun p hp => ?_) 3 hc h
  obtain ⟨_, _, h2⟩ := forall₂_left ha (List.of_mem_zip hp).2
  exact h2.refl_same

/-! ## tables and lists -/

theorem mapFields_replay {A N : List Name} {Q : ARec → ARec → Prop} {top D : DDic} {s s' : RSt} {w : WSt} {L : List Level} {a : Bool}
    {c : RCtx} {fuel : Nat} {es : List Expr} {vals vals2 out : List Val} (h : At A N Q top s w D L) (hl : Lvl a s.cur)
    (hcl : ∀ v ∈ vals, Clean v) (ha : List.Forall₂ AlikeVal vals vals2) (hr : mapFields c es vals s = .ok s') (hH : Hold s'.cur D)
    (hw : mapWrite fuel w.env es = .ok out) (ho : List.Forall₂ SameVal out vals2) : mapFields c es vals2 s = .ok s' := by
  obtain ⟨cur, hm, rfl⟩ := mapFields_ok hr
  have hle : ∀ v ∈ vals, SameVal v v := fun v hv => by
    obtain ⟨_, _, h2⟩ := forall₂_left ha hv
    exact h2.refl_same
  have g1 := mapRead_step hle hm
  have hat : At A N Q top { s with cur := cur } w D L := h.move g1.abb ((mapRead_lvl hcl hl hm).2) rfl rfl rfl
  have hw' : mapWrite fuel ⟨w.cur, w.outer, s.lv⟩ es = .ok out := by rw [← h.lv]; exact hw
  have := mapRead_replay ha hw' ho (hat.cover hH) hm
  unfold mapFields
  rw [this]
  rfl

theorem inTable_replay {A N : List Name} {Q : ARec → ARec → Prop} {top D : DDic} {s s' : RSt} {w : WSt} {L : List Level} {a : Bool}
    {c : RCtx} {fuel : Nat} {name : Option VarRef} {es : List Expr} {cols cols2 out : List Val}
    (hT : Top A N top) (h : At A N Q top s w D L) (hl : Lvl a s.cur)
    (hcl : ∀ v ∈ cols, Clean v) (ha : List.Forall₂ AlikeVal cols cols2)
    (hr : inTable name s (mapFields c es cols) = .ok s') (hH : Hold s'.cur D)
    (hw : inTableW name w (fun s1 => mapWrite fuel s1.env es) = .ok out) (ho : List.Forall₂ SameVal out cols2) :
    inTable name s (mapFields c es cols2) = .ok s' := by
  cases name with
  | none => exact mapFields_replay h hl hcl ha hr hH hw ho
  | some r =>
    simp only [inTable, Out.lift_ok, Out.andThen_ok] at hr ⊢
    obtain ⟨s1, h1, s2, h2, s3, h3, h4⟩ := hr
    cases h4
    simp only [inTableW, bind_ok] at hw
    obtain ⟨w1, hw1, hw⟩ := hw
    have h1' := h1
    obtain ⟨is, d, hi', hd, rfl⟩ := openR_ok h1'
    have hc : Clean (.dic d) := subDic_clean (fun d' hd' => hl.dic_clean hd') hd
    have hl1 : Lvl false (dSet .up .mark d) := (Lvl.of_clean hc).set_up _
    have hf := mapFields_frame (a := false) hcl h2
    have hle : ∀ v ∈ cols, SameVal v v := fun v hv => by
      obtain ⟨_, _, h2⟩ := forall₂_left ha hv
      exact h2.refl_same
    have h2' := h2
    obtain ⟨cur, hm, rfl⟩ := mapFields_ok h2'
    have g1 := mapRead_step hle hm
    have hst := openClose_step hl h1 hf g1 h3
    obtain ⟨dW, e1, e2, e3, e4, hat⟩ := h.enter hT hl h1 (hf.ups) (hf.lvl hl1).1.nodup h3 hst hH hw1
    exact ⟨_, h1, _, mapFields_replay hat hl1 hcl ha h2 e3 hw ho, s', h3, rfl⟩

theorem iterate_replay {σ τ : Type} {setR : Int → σ → σ} {bodyR bodyR2 : σ → Out σ} {setW : Int → τ → τ} {bodyW : τ → Res τ}
    {V : σ → Prop} {I : σ → τ → Prop} {E : σ → Prop} {F : τ → Prop}
    (hE : ∀ i s s1, V s → bodyR (setR i s) = .ok s1 → (E s1 → E s) ∧ V s1)
    (hF : ∀ i w w1, bodyW (setW i w) = .ok w1 → F w1 → F w)
    (hI : ∀ i s w s1 w1, V s → I s w → E s1 → F w1 → bodyR (setR i s) = .ok s1 → bodyW (setW i w) = .ok w1 →
      bodyR2 (setR i s) = .ok s1 ∧ I s1 w1)
    (is : List Int) {s s' : σ} {w w' : τ} (hV : V s) (h : I s w) (he : E s') (hf : F w')
    (hr : iterate setR bodyR is s = .ok s') (hw : iterateW setW bodyW is w = .ok w') :
    iterate setR bodyR2 is s = .ok s' ∧ I s' w' := by
  have back : ∀ is (s s' : σ), V s → iterate setR bodyR is s = .ok s' → E s' → E s := by
    intro is
    induction is with
    | nil => intro s s' _ hr he; cases hr; exact he
    | cons i is ih =>
      intro s s' hV hr he
      rw [iterate, Out.andThen_ok] at hr
      obtain ⟨s1, h1, h2⟩ := hr
      obtain ⟨g1, g2⟩ := hE i s s1 hV h1
      exact g1 (ih _ _ g2 h2 he)
  have backW : ∀ is (w w' : τ), iterateW setW bodyW is w = .ok w' → F w' → F w := by
    intro is
    induction is with
    | nil => intro s s' hr he; cases hr; exact he
    | cons i is ih =>
      intro w w' hr he
      rw [iterateW, bind_ok] at hr
      obtain ⟨w1, h1, h2⟩ := hr
      exact hF i w w1 h1 (ih _ _ h2 he)
  induction is generalizing s w with
  | nil => cases hr; cases hw; exact ⟨rfl, h⟩
  | cons i is ih =>
    rw [iterate, Out.andThen_ok] at hr
    rw [iterateW, bind_ok] at hw
    obtain ⟨s1, h1, h2⟩ := hr
    obtain ⟨w1, h3, h4⟩ := hw
    have hV1 := (hE i s s1 hV h1).2
    obtain ⟨g1, g2⟩ := hI i s w s1 w1 hV h (back _ _ _ hV1 h2 he) (backW _ _ _ h4 hf) h1 h3
    obtain ⟨g3, g4⟩ := ih hV1 g2 h2 h4
    rw [iterate, Out.andThen_ok]
    exact ⟨⟨s1, g1, g3⟩, g4⟩

theorem writeBody_append {fuel : Nat} {s : WSt} {b : LBody} {l l' : WLSt} (h : writeBody fuel s b l = .ok l') :
    ∃ t, l'.vals = l.vals ++ t := by
  induction b generalizing l l' with
  | nil => cases h; exact ⟨[], by simp⟩
  | seq a b iha ihb =>
    rw [writeBody, bind_ok] at h
    obtain ⟨l1, h1, h2⟩ := h
    obtain ⟨t1, e1⟩ := iha h1
    obtain ⟨t2, e2⟩ := ihb h2
    exact ⟨t1 ++ t2, by rw [e2, e1, List.append_assoc]⟩
  | expr e =>
    simp only [writeBody, bind_ok, pure_ok] at h
    obtain ⟨v, _, x, _, rfl⟩ := h
    exact ⟨[x], rfl⟩
  | pad =>
    simp only [writeBody, Except.ok.injEq] at h
    subst h
    exact ⟨_, rfl⟩
  | loop v a b body ih =>
    simp only [writeBody, bind_ok, pure_ok] at h
    obtain ⟨⟨x, y⟩, _, l1, h1, h2⟩ := h
    have key : ∀ is (l l1 : WLSt), iterateW (WLSt.setVar v) (writeBody fuel s body) is l = .ok l1 → ∃ t, l1.vals = l.vals ++ t := by
      intro is
      induction is with
      | nil => intro l l1 h; cases h; exact ⟨[], by simp⟩
      | cons i is ih2 =>
        intro l l1 h
        rw [iterateW, bind_ok] at h
        obtain ⟨l2, h3, h4⟩ := h
        obtain ⟨t1, e1⟩ := ih h3
        obtain ⟨t2, e2⟩ := ih2 _ _ h4
        exact ⟨t1 ++ t2, by rw [e2, e1, List.append_assoc]; rfl⟩
    obtain ⟨t, e⟩ := key _ _ _ h1
    refine ⟨t, ?_⟩
    rw [← h2]
    dsimp only
    split
    · exact e
    · exact e

/-- a list body read and written up to the same position -/
structure LSide (A N : List Name) (l : LSt) (w : WSt) (wl : WLSt) (D : DDic) (L : List Level) : Prop where
  lev : Lev A N l.st.cur w.cur D
  so : l.st.outer = L.map Level.d
  lv : wl.lv = l.st.lv
  pos : l.pos = wl.vals.length

/-- the values written so far stand at the beginning of the list -/
def Begins (m : List PyNum) (wl : WLSt) : Prop := ∀ (j : Nat) (x : PyNum), wl.vals[j]? = some x → ∃ y : PyNum, m[j]? = some y ∧ x.val = y.val

theorem Begins.before {m : List PyNum} {fuel : Nat} {s : WSt} {b : LBody} {l l' : WLSt} (h : writeBody fuel s b l = .ok l')
    (hb : Begins m l') : Begins m l := by
  obtain ⟨t, e⟩ := writeBody_append h
  intro j x hx
  refine hb j x ?_
  rw [e, List.getElem?_append_left]
  · exact hx
  · exact (List.getElem?_eq_some_iff.1 hx).1

theorem body_replay {A N : List Name} {top D : DDic} {L : List Level} {c : RCtx} {fuel : Nat} {w : WSt}
    (hT : Top A N top) (ho : Outer A N top D L) (hwo : w.outer = L.map Level.w) {vals vals2 : List PyNum}
    (hal : ∀ x ∈ vals, ∀ y ∈ vals2, x.val = y.val → x = y)
    {b : LBody} (hN : ∀ n ∈ bodyNames b, n ∈ N) {l l' : LSt} {wl wl' : WLSt} {a : Bool} (hl : Lvl a l.st.cur)
    (hi : l.st.ignoreAll = false) (h : readBody c vals b l = .ok l')
    (hw : writeBody fuel w b wl = .ok wl') (hat : LSide A N l w wl D L) (hH : Hold l'.st.cur D) (hB : Begins vals2 wl') :
    readBody c vals2 b l = .ok l' ∧ LSide A N l' w wl' D L := by
  induction b generalizing l l' wl wl' with
  | nil => cases h; cases hw; exact ⟨rfl, hat⟩
  | seq b1 b2 ih1 ih2 =>
    rw [readBody, Out.andThen_ok] at h
    obtain ⟨l1, h1, h2⟩ := h
    rw [writeBody, bind_ok] at hw
    obtain ⟨wl1, hw1, hw2⟩ := hw
    have hf := readBody_frame (a := a) h1
    have hst := readBody_step (hf.ign.trans hi) h2
    obtain ⟨g1, g2⟩ := ih1 (fun n hn => hN n (List.mem_append_left _ hn)) hl hi h1 hw1 hat (hH.before hst.grow) (hB.before hw2)
    obtain ⟨g3, g4⟩ := ih2 (fun n hn => hN n (List.mem_append_right _ hn)) (hf.lvl hl).1 (hf.ign.trans hi) h2 hw2 g2 hH hB
    rw [readBody, Out.andThen_ok]
    exact ⟨⟨l1, g1, g3⟩, g4⟩
  | expr e =>
    rw [readBody] at h
    split at h
    · cases h
    · rename_i v hv
      rw [Out.lift_ok] at h
      obtain ⟨cur, h1, h2⟩ := h
      cases h2
      have g1 := mapRead_step (by simp [SameVal]) h1
      have hup := (mapRead_lvl (a := a) (by simpa using Clean.num v) hl h1).2
      have hlev : Lev A N cur w.cur D := hat.lev.sync' g1.abb hup
      simp only [writeBody, bind_ok, pure_ok] at hw
      obtain ⟨v', hv', x, hx, rfl⟩ := hw
      have hm : mapWrite fuel ⟨w.cur, w.outer, l.st.lv⟩ [e] = .ok [v'] := by
        unfold mapWrite
        rw [← hat.lv]
        simp only [List.mapM_cons, hv', List.mapM_nil, bind, Except.bind, pure, Except.pure]
      obtain ⟨y, hy, hxy⟩ := hB l.pos x (by rw [hat.pos]; simp)
      have hvx : v' = .num x := scalar_ok hx
      subst hvx
      have g2 := mapRead_replay (vals := [.num v]) (vals2 := [.num y])
        (.cons (hal v (List.mem_of_getElem? hv) y (List.mem_of_getElem? hy)) .nil) hm (.cons hxy .nil) (hlev.cover hH) h1
      refine ⟨?_, hlev, hat.so, hat.lv, by simp [hat.pos]⟩
      rw [readBody, hy]
      dsimp only
      rw [g2]
      rfl
  | pad =>
    rw [readBody] at h
    cases h
    simp only [writeBody, Except.ok.injEq] at hw
    subst hw
    exact ⟨rfl, hat.lev, hat.so, hat.lv, by simp [hat.pos]⟩
  | loop v e1 e2 body ih =>
    rw [readBody, Out.lift_ok] at h
    obtain ⟨⟨x, y⟩, h1, h2⟩ := h
    rw [Out.andThen_ok] at h2
    obtain ⟨l1, h2, h3⟩ := h2
    simp only [writeBody, bind_ok, pure_ok] at hw
    obtain ⟨⟨x', y'⟩, hw1, wl1, hw2, hw3⟩ := hw
    have hH1 : Hold l1.st.cur D := by
      cases h3
      split at hH
      · exact hH
      · exact hH
    have hB1 : Begins vals2 wl1 := by
      subst hw3
      dsimp only at hB
      split at hB
      · exact hB
      · exact hB
    have hV : ∀ i (s s1 : LSt), (Lvl a s.st.cur ∧ s.st.ignoreAll = false) →
        readBody c vals body (LSt.setVar v i s) = .ok s1 →
        (Hold s1.st.cur D → Hold s.st.cur D) ∧ (Lvl a s1.st.cur ∧ s1.st.ignoreAll = false) := by
      intro i s s1 hs1 hb
      have hf := readBody_frame (a := a) hb
      have hst := readBody_step (l := LSt.setVar v i s) hs1.2 hb
      exact ⟨fun hh => hh.before hst.grow, (hf.lvl hs1.1).1, hf.ign.trans hs1.2⟩
    have hH0 : Hold l.st.cur D := by
      have := iterate_frame (R := fun l l' : LSt => l.st.ignoreAll = false → Step l.st.cur l'.st.cur ∧ l'.st.ignoreAll = false)
        (fun s hi => ⟨.refl _, hi⟩)
        (fun h1 h2 hi => ⟨(h1 hi).1.trans (h2 (h1 hi).2).1, (h2 (h1 hi).2).2⟩)
        (fun i s s' hs' hi => ⟨readBody_step (l := LSt.setVar v i s) hi hs', (readBody_frame (a := false) hs').ign.trans hi⟩) _ h2 hi
      exact hH1.before this.1.grow
    have hh : Here A N top l.st.cur w.cur D L := ⟨hT, ho, hat.lev, hH0⟩
    have h1' : loopHead c.fuel ⟨l.st.cur, L.map Level.d, l.st.lv⟩ v e1 e2 = .ok (x, y) := by
      rw [← hat.so]; exact h1
    rw [hwo, hat.lv] at hw1
    have hxy := hh.loopHead (fun n hn => hN n (by simp [bodyNames, hn])) (fun n hn => hN n (by simp [bodyNames, hn])) h1' hw1
    obtain ⟨rfl, rfl⟩ := hxy
    obtain ⟨g1, g2⟩ := iterate_replay (V := fun s : LSt => Lvl a s.st.cur ∧ s.st.ignoreAll = false)
      (I := fun s wl => LSide A N s w wl D L) (E := fun s => Hold s.st.cur D) (F := Begins vals2) (bodyR2 := readBody c vals2 body)
      (setW := WLSt.setVar v) (bodyW := writeBody fuel w body) hV
      (fun i wl wl1 hb hB => Begins.before (l := WLSt.setVar v i wl) hb hB)
      (fun i s wl s1 wl1 hVs hIs hEs hFs hb hbw => by
        refine ih (l := LSt.setVar v i s) (wl := WLSt.setVar v i wl) (fun n hn => hN n (by simp [bodyNames, hn]))
          hVs.1 hVs.2 hb hbw ⟨hIs.lev, hIs.so, ?_, hIs.pos⟩ hEs hFs
        simp only [LSt.setVar, WLSt.setVar, hIs.lv]) _ ⟨hl, hi⟩ hat hH1 hB1 h2 hw2
    refine ⟨?_, ?_⟩
    · rw [readBody, Out.lift_ok]
      refine ⟨(x, y), h1, ?_⟩
      rw [Out.andThen_ok]
      exact ⟨l1, g1, h3⟩
    · cases h3
      subst hw3
      dsimp only
      split
      · exact ⟨g2.lev, g2.so, by simp only [g2.lv], g2.pos⟩
      · exact g2

theorem namedBody_replay {A N : List Name} {Q : ARec → ARec → Prop} {top D : DDic} {s : RSt} {w : WSt} {L : List Level} {a : Bool}
    {c : RCtx} {fuel : Nat} {name : Option VarRef} {b : LBody} {vals vals2 : List PyNum} {l' : LSt} {wl : WLSt}
    (hal : ∀ x ∈ vals, ∀ y ∈ vals2, x.val = y.val → x = y) (hN : ∀ n ∈ bodyNames b, n ∈ N)
    (hi : s.ignoreAll = false) (hT : Top A N top) (h : At A N Q top s w D L) (hl : Lvl a s.cur)
    (hr : readNamedBody c vals b name s = .ok l') (hH : Hold l'.st.cur D)
    (hw : inTableW name w (fun s1 => writeBody fuel s1 b ⟨[], s1.lv⟩) = .ok wl) (hB : wl.vals.map PyNum.val = vals2.map PyNum.val) :
    readNamedBody c vals2 b name s = .ok l' ∧ ¬ l'.pos < vals2.length := by
  have hB1 : Begins vals2 wl := by
    intro j x hx
    have := congrArg (·[j]?) hB
    simp only [List.getElem?_map, hx, Option.map_some] at this
    cases hy : vals2[j]? with
    | none => rw [hy] at this; cases this
    | some y =>
      rw [hy] at this
      exact ⟨y, rfl, by simpa using this⟩
  have hlen : wl.vals.length = vals2.length := by
    have := congrArg List.length hB
    simpa using this
  cases name with
  | none =>
    simp only [readNamedBody, inTableW] at hr hw ⊢
    obtain ⟨g1, g2⟩ := body_replay hT h.out h.wo hal hN (l := ⟨0, s⟩) hl hi hr hw ⟨h.lev, h.so, h.lv, rfl⟩ hH hB1
    exact ⟨g1, by rw [g2.pos]; omega⟩
  | some r =>
    simp only [readNamedBody, Out.lift_ok, Out.andThen_ok] at hr ⊢
    obtain ⟨s1, h1, l2, h2, s3, h3, h4⟩ := hr
    cases h4
    simp only [inTableW, bind_ok] at hw
    obtain ⟨w1, hw1, hw⟩ := hw
    have h1' := h1
    obtain ⟨is, d, hi', hd, rfl⟩ := openR_ok h1'
    have hc : Clean (.dic d) := subDic_clean (fun d' hd' => hl.dic_clean hd') hd
    have hl1 : Lvl false (dSet .up .mark d) := (Lvl.of_clean hc).set_up _
    have hf := readBody_frame (a := false) h2
    have g1 := readBody_step (l := ⟨0, { s with cur := dSet .up .mark d, ups := (s.cur, r.name, is) :: s.ups }⟩) hi h2
    have hst := openClose_step hl h1 hf g1 h3
    obtain ⟨dW, e1, e2, e3, e4, hat⟩ := h.enter hT hl h1 (hf.ups) (hf.lvl hl1).1.nodup h3 hst hH hw1
    obtain ⟨g3, g4⟩ := body_replay (a := false) hT hat.out hat.wo hal hN (l := ⟨0, { s with cur := dSet .up .mark d, ups := (s.cur, r.name, is) :: s.ups }⟩)
      hl1 hi h2 hw ⟨hat.lev, hat.so, hat.lv, rfl⟩ e3 hB1
    exact ⟨⟨_, h1, l2, g3, s3, h3, rfl⟩, by dsimp only; rw [g4.pos]; omega⟩

/-! ## records -/

/-- a record that was read, the record that was written for it, and the record that is read from the written lines -/
structure ReplayRec (q r q2 : ARec) : Prop where
  kind : q2.kind = q.kind
  ctrl : q2.ctrl = q.ctrl
  flds : List.Forall₂ SameVal r.flds q2.flds
  tbl : List.Forall₂ SameVal r.tbl q2.tbl
  alikeF : q.kind ≠ .text → List.Forall₂ AlikeVal q.flds q2.flds
  alikeT : q.kind ≠ .text → List.Forall₂ AlikeVal q.tbl q2.tbl

/-- what is known about a record that has been read -/
structure UseTidy (c : RCtx) (act : Act) (q : ARec) (s : RSt) : Prop where
  clF : ∀ v ∈ q.flds, Clean v
  clT : ∀ v ∈ q.tbl, Clean v
  kind : (∀ k fs, act ≠ .text k fs) → q.kind ≠ .text
  text : ∀ k fs, act = .text k fs → ∃ hl, q.flds = [.txt hl] ∧ TextOk s.lv hl fs 0 s.cur ∧
    ∀ cur, mapTextRead s.lv hl fs 0 s.cur = .ok cur → CtrlFree q.ctrl cur
  head : ∀ k fs, act = .cont true k fs → ∀ s2, mapFields c fs q.flds s = .ok s2 → CtrlFree q.ctrl s2.cur
  list : ∀ k fs b n, act = .list k fs b n → ∃ vals, q.tbl = [.lst vals]

/-- the same state apart from the position, the records and the lines read so far -/
def AsPut (s s' : RSt) : Prop := ∀ o R S, s'.put o R S = s.put o R S

theorem use_replay {A N : List Name} {Q : ARec → ARec → Prop} {top D : DDic} {s s' : RSt} {w : WSt} {L : List Level} {a : Bool}
    {c : RCtx} {fuel : Nat} {act : Act} {q r q2 : ARec} (hT : Top A N top) (hN : ∀ n ∈ actNames act, n ∈ N) (hl : Lvl a s.cur)
    (hi : s.ignoreAll = false) (hk : s.look = none) (hu : UseTidy c act q s) (h : useRec c act q s = .ok s')
    (hat : At A N Q top s w D L) (hH : Hold s'.cur D) (hw : writeAct fuel w act = .ok r) (hq : ReplayRec q r q2) :
    ∃ s'', useRec c act q2 s = .ok s'' ∧ AsPut s' s'' := by
  obtain ⟨q1, q2', q3, q4, q5, q6⟩ := hq
  cases act with
  | text kk fs =>
    obtain ⟨hx, e1, t1, t2⟩ := hu.text kk fs rfl
    simp only [useRec, Out.lift_ok, logRec, e1] at h
    obtain ⟨_, h1, cur, h2, h3⟩ := h
    cases h3
    simp only [writeAct, bind_ok, pure_ok] at hw
    obtain ⟨kc, hk1, _, _, hl2, hm, rfl⟩ := hw
    have hst1 := mapTextRead_step t1 h2
    have hst2 := setCtrl_step (t2 _ h2)
    have hlev : Lev A N (setCtrl q.ctrl cur) w.cur D := by
      refine hat.lev.sync' (hst1.trans hst2).abb ?_
      have := (mapTextRead_lvl (a := a) hl h2).2
      rw [← this]
      unfold setCtrl dHas
      rw [dGet_dSet_ne (by simp), dGet_dSet_ne (by simp), dGet_dSet_ne (by simp)]
    have hcov := Cover.before hst2 (hlev.cover hH)
    have henv : (⟨w.cur, w.outer, s.lv⟩ : Env) = w.env := by rw [← hat.lv]; rfl
    rw [← henv] at hm
    have e2 := mapTextRead_again t1 h2 hcov hm
    dsimp only at q3
    have e3 : q2.flds = [.txt hx] := by
      cases hf : q2.flds with
      | nil => rw [hf] at q3; cases q3
      | cons v l =>
        rw [hf] at q3
        cases q3 with
        | cons g1 g2 =>
          cases g2
          cases v <;> simp only [SameVal] at g1
          rw [← g1, e2]
          rfl
    refine ⟨{ s with cur := setCtrl q.ctrl cur, recs := s.recs ++ [q2] }, ?_, fun _ _ _ => rfl⟩
    simp only [useRec, e3, q2', h1, h2, Out.lift, logRec]
  | cont isHead kk fs =>
    have ha := q5 (hu.kind (by simp))
    simp only [useRec, Out.lift_ok, Out.andThen_ok, logRec] at h
    obtain ⟨_, h1, s1, h2, h3⟩ := h
    cases h3
    simp only [writeAct, bind_ok, pure_ok] at hw
    obtain ⟨kc, hk1, _, _, out, hout, rfl⟩ := hw
    have hH1 : Hold s1.cur D := by
      cases isHead with
      | false => exact hH
      | true => exact hH.before (setCtrl_step (hu.head kk fs rfl _ h2)).grow
    have g := mapFields_replay hat hl hu.clF ha h2 hH1 hout q3
    refine ⟨{ (if isHead then { s1 with cur := setCtrl q.ctrl s1.cur } else s1) with recs := s1.recs ++ [q2] }, ?_, fun _ _ _ => rfl⟩
    simp only [useRec, q2', h1, g, Out.lift, Out.andThen, logRec]
    cases isHead <;> rfl
  | dir kk fs =>
    have ha := q5 (hu.kind (by simp))
    simp only [useRec, Out.lift_ok, Out.andThen_ok, logRec] at h
    obtain ⟨_, h1, s1, h2, h3⟩ := h
    cases h3
    simp only [writeAct, bind_ok, pure_ok] at hw
    obtain ⟨kc, hk1, _, _, out, hout, rfl⟩ := hw
    have g := mapFields_replay hat hl hu.clF ha h2 hH hout q3
    refine ⟨{ s1 with recs := s1.recs ++ [q2] }, ?_, fun _ _ _ => rfl⟩
    simp only [useRec, q2', h1, g, Out.lift, Out.andThen, logRec]
  | intg kk fs nd =>
    have ha := q5 (hu.kind (by simp))
    simp only [useRec, Out.lift_ok, Out.andThen_ok, logRec] at h
    obtain ⟨_, h1, s1, h2, h3⟩ := h
    cases h3
    simp only [writeAct, bind_ok] at hw
    obtain ⟨kc, hk1, _, _, out, hout, n', hn', hw⟩ := hw
    have hf : r.flds = out := by
      split at hw
      · simp only [pure_ok] at hw; rw [← hw]
      · cases hw
    rw [hf] at q3
    have g := mapFields_replay hat hl hu.clF ha h2 hH hout q3
    refine ⟨{ s1 with recs := s1.recs ++ [q2] }, ?_, fun _ _ _ => rfl⟩
    simp only [useRec, q2', h1, g, Out.lift, Out.andThen, logRec]
  | tab1 kk fs x y name =>
    have ha := q5 (hu.kind (by simp))
    have hb := q6 (hu.kind (by simp))
    simp only [useRec, Out.lift_ok, Out.andThen_ok] at h
    obtain ⟨_, h1, s1, h2, h3⟩ := h
    have hf := mapFields_frame (a := a) hu.clF h2
    rw [proceed_none (hf.look hk)] at h3
    simp only [Out.andThen_ok, logRec] at h3
    obtain ⟨s2, h3, h4⟩ := h3
    cases h4
    simp only [writeAct, bind_ok, pure_ok] at hw
    obtain ⟨kc, hk1, _, _, out, hout, cols, hcols, rfl⟩ := hw
    have hlf : ∀ v ∈ q.flds, SameVal v v := fun v hv => by obtain ⟨_, _, g⟩ := forall₂_left ha hv; exact g.refl_same
    have hlt : ∀ v ∈ q.tbl, SameVal v v := fun v hv => by obtain ⟨_, _, g⟩ := forall₂_left hb hv; exact g.refl_same
    have hl2 := hf.lvl hl
    have hst1 := mapFields_step hi hlf h2
    have hst2 := inTable_step (c := c) hl2.1 (fun a s s' hh => mapFields_frame hu.clT hh)
      (fun sa sb hh hm => mapFields_step (hh.trans (hf.ign.trans hi)) hlt hm) h3
    have hat1 : At A N Q top s1 w D L := hat.move hst1.abb hl2.2 hf.ups hf.lv (mapFields_fix h2).1
    have g1 := mapFields_replay hat hl hu.clF ha h2 (hH.before hst2.grow) hout q3
    have g2 := inTable_replay hT hat1 hl2.1 hu.clT hb h3 hH hcols q4
    refine ⟨{ s2 with recs := s2.recs ++ [q2] }, ?_, fun _ _ _ => rfl⟩
    simp only [useRec, q2', h1, g1, Out.lift, Out.andThen, proceed_none (hf.look hk), g2, logRec]
  | tab2 kk fs name =>
    have ha := q5 (hu.kind (by simp))
    have hb := q6 (hu.kind (by simp))
    simp only [useRec, Out.lift_ok, Out.andThen_ok] at h
    obtain ⟨_, h1, s1, h2, h3⟩ := h
    have hf := mapFields_frame (a := a) hu.clF h2
    rw [proceed_none (hf.look hk)] at h3
    simp only [Out.andThen_ok, logRec] at h3
    obtain ⟨s2, h3, h4⟩ := h3
    cases h4
    simp only [writeAct, bind_ok, pure_ok] at hw
    obtain ⟨kc, hk1, _, _, out, hout, cols, hcols, rfl⟩ := hw
    have hlf : ∀ v ∈ q.flds, SameVal v v := fun v hv => by obtain ⟨_, _, g⟩ := forall₂_left ha hv; exact g.refl_same
    have hlt : ∀ v ∈ q.tbl, SameVal v v := fun v hv => by obtain ⟨_, _, g⟩ := forall₂_left hb hv; exact g.refl_same
    have hl2 := hf.lvl hl
    have hst1 := mapFields_step hi hlf h2
    have hst2 := inTable_step (c := c) hl2.1 (fun a s s' hh => mapFields_frame hu.clT hh)
      (fun sa sb hh hm => mapFields_step (hh.trans (hf.ign.trans hi)) hlt hm) h3
    have hat1 : At A N Q top s1 w D L := hat.move hst1.abb hl2.2 hf.ups hf.lv (mapFields_fix h2).1
    have g1 := mapFields_replay hat hl hu.clF ha h2 (hH.before hst2.grow) hout q3
    have g2 := inTable_replay hT hat1 hl2.1 hu.clT hb h3 hH hcols q4
    refine ⟨{ s2 with recs := s2.recs ++ [q2] }, ?_, fun _ _ _ => rfl⟩
    simp only [useRec, q2', h1, g1, Out.lift, Out.andThen, proceed_none (hf.look hk), g2, logRec]
  | list kk fs body name =>
    have ha := q5 (hu.kind (by simp))
    have hb := q6 (hu.kind (by simp))
    obtain ⟨vals, ev⟩ := hu.list kk fs body name rfl
    rw [ev] at hb
    obtain ⟨vals2, ev2, hal⟩ : ∃ vals2, q2.tbl = [.lst vals2] ∧ ∀ x ∈ vals, ∀ y ∈ vals2, x.val = y.val → x = y := by
      cases ht : q2.tbl with
      | nil => rw [ht] at hb; cases hb
      | cons v l =>
        rw [ht] at hb
        cases hb with
        | cons b1 b2 =>
          cases b2
          cases v with
          | lst m => exact ⟨m, rfl, b1⟩
          | _ => cases b1
    simp only [useRec, Out.lift_ok, Out.andThen_ok] at h
    obtain ⟨_, h1, s1, h2, h3⟩ := h
    have hf := mapFields_frame (a := a) hu.clF h2
    rw [proceed_none (hf.look hk)] at h3
    simp only [ev] at h3
    cases hbody : readNamedBody c vals body name s1 with
    | err e l => rw [hbody] at h3; cases h3
    | ok l =>
      rw [hbody] at h3
      dsimp only at h3
      split at h3
      · cases h3
      · unfold logRec at h3
        cases h3
        simp only [writeAct, bind_ok, pure_ok] at hw
        obtain ⟨kc, hk1, _, _, out, hout, wl, hwl, rfl⟩ := hw
        have hlf : ∀ v ∈ q.flds, SameVal v v := fun v hv => by obtain ⟨_, _, g⟩ := forall₂_left ha hv; exact g.refl_same
        have hl2 := hf.lvl hl
        have hst1 := mapFields_step hi hlf h2
        have hst2 := readNamedBody_step hl2.1 (hf.ign.trans hi) hbody
        have hat1 : At A N Q top s1 w D L := hat.move hst1.abb hl2.2 hf.ups hf.lv (mapFields_fix h2).1
        have g1 := mapFields_replay hat hl hu.clF ha h2 (hH.before hst2.grow) hout q3
        dsimp only at q4
        rw [ev2] at q4
        have hvals : wl.vals.map PyNum.val = vals2.map PyNum.val := by
          cases q4 with
          | cons b1 _ => exact b1
        obtain ⟨g2, g3⟩ := namedBody_replay hal hN (hf.ign.trans hi) hT hat1 hl2.1 hbody hH hwl hvals
        refine ⟨{ l.st with recs := l.st.recs ++ [q2] }, ?_, fun _ _ _ => rfl⟩
        simp only [useRec, q2', h1, g1, Out.lift, Out.andThen, proceed_none (hf.look hk), ev2, g2]
        rw [if_neg g3]
        rfl
  | send =>
    simp only [useRec, logRec] at h
    cases h
    exact ⟨_, rfl, fun _ _ _ => rfl⟩
  | stop => cases h

theorem readKind_clean {ro : ROpts} {lines : List Str} {ofs : Nat} {k : RKind} {q : ARec} {o : Nat}
    (h : readKind ro lines ofs k = .ok (q, o)) : (∀ v ∈ q.flds, Clean v) ∧ ∀ v ∈ q.tbl, Clean v := by
  cases k <;>
  · simp only [readKind, bind_ok, pure, Except.pure, Except.ok.injEq, Prod.mk.injEq] at h
    obtain ⟨⟨r, _⟩, _, rfl, _⟩ := h
    constructor
    · intro v hv
      first
        | exact contVals_clean _ v hv
        | exact contVals_clean _ v (List.mem_of_mem_take hv)
        | (rcases List.mem_append.1 hv with hv | hv
           · exact contVals_clean _ v (List.mem_of_mem_take hv)
           · exact contVals_clean _ v (List.mem_of_mem_drop hv))
        | (simp only [List.mem_cons, List.not_mem_nil, or_false] at hv
           rcases hv with rfl | rfl | rfl | rfl <;> exact .num _)
        | (simp only [List.mem_cons, List.not_mem_nil, or_false] at hv
           rcases hv with rfl | rfl | rfl
           · exact .num _
           · exact .num _
           · exact .lst _)
        | (simp only [List.mem_cons, List.not_mem_nil, or_false] at hv
           subst hv
           exact .txt _)
        | (cases hv)
    · intro v hv
      first
        | (cases hv; done)
        | (simp only [List.mem_cons, List.not_mem_nil, or_false] at hv
           rcases hv with rfl | rfl | rfl | rfl <;> exact .lst _)
        | (simp only [List.mem_cons, List.not_mem_nil, or_false] at hv
           rcases hv with rfl | rfl <;> exact .lst _)
        | (simp only [List.mem_cons, List.not_mem_nil, or_false] at hv
           subst hv
           exact .lst _)

theorem use_tidy {c : RCtx} {act : Act} {k : RKind} (hk : act.kind = some k) {s : RSt} (ht : TidyAct c act s) {o1 o2 : Nat} {q : ARec}
    (h1 : skipBlankLines c.lines s.ofs = .ok o1) (h : readKind c.ro c.lines o1 k = .ok (q, o2)) (sp : List (Nat × Nat))
    (hsp : sp = s.spans ++ span k o1 o2) : UseTidy c act q { s with ofs := o2, spans := sp } := by
  have hq := readKind_kind h
  have hc := readKind_clean h
  subst hsp
  refine ⟨hc.1, hc.2, ?_, ?_, ?_, ?_⟩
  · intro hn
    rw [hq]
    cases act <;> simp only [Act.kind, Option.some.injEq, reduceCtorEq] at hk <;> subst hk <;> first | (simp; done) | skip
    · exact absurd rfl (hn _ _)
    · split <;> simp
  · rintro kk fs rfl
    cases hk
    simp only [readKind, bind_ok, pure, Except.pure, Except.ok.injEq, Prod.mk.injEq] at h
    obtain ⟨⟨r, o'⟩, h2, rfl, rfl⟩ := h
    obtain ⟨t1, t2⟩ := ht r _ ⟨o1, o', h1, h2, rfl⟩
    exact ⟨r.hl, rfl, t1, t2⟩
  · rintro kk fs rfl
    cases hk
    simp only [if_true, readKind, bind_ok, pure, Except.pure, Except.ok.injEq, Prod.mk.injEq] at h
    obtain ⟨⟨r, o'⟩, h2, rfl, rfl⟩ := h
    exact ht r _ ⟨o1, o', h1, h2, rfl⟩
  · rintro kk fs b n rfl
    cases hk
    simp only [readKind, bind_ok, pure, Except.pure, Except.ok.injEq, Prod.mk.injEq] at h
    obtain ⟨⟨r, o'⟩, h2, rfl, rfl⟩ := h
    exact ⟨_, rfl⟩

theorem use_tidy_intg {c : RCtx} {kk : CSpec} {fs : List Expr} {nd : Expr} {n : Int} {s s1 : RSt} {o1 o2 : Nat} {q : ARec}
    (h : readKind c.ro c.lines o1 (.intg n) = .ok (q, o2)) : UseTidy c (.intg kk fs nd) q s1 := by
  have hc := readKind_clean h
  refine ⟨hc.1, hc.2, fun _ => ?_, ?_, ?_, ?_⟩
  · rw [readKind_kind h]; simp
  · intro _ _ h; cases h
  · intro _ _ h; cases h
  · intro _ _ _ _ h; cases h

/-- the record written for a record of the same kind -/
def RPair (k : Ctrl) (q r : ARec) : Prop := r.kind = q.kind ∧ r.ctrl = if q.kind = .send then { k with mt := 0 } else k

theorem act_replay {A N : List Name} {Q : ARec → ARec → Prop} {k : Ctrl} {top D : DDic} {s s' : RSt} {w : WSt} {L : List Level} {a : Bool}
    {c : RCtx} {fuel : Nat} {act : Act} {r : ARec} (hT : Top A N top) (hC : CtrlAll k top)
    (hN : ∀ n ∈ actNames act, n ∈ N) (hl : Lvl a s.cur) (hi : s.ignoreAll = false) (hk : s.look = none)
    (ht : TidyAct c act s) (h : readAct c act s = .ok s') (hat : At A N Q top s w D L) (hH : Hold s'.cur D)
    (hw : writeAct fuel w act = .ok r) : ∃ q, s'.recs = s.recs ++ [q] ∧ s'.look = none ∧ RPair k q r ∧
    ∀ q2, ReplayRec q r q2 → ∀ L o o' R S, NextRec c.ro L o q2 o' →
      ∃ S', readAct { c with lines := L } act (s.put o R S) = .ok (s'.put o' (R ++ [q2]) S') := by
  have hst := readAct_step hl hi hk ht h
  have hfr := readAct_frame (a := a) h
  have hlev : Lev A N s'.cur w.cur D := hat.lev.sync' hst.abb (hfr.lvl hl).2
  have hctrl : ∀ kk, getCtrl w = .ok kk → kk = k := fun kk hkk =>
    Here.ctrl (d := s'.cur) ⟨hT, hat.out, hlev, hH⟩ hC hat.wo hkk
  have henv : (⟨w.cur, w.outer, s.lv⟩ : Env) = w.env := by rw [← hat.lv]; rfl
  by_cases hx : ∃ k fs nd, act = .intg k fs nd
  · obtain ⟨kk, fs, nd, rfl⟩ := hx
    rw [readAct_intg] at h
    simp only [Out.lift_ok] at h
    obtain ⟨n, h1, h⟩ := h
    split at h
    · rename_i n
      simp only [Out.lift_ok] at h
      obtain ⟨o1, h2, ⟨q, o2⟩, h3, h4⟩ := h
      obtain ⟨b1, b2, b3, -⟩ := useRec_put (s := { s with ofs := o2, spans := s.spans ++ span (.intg n) o1 o2 }) hk h4
      have hq := readKind_kind h3
      refine ⟨q, b1, b3, ?_, ?_⟩
      · simp only [writeAct, bind_ok] at hw
        obtain ⟨kc, hk1, _, _, out, hout, n', hn', hw⟩ := hw
        have hh : Here A N top s.cur w.cur D L := ⟨hT, hat.out, hat.lev, hH.before hst.grow⟩
        have q1 : evalKnown c.fuel ⟨s.cur, L.map Level.d, s.lv⟩ true true nd = .ok (.num (.int n)) := by
          rw [← hat.so]; exact h1
        have q2 : evalKnown fuel ⟨w.cur, L.map Level.w, s.lv⟩ true true nd = .ok n' := by
          rw [← hat.wo, henv]; exact hn'
        obtain ⟨y, rfl, hy⟩ := hh.known hN q1 q2 _ rfl
        cases y with
        | num y => simp only [reduceCtorEq] at hw
        | int m =>
          simp only [pure_ok] at hw
          subst hw
          have : n = m := by simpa [PyNum.val] using hy
          subst this
          refine ⟨hq.symm, ?_⟩
          rw [hq, if_neg (by simp)]
          exact hctrl _ hk1
      · rintro q2 hq2 L' o o' R S ⟨p1, g1, g2⟩
        obtain ⟨s'', u1, u2⟩ := use_replay (s := { s with ofs := o2, spans := s.spans ++ span (.intg n) o1 o2 }) hT hN hl hi hk
          (use_tidy_intg (s := s) h3) h4 ⟨hat.out, hat.lev, hat.so, hat.wo, hat.lv, hat.recs⟩ hH hw hq2
        obtain ⟨-, -, -, b4⟩ := useRec_put (s := { s with ofs := o2, spans := s.spans ++ span (.intg n) o1 o2 }) hk u1
        rw [hq2.kind, hq] at g2
        refine ⟨S ++ span (.intg n) p1 o', ?_⟩
        rw [readAct_intg]
        have e1 : evalKnown c.fuel (s.put o R S).env true true nd = .ok (.num (.int n)) := h1
        simp only [e1, Out.lift]
        have e2 : skipBlankLines L' (s.put o R S).ofs = .ok p1 := g1
        simp only [e2, g2]
        have := b4 L' o' R (S ++ span (.intg n) p1 o')
        rw [u2] at this
        exact this
    · cases h
  · cases hkd : act.kind with
    | none =>
      cases act <;> first | (cases hkd; done) | skip
      · exact absurd ⟨_, _, _, rfl⟩ hx
      · simp only [readAct, Out.lift_ok] at h
        obtain ⟨_, _, h⟩ := h
        cases h
    | some kd =>
      rw [readAct_kind c act kd hkd] at h
      simp only [Out.lift_ok] at h
      obtain ⟨o1, h2, ⟨q, o2⟩, h3, h4⟩ := h
      obtain ⟨b1, b2, b3, -⟩ := useRec_put (s := { s with ofs := o2, spans := s.spans ++ span kd o1 o2 }) hk h4
      have hq := readKind_kind h3
      refine ⟨q, b1, b3, ?_, ?_⟩
      · unfold RPair
        rw [hq]
        cases act <;> simp only [Act.kind, Option.some.injEq, reduceCtorEq] at hkd <;> subst hkd <;>
          simp only [writeAct, bind_ok, pure_ok] at hw
        · obtain ⟨kc, hk1, _, _, _, _, rfl⟩ := hw
          exact ⟨rfl, hctrl _ hk1⟩
        · rename_i b _ _
          obtain ⟨kc, hk1, _, _, _, _, rfl⟩ := hw
          refine ⟨rfl, ?_⟩
          cases b <;> exact hctrl _ hk1
        · obtain ⟨kc, hk1, _, _, _, _, rfl⟩ := hw
          exact ⟨rfl, hctrl _ hk1⟩
        · obtain ⟨kc, hk1, _, _, _, _, _, _, rfl⟩ := hw
          exact ⟨rfl, hctrl _ hk1⟩
        · obtain ⟨kc, hk1, _, _, _, _, _, _, rfl⟩ := hw
          exact ⟨rfl, hctrl _ hk1⟩
        · obtain ⟨kc, hk1, _, _, _, _, _, _, rfl⟩ := hw
          exact ⟨rfl, hctrl _ hk1⟩
        · obtain ⟨kc, hk1, rfl⟩ := hw
          have := hctrl _ hk1
          subst this
          exact ⟨rfl, rfl⟩
      · rintro q2 hq2 L' o o' R S ⟨p1, g1, g2⟩
        obtain ⟨s'', u1, u2⟩ := use_replay (s := { s with ofs := o2, spans := s.spans ++ span kd o1 o2 }) hT hN hl hi hk
          (use_tidy hkd ht h2 h3 _ rfl) h4 ⟨hat.out, hat.lev, hat.so, hat.wo, hat.lv, hat.recs⟩ hH hw hq2
        obtain ⟨-, -, -, b4⟩ := useRec_put (s := { s with ofs := o2, spans := s.spans ++ span kd o1 o2 }) hk u1
        rw [hq2.kind, hq] at g2
        refine ⟨S ++ span kd p1 o', ?_⟩
        rw [readAct_kind _ act kd hkd]
        have e2 : skipBlankLines L' (s.put o R S).ofs = .ok p1 := g1
        simp only [e2, Out.lift, g2]
        have := b4 L' o' R (S ++ span kd p1 o')
        rw [u2] at this
        exact this

/-! ## recipes -/

/-- from `s` to `s'` records have been read, from `w` to `w'` as many have been written, and wherever records stand that
replay the written ones, the result of reading is the same -/
def Redo (c : RCtx) (k : Ctrl) (f : List Str → RSt → Out RSt) (s s' : RSt) (w w' : WSt) : Prop :=
  ∃ prs : List (ARec × ARec), s'.recs = s.recs ++ prs.map Prod.fst ∧ w'.out = w.out ++ prs.map Prod.snd ∧ s'.look = none ∧
    (∀ pr ∈ prs, RPair k pr.1 pr.2) ∧
    ∀ qs2, List.Forall₂ (fun (pr : ARec × ARec) q2 => ReplayRec pr.1 pr.2 q2) prs qs2 → ∀ L o o' R S, Laid c.ro L o qs2 o' →
      ∃ S', f L (s.put o R S) = .ok (s'.put o' (R ++ qs2) S')

theorem Redo.nil {c : RCtx} {k : Ctrl} {f : List Str → RSt → Out RSt} {s : RSt} {w : WSt} (hl : s.look = none)
    (h : ∀ L o R S, f L (s.put o R S) = .ok (s.put o R S)) : Redo c k f s s w w := by
  refine ⟨[], by simp, by simp, hl, by simp, fun qs2 hq L o o' R S hL => ?_⟩
  cases hq
  cases hL
  exact ⟨S, by rw [List.append_nil]; exact h L o R S⟩

theorem forall₂_append_left {α β : Type} {R : α → β → Prop} {a b : List α} {c : List β} (h : List.Forall₂ R (a ++ b) c) :
    ∃ u v, List.Forall₂ R a u ∧ List.Forall₂ R b v ∧ c = u ++ v := by
  induction a generalizing c with
  | nil => exact ⟨[], c, .nil, h, rfl⟩
  | cons x a ih =>
    cases h with
    | cons h1 h2 =>
      obtain ⟨u, v, i1, i2, rfl⟩ := ih h2
      exact ⟨_ :: u, v, .cons h1 i1, i2, rfl⟩

theorem Redo.comp {c : RCtx} {k : Ctrl} {f g e : List Str → RSt → Out RSt} {s s1 s' : RSt} {w w1 w' : WSt}
    (h1 : Redo c k f s s1 w w1) (h2 : Redo c k g s1 s' w1 w')
    (he : ∀ L x, e L x = (f L x).andThen (g L)) : Redo c k e s s' w w' := by
  obtain ⟨p1, a1, a2, a3, a4, a5⟩ := h1
  obtain ⟨p2, b1, b2, b3, b4, b5⟩ := h2
  refine ⟨p1 ++ p2, by rw [b1, a1, List.map_append, List.append_assoc], by rw [b2, a2, List.map_append, List.append_assoc], b3, ?_, ?_⟩
  · intro pr hpr
    rcases List.mem_append.1 hpr with hpr | hpr
    · exact a4 pr hpr
    · exact b4 pr hpr
  · intro qs2 hq L o o' R S hL
    obtain ⟨u1, u2, hu1, hu2, rfl⟩ := forall₂_append_left hq
    obtain ⟨o1, l1, l2⟩ := hL.split
    obtain ⟨S1, g1⟩ := a5 u1 hu1 L o o1 R S l1
    obtain ⟨S2, g2⟩ := b5 u2 hu2 L o1 o' (R ++ u1) S1 l2
    refine ⟨S2, ?_⟩
    rw [he, g1]
    rw [List.append_assoc] at g2
    exact g2

theorem iterate_redo {c : RCtx} {k : Ctrl} {setR : Int → RSt → RSt} {f : List Str → RSt → Out RSt} {setW : Int → WSt → WSt} {g : WSt → Res WSt}
    {V : RSt → Prop} {I : RSt → WSt → Prop} {E : RSt → Prop} {P : RSt → Prop}
    (hset : ∀ i s, (setR i s).recs = s.recs ∧ ∀ o R S, setR i (s.put o R S) = (setR i s).put o R S)
    (hsetW : ∀ i w, (setW i w).out = w.out) (hVl : ∀ s, V s → s.look = none)
    (hE : ∀ i s s1, V s → P (setR i s) → f c.lines (setR i s) = .ok s1 → (E s1 → E s) ∧ V s1)
    (hI : ∀ i s w s1 w1, V s → I s w → P (setR i s) → E s1 → f c.lines (setR i s) = .ok s1 → g (setW i w) = .ok w1 →
      I s1 w1 ∧ Redo c k f (setR i s) s1 (setW i w) w1)
    (is : List Int) {s s' : RSt} {w w' : WSt} (hV : V s) (h : I s w) (hP : AllIter setR (f c.lines) P is s) (he : E s')
    (hr : iterate setR (f c.lines) is s = .ok s') (hw : iterateW setW g is w = .ok w') :
    Redo c k (fun L => iterate setR (f L) is) s s' w w' := by
  induction is generalizing s w with
  | nil =>
    cases hr; cases hw
    exact Redo.nil (hVl _ hV) fun _ _ _ _ => rfl
  | cons i is ih =>
    rw [iterate, Out.andThen_ok] at hr
    rw [iterateW, bind_ok] at hw
    obtain ⟨s1, h1, h2⟩ := hr
    obtain ⟨w1, h3, h4⟩ := hw
    have hg := (hE i s s1 hV hP.1 h1).2
    have e1 : E s1 := (iterate_all (R := fun s s' => E s' → E s) (I := V) (fun _ h => h) (fun h1 h2 h => h1 (h2 h))
      hE is hg (hP.2 _ h1) h2).1 he
    obtain ⟨i1, p1, a1, a2, a3, a4, a5⟩ := hI i s w s1 w1 hV h hP.1 e1 h1 h3
    obtain ⟨x1, x2⟩ := hset i s
    rw [x1] at a1
    rw [hsetW] at a2
    have first : Redo c k (fun L x => f L (setR i x)) s s1 w w1 :=
      ⟨p1, a1, a2, a3, a4, fun qs2 hq L o o' R S hL => by simp only [x2]; exact a5 qs2 hq L o o' R S hL⟩
    exact Redo.comp first (ih hg i1 (hP.2 _ h1) h2 h4) fun L x => by rw [iterate]

theorem replay {A N : List Name} {k : Ctrl} {top : DDic} {c : RCtx} {fuel : Nat} (hT : Top A N top) (hC : CtrlAll k top)
    {p : Prog} (hwf : WF p) (hn : LookFree p) (hN : ∀ n ∈ looked p, n ∈ N) (hA : ∀ n ∈ abbrs p, n ∈ A) {s s' : RSt} {w w' : WSt} {D : DDic}
    {L : List Level} (hw : WInv s.cur) (hww : WInv w.cur) (hi : s.ignoreAll = false) (hk : s.look = none)
    (ht : Tidy c p s) (h : readProg c p s = .ok s') (hW : writeProg fuel p w = .ok w') (hat : At A N (fun _ _ => True) top s w D L)
    (hH : Hold s'.cur D) : Redo c k (fun L => readProg { c with lines := L } p) s s' w w' := by
  induction p generalizing s s' w w' D L with
  | skip => cases h; cases hW; exact Redo.nil hk fun _ _ _ _ => by simp [readProg]
  | seq a b iha ihb =>
    rw [readProg, Out.andThen_ok] at h
    obtain ⟨s1, h1, h2⟩ := h
    rw [writeProg, bind_ok] at hW
    obtain ⟨w1, hW1, hW2⟩ := hW
    have hf := readProg_frame h1
    have g1 := readProg_grow hw hi hk ht.1 h1
    have g2 := readProg_grow g1.2 (hf.ign.trans hi) (hf.look hk) (ht.2 _ h1) h2
    have hNa : ∀ n ∈ looked a, n ∈ N := fun n hn => hN n (List.mem_append_left _ hn)
    have hAa : ∀ n ∈ abbrs a, n ∈ A := fun n hn => hA n (List.mem_append_left _ hn)
    have r1 := iha hwf.1 hn.1 hNa hAa hw hww hi hk ht.1 h1 hW1 hat (hH.before g2.1)
    have hat1 := sim pairs_any hT hwf.1 hNa hAa hw hww hi hk ht.1 h1 hW1 hat (hH.before g2.1)
    have r2 := ihb hwf.2 hn.2 (fun n hn => hN n (List.mem_append_right _ hn)) (fun n hn => hA n (List.mem_append_right _ hn))
      g1.2 ((writeProg_frame hW1).inv hww).1 (hf.ign.trans hi) (hf.look hk) (ht.2 _ h1) h2 hW2 hat1 hH
    exact r1.comp r2 fun L x => by simp only [readProg]
  | act a =>
    rw [readProg, proceed_none hk] at h
    simp only [writeProg, bind_ok, pure_ok] at hW
    obtain ⟨r, hr, rfl⟩ := hW
    obtain ⟨q, a1, a2, a3, a4⟩ := act_replay hT hC hN hw.lvl hi hk ht h hat hH hr
    refine ⟨[(q, r)], a1, rfl, a2, by simpa using a3, fun qs2 hq L o o' R S hL => ?_⟩
    cases hq with
    | cons hq hnil =>
      cases hnil
      cases hL with
      | cons h1 t =>
        cases t
        obtain ⟨S', g⟩ := a4 _ hq L _ _ R S h1
        refine ⟨S', ?_⟩
        have hp : (s.put o R S).proceed = some (s.put o R S) := proceed_idle hk
        simp only [readProg, hp]
        exact g
  | sect r body ih =>
    have hstop : s.stopped = false := by simp [RSt.stopped, hk]
    rw [readProg, hstop] at h
    simp only [Bool.false_eq_true, if_false, Out.lift_ok, Out.andThen_ok] at h
    obtain ⟨s1, h1, s2, h2, cur, h3, s3, h4, h5⟩ := h
    cases h5
    obtain ⟨w1, w2, hw1, hw2, rfl⟩ := writeSect_same hww hW
    have hf := readProg_frame h2
    have h1' := h1
    obtain ⟨is, d, hidx, hd, rfl⟩ := openR_ok h1'
    have hc : Clean (.dic d) := subDic_clean (fun d' hd' => hw.lvl.dic_clean hd') hd
    have hl1 : Lvl false (dSet .up .mark d) := (Lvl.of_clean hc).set_up _
    have ht1 := ht _ h1
    obtain ⟨g1, g2⟩ := readProg_grow (s := { s with cur := initWork (dSet .up .mark d), ups := (s.cur, r.name, is) :: s.ups }) (clean_work hl1).1 hi hk ht1 h2
    have hst := sect_step hw.lvl h1 hf g1 g2 h3 h4
    obtain ⟨dW, e1, e2, e3, e4, hat1⟩ := hat.enter hT hw.lvl h1 (s2 := { s2 with cur := cur }) hf.ups
      (removeWork_lvl g2.lvl h3).1.nodup h4 hst hH hw1
    have hHi : Hold s2.cur dW := by
      intro n v hv ha
      exact e3 n v (removeWork_get g2 h3 rfl ha hv) ha
    have hlW : Lvl false w1.cur := by rw [e1]; exact (Lvl.of_clean e2).set_up _
    obtain ⟨prs, a1, a2, a3, a4, a5⟩ := ih hwf hn hN hA (s := { s with cur := initWork (dSet .up .mark d), ups := (s.cur, r.name, is) :: s.ups })
      (w := { w1 with cur := initWork w1.cur }) (clean_work hl1).1 (clean_work hlW).1 hi hk ht1 h2 hw2
      ⟨hat1.out, hat1.lev.init, hat1.so, hat1.wo, hat1.lv, hat1.recs⟩ hHi
    obtain ⟨d1, d2, d3⟩ := closeR_fix h4
    have hwo : w1.out = w.out := by
      obtain ⟨_, _, _, _, rfl⟩ := openW_ok hw1; rfl
    refine ⟨prs, d1.trans a1, a2.trans (by rw [← hwo]), d3.trans a3, a4, fun qs2 hq L o o' R S hL => ?_⟩
    obtain ⟨S1, k1⟩ := a5 qs2 hq L o o' R S hL
    refine ⟨S1, ?_⟩
    have hp : (s.put o R S).stopped = false := stopped_none hk
    have e5 : removeWork (s2.put o' (R ++ qs2) S1).cur = .ok cur := h3
    have e6 : ({ s2.put o' (R ++ qs2) S1 with cur := cur } : RSt) = RSt.put { s2 with cur := cur } o' (R ++ qs2) S1 := rfl
    simp only [readProg, hp, Bool.false_eq_true, if_false, openR_put, h1, Except.map, Out.lift]
    have e4' : ({ RSt.put { s with cur := dSet .up .mark d, ups := (s.cur, r.name, is) :: s.ups } o R S with cur := initWork (dSet .up .mark d) } : RSt)
      = RSt.put { s with cur := initWork (dSet .up .mark d), ups := (s.cur, r.name, is) :: s.ups } o R S := rfl
    dsimp only at k1
    rw [show (RSt.put { s with cur := dSet .up .mark d, ups := (s.cur, r.name, is) :: s.ups } o R S).cur = dSet .up .mark d from rfl, e4', k1]
    simp only [Out.andThen, e5, e6, closeR_put, h4, Except.map]
  | loop v e1 e2 body ih =>
    have hstop : s.stopped = false := by simp [RSt.stopped, hk]
    rw [readProg, hstop] at h
    simp only [Bool.false_eq_true, if_false, Out.lift_ok, Out.andThen_ok] at h
    obtain ⟨⟨x, y⟩, h1, s1, h2, h3⟩ := h
    simp only [writeProg, bind_ok, pure_ok] at hW
    obtain ⟨⟨x', y'⟩, hw1, w1, hw2, hw3⟩ := hW
    have hH1 : Hold s1.cur D := by
      cases h3
      split at hH
      · exact hH
      · exact hH
    have hV : ∀ i (s s1 : RSt), (WInv s.cur ∧ s.ignoreAll = false ∧ s.look = none) → Tidy c body (RSt.setVar v i s) →
        readProg c body (RSt.setVar v i s) = .ok s1 →
        Grow s.cur s1.cur ∧ (WInv s1.cur ∧ s1.ignoreAll = false ∧ s1.look = none) := by
      intro i s s1 hI hP hb
      obtain ⟨g1, g2⟩ := readProg_grow (s := RSt.setVar v i s) hI.1 hI.2.1 hI.2.2 hP hb
      have hf := readProg_frame hb
      exact ⟨g1, g2, hf.ign.trans hI.2.1, hf.look hI.2.2⟩
    have hg := iterate_all (R := fun s s' : RSt => Grow s.cur s'.cur)
      (I := fun s => WInv s.cur ∧ s.ignoreAll = false ∧ s.look = none)
      (fun s => Grow.refl _) (fun h1 h2 => h1.trans h2) hV _ ⟨hw, hi, hk⟩ (ht x y h1) h2
    have hh : Here A N top s.cur w.cur D L := hat.here hT (hH1.before hg.1)
    have h1' : loopHead c.fuel ⟨s.cur, L.map Level.d, s.lv⟩ v e1 e2 = .ok (x, y) := by
      rw [← hat.so]; exact h1
    have hw1' : loopHead fuel ⟨w.cur, L.map Level.w, s.lv⟩ v e1 e2 = .ok (x', y') := by
      rw [← hat.wo, ← hat.lv]; exact hw1
    obtain ⟨rfl, rfl⟩ := hh.loopHead (fun n hn => hN n (by simp [looked, hn])) (fun n hn => hN n (by simp [looked, hn])) h1' hw1'
    have hNb : ∀ n ∈ looked body, n ∈ N := fun n hn => hN n (by simp [looked, hn])
    obtain ⟨prs, a1, a2, a3, a4, a5⟩ := iterate_redo (k := k) (c := c) (f := fun L => readProg { c with lines := L } body) (setR := RSt.setVar v) (setW := WSt.setVar v)
      (g := writeProg fuel body)
      (V := fun s : RSt => WInv s.cur ∧ s.ignoreAll = false ∧ s.look = none)
      (I := fun s w => At A N (fun _ _ => True) top s w D L ∧ WInv w.cur) (E := fun s => Hold s.cur D) (P := Tidy c body)
      (fun i s => ⟨rfl, fun _ _ _ => rfl⟩) (fun _ _ => rfl) (fun s h => h.2.2)
      (fun i s s1 hVs hP hb => ⟨fun he => he.before (hV i s s1 hVs hP hb).1, (hV i s s1 hVs hP hb).2⟩)
      (fun i s w s1 w1 hVs hIs hP hEs hb hbw => by
        have hat1 : At A N (fun _ _ => True) top (RSt.setVar v i s) (WSt.setVar v i w) D L :=
          ⟨hIs.1.out, hIs.1.lev, hIs.1.so, hIs.1.wo, by simp only [RSt.setVar, WSt.setVar, hIs.1.lv], hIs.1.recs⟩
        exact ⟨⟨sim (p := body) pairs_any hT hwf hNb hA (s := RSt.setVar v i s) (w := WSt.setVar v i w) hVs.1 hIs.2 hVs.2.1 hVs.2.2 hP hb hbw hat1 hEs,
          ((writeProg_frame hbw).inv hIs.2).1⟩,
          ih hwf hn hNb hA (s := RSt.setVar v i s) (w := WSt.setVar v i w) hVs.1 hIs.2 hVs.2.1 hVs.2.2 hP hb hbw hat1 hEs⟩)
      _ ⟨hw, hi, hk⟩ ⟨hat, hww⟩ (ht x y h1) hH1 h2 hw2
    cases h3
    subst hw3
    refine ⟨prs, ?_, ?_, ?_, a4, fun qs2 hq L o o' R S hL => ?_⟩
    · rw [← a1]; split <;> rfl
    · rw [← a2]; split <;> rfl
    · rw [← a3]; split <;> rfl
    · obtain ⟨S1, g1⟩ := a5 qs2 hq L o o' R S hL
      refine ⟨S1, ?_⟩
      have hp : (s.put o R S).stopped = false := stopped_none hk
      have e1 : loopHead c.fuel (s.put o R S).env v e1 e2 = .ok (x, y) := h1
      simp only [readProg, hp, Bool.false_eq_true, if_false, e1, Out.lift]
      dsimp only at g1
      rw [g1]
      simp only [Out.andThen]
      split <;> rfl
  | ite cond look thn els iht ihe =>
    obtain ⟨rfl, hnt, hne⟩ := hn
    have hstop : s.stopped = false := by simp [RSt.stopped, hk]
    have hNc : ∀ n ∈ condNames cond, n ∈ N := fun n hn => hN n (by simp [looked, hn])
    have hNt : ∀ n ∈ looked thn, n ∈ N := fun n hn => hN n (by simp [looked, hn])
    have hNe : ∀ n ∈ looked els, n ∈ N := fun n hn => hN n (by simp [looked, hn])
    have hAt : ∀ n ∈ abbrs thn, n ∈ A := fun n hn => hA n (by simp [abbrs, hn])
    have hAe : ∀ n ∈ abbrs els, n ∈ A := fun n hn => hA n (by simp [abbrs, hn])
    have hgrow := readProg_grow hw hi hk ht h
    simp only [writeProg, bind_ok] at hW
    obtain ⟨t', hc', hW⟩ := hW
    have hcw : evalCond fuel ⟨w.cur, L.map Level.w, s.lv⟩ cond = .ok t' := by
      rw [← hat.wo, ← hat.lv]; exact hc'
    rw [readProg.eq_def] at h
    simp only [hstop, Bool.false_eq_true, if_false, Out.lift_ok] at h
    obtain ⟨t, h1, h2⟩ := h
    have hh : Here A N top s.cur w.cur D L := hat.here hT (hH.before hgrow.1)
    have e1 : evalCond c.fuel ⟨s.cur, L.map Level.d, s.lv⟩ cond = .ok t := by rw [← hat.so]; exact h1
    have e2 : Decided c.fuel ⟨s.cur, L.map Level.d, s.lv⟩ cond := by rw [← hat.so]; exact ht.1
    have := hh.cond hNc e2 e1 hcw
    subst this
    have key : ∀ L o R S, readProg { c with lines := L } (.ite cond none thn els) (s.put o R S) =
        if t then readProg { c with lines := L } thn (s.put o R S) else readProg { c with lines := L } els (s.put o R S) := by
      intro L o R S
      have hp : (s.put o R S).stopped = false := stopped_none hk
      have e1 : evalCond c.fuel (s.put o R S).env cond = .ok t := h1
      rw [readProg.eq_def]
      simp only [hp, Bool.false_eq_true, if_false, e1, Out.lift]
    unfold Redo
    simp only [key]
    cases t with
    | true =>
      exact iht hwf.1 hnt hNt hAt hw hww hi hk (ht.2.1 h1) (by simpa using h2) (by simpa using hW) hat hH
    | false =>
      exact ihe hwf.2 hne hNe hAe hw hww hi hk (ht.2.2 h1) (by simpa using h2) (by simpa using hW) hat hH
  | abbr n e =>
    have hstop : s.stopped = false := by simp [RSt.stopped, hk]
    rw [readProg, hstop] at h
    simp only [Bool.false_eq_true, if_false, Out.lift_ok] at h
    obtain ⟨cur, h1, h2⟩ := h
    cases h2
    simp only [writeProg, bind_ok, pure_ok] at hW
    obtain ⟨curw, hw1, rfl⟩ := hW
    refine ⟨[], by simp, by simp, hk, by simp, fun qs2 hq L o o' R S hL => ?_⟩
    cases hq
    cases hL
    refine ⟨S, ?_⟩
    have hp : (s.put o R S).stopped = false := stopped_none hk
    have e1 : introAbbr (s.put o R S).cur n e = .ok cur := h1
    simp only [readProg, hp, Bool.false_eq_true, if_false, e1, Out.lift, List.append_nil]
    rfl

end Verif
