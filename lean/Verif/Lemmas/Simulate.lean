import Verif.Lemmas.ReadStep
/-
Writing runs along the same path as reading did.
-/
namespace Verif
open Spec

variable [Lit]

/-- the same record if its control numbers are those of the section -/
def Like (k : Ctrl) (r r' : ARec) : Prop :=
  r.ctrl = (if r.kind = .send then { k with mt := 0 } else k) → SameRec r r'

/-- a reading and a writing state at the same point of the recipe; the records so far are related by `Q` -/
structure At (A N : List Name) (Q : ARec → ARec → Prop) (top : DDic) (s : RSt) (w : WSt) (D : DDic) (L : List Level) : Prop where
  out : Outer A N top D L
  lev : Lev A N s.cur w.cur D
  so : s.outer = L.map Level.d
  wo : w.outer = L.map Level.w
  lv : w.lv = s.lv
  recs : List.Forall₂ Q s.recs w.out

theorem At.move {A N : List Name} {Q : ARec → ARec → Prop} {top D : DDic} {s s' : RSt} {w : WSt} {L : List Level}
    (h : At A N Q top s w D L) (hs : SameAbb s.cur s'.cur) (hu : dHas .up s'.cur = dHas .up s.cur)
    (hups : s'.ups = s.ups) (hlv : s'.lv = s.lv) (hr : s'.recs = s.recs) : At A N Q top s' w D L :=
  ⟨h.out, h.lev.sync' hs hu, by rw [RSt.outer, hups]; exact h.so, h.wo, h.lv.trans hlv.symm, hr ▸ h.recs⟩

theorem At.here {A N : List Name} {Q : ARec → ARec → Prop} {top D : DDic} {s : RSt} {w : WSt} {L : List Level} (hT : Top A N top)
    (h : At A N Q top s w D L) (hH : Hold s.cur D) : Here A N top s.cur w.cur D L := ⟨hT, h.out, h.lev, hH⟩

theorem At.cover {A N : List Name} {Q : ARec → ARec → Prop} {top D : DDic} {s : RSt} {w : WSt} {L : List Level}
    (h : At A N Q top s w D L) (hH : Hold s.cur D) : Cover s.cur w.cur := h.lev.cover hH

/-! ## inner dictionaries -/

theorem subDicW_getArr {v : Val} {is : List Int} {d : DDic} (h : subDicW (some v) is = .ok d) :
    getArr v is = .ok (.dic d) := by
  induction is generalizing v with
  | nil =>
    cases v <;> simp only [subDicW, Except.ok.injEq, reduceCtorEq] at h
    subst h; rfl
  | cons i is ih =>
    cases v with
    | dic d' =>
      simp only [subDicW] at h
      cases hg : dGet (Key.idx i) d' with
      | none => rw [hg] at h; simp [subDicW] at h
      | some u =>
        rw [hg] at h
        simp only [getArr, hg]
        exact ih h
    | _ => simp [subDicW] at h

theorem Nested.into {top : DDic} {ch : List DDic} {D : DDic} (h : Nested top ch D) {key : Key} {v : Val} {is : List Int}
    {d : DDic} (hv : dGet key D = some v) (hd : getArr v is = .ok (.dic d)) :
    ∃ ch', Nested top ch' d ∧ ∀ x ∈ D :: ch, x ∈ ch' := by
  induction is generalizing ch D key v with
  | nil =>
    have e : v = .dic d := by cases v <;> simp only [getArr, Except.ok.injEq, reduceCtorEq] at hd <;> rw [hd]
    subst e
    exact ⟨_, .inner h hv, fun _ h => h⟩
  | cons i is ih =>
    cases v with
    | dic d' =>
      simp only [getArr] at hd
      cases hg : dGet (Key.idx i) d' with
      | none => rw [hg] at hd; simp at hd
      | some u =>
        rw [hg] at hd
        obtain ⟨ch', h1, h2⟩ := ih (.inner h hv) hg hd
        exact ⟨ch', h1, fun x hx => h2 x (List.mem_cons_of_mem _ hx)⟩
    | _ => simp [getArr] at hd

theorem openW_ok {s s1 : WSt} {r : VarRef} (h : openW s r = .ok s1) :
    ∃ is d, r.idx.mapM (idxVal s.lv) = .ok is ∧ subDicW (dGet (.var r.name) s.cur) is = .ok d ∧
      s1 = { s with cur := dSet .up .mark d, ups := (s.cur, r.name, is) :: s.ups } := by
  unfold openW at h
  split at h
  · cases h
  simp only [bind_ok, pure_ok] at h
  obtain ⟨is, h1, d, h2, rfl⟩ := h
  exact ⟨is, d, h1, h2, rfl⟩

theorem Lev.fresh {A N : List Name} {d dW : DDic} (hc : Clean (.dic d)) (hcW : Clean (.dic dW)) :
    Lev A N (dSet .up .mark d) (dSet .up .mark dW) dW := by
  have e : ∀ (x : DDic) (n : Name), dGet (.var n) (dSet .up .mark x) = dGet (.var n) x :=
    fun x n => dGet_dSet_ne (by simp) _ _
  have na : ∀ (x : DDic), Clean (.dic x) → ∀ n e', ¬ dGet (.var n) x = some (.abb e') :=
    fun x hx n e' h => clean_get_not_abb hx h e' rfl
  refine ⟨?_, ?_, ?_, ?_, ?_⟩
  · intro n e'; rw [e, e]
    exact ⟨fun h => absurd h (na _ hc _ _), fun h => absurd h (na _ hcW _ _)⟩
  · intro n v hv; rw [e] at hv; exact .inr hv
  · intro n v hv
    refine ⟨by rw [e]; exact hv, ?_⟩
    cases hcW with
    | dic _ h1 h2 h3 => exact h3 _ _ hv
  · intro n e' h; rw [e] at h; exact absurd h (na _ hcW _ _)
  · rw [dHas_some.2 ⟨_, dGet_dSet_self _ _ _⟩, dHas_some.2 ⟨_, dGet_dSet_self _ _ _⟩]

/-- entering a sub-dictionary on both sides -/
theorem At.enter {A N : List Name} {Q : ARec → ARec → Prop} {top D : DDic} {s s1 s2 s3 : RSt} {w w1 : WSt} {L : List Level}
    {r : VarRef} {a : Bool} (hT : Top A N top) (h : At A N Q top s w D L) (hl : Lvl a s.cur)
    (h1 : openR s r = .ok s1) (hu : s2.ups = s1.ups) (hn : DNodup s2.cur) (h3 : closeR s2 = .ok s3)
    (hst : Step s.cur s3.cur) (hH : Hold s3.cur D) (hw : openW w r = .ok w1) :
    ∃ dW, w1.cur = dSet .up .mark dW ∧ Clean (.dic dW) ∧ Hold s2.cur dW ∧ w1.out = w.out ∧
      At A N Q top s1 w1 dW (⟨s.cur, w.cur, D⟩ :: L) := by
  obtain ⟨is, d, hi, hd, rfl⟩ := openR_ok h1
  obtain ⟨is', dW, hi', hd', rfl⟩ := openW_ok hw
  rw [h.lv, hi] at hi'; cases hi'
  obtain ⟨new, hnew, rfl⟩ := closeR_ok hu h3
  have hc : Clean (.dic d) := subDic_clean (fun d' hd' => hl.dic_clean hd') hd
  have hna := setArr_not_abb (by simp) hnew
  obtain ⟨v', hv', hext⟩ := hH r.name new (dGet_dSet_self _ _ _) hna
  obtain ⟨y, hy, hye⟩ := hext.getArr (getArr_setArr_same hnew)
  obtain ⟨hwv, hvc⟩ := h.lev.sub _ _ hv'
  rw [hwv] at hd'
  have hg := subDicW_getArr hd'
  rw [hy] at hg; cases hg
  have hcW : Clean (.dic dW) := getArr_clean hvc hy
  have hHi : Hold s2.cur dW := by
    intro n v hv _
    refine hye.get (k := .var n) ?_
    rw [dGet_dDel hn, if_neg (by simp)]; exact hv
  refine ⟨dW, rfl, hcW, hHi, rfl, ?_, Lev.fresh hc hcW, ?_, ?_, h.lv, h.recs⟩
  · obtain ⟨ch, n1, n2⟩ := h.out.nest
    obtain ⟨ch', n3, n4⟩ := Nested.into n1 hv' hy
    refine ⟨⟨ch', n3, ?_⟩, ?_, ?_, ?_⟩
    · intro x hx
      rcases List.mem_cons.1 hx with rfl | hx
      · exact n4 _ (by simp)
      · exact n4 _ (List.mem_cons_of_mem _ (n2 x hx))
    · intro x hx
      rcases List.mem_cons.1 hx with rfl | hx
      · exact ⟨ch, n1⟩
      · exact h.out.inner x hx
    · intro x hx
      rcases List.mem_cons.1 hx with rfl | hx
      · exact ⟨h.lev, hH.before hst.grow⟩
      · exact h.out.rel x hx
    · exact List.Pairwise.cons (fun x hx n hn hd => h.out.push hT n hn hd x hx) h.out.apart
  · show s.cur :: s.outer = _
    rw [h.so]; rfl
  · show w.cur :: w.outer = _
    rw [h.wo]; rfl

theorem Lev.init {A N : List Name} {d w D : DDic} (h : Lev A N d w D) : Lev A N (initWork d) (initWork w) D := by
  have e : ∀ (x : DDic) (n : Name), dGet (.var n) (initWork x) = dGet (.var n) x := by
    intro x n
    unfold initWork
    rw [dGet_dSet_ne (by simp), dGet_dSet_ne (by simp)]
  refine ⟨?_, ?_, ?_, ?_, ?_⟩
  · intro n e'; rw [e, e]; exact h.sync n e'
  · intro n v; rw [e]; exact h.split n v
  · intro n v hv; rw [e]; exact h.sub n v hv
  · intro n e'; rw [e]; exact h.good n e'
  · rw [initWork_up, initWork_up]; exact h.up

/-! ## records -/

theorem inTable_sim {A N : List Name} {Q : ARec → ARec → Prop} {top D : DDic} {s s' : RSt} {w : WSt} {L : List Level} {a : Bool}
    {c : RCtx} {fuel : Nat} {name : Option VarRef} {es : List Expr} {cols out : List Val} (hs : Strict c.po)
    (hi : s.ignoreAll = false) (hT : Top A N top) (h : At A N Q top s w D L) (hl : Lvl a s.cur)
    (hlen : es.length = cols.length) (hcl : ∀ v ∈ cols, Clean v) (hle : ∀ v ∈ cols, SameVal v v)
    (hr : inTable name s (mapFields c es cols) = .ok s') (hH : Hold s'.cur D)
    (hw : inTableW name w (fun s1 => mapWrite fuel s1.env es) = .ok out) : List.Forall₂ SameVal cols out := by
  cases name with
  | none =>
    simp only [inTable, inTableW] at hr hw
    obtain ⟨cur, hm, rfl⟩ := mapFields_ok hr
    obtain ⟨g1, g2⟩ := mapRead_again (strict_po hs) hi hle hlen hm
    have hat : At A N Q top { s with cur := cur } w D L :=
      h.move g1.abb ((mapRead_lvl hcl hl hm).2) rfl rfl rfl
    refine g2 fuel w.cur w.outer out (hat.cover hH) ?_
    have : (⟨w.cur, w.outer, s.lv⟩ : Env) = w.env := by rw [← h.lv]; rfl
    rw [this]; exact hw
  | some r =>
    simp only [inTable, Out.lift_ok, Out.andThen_ok] at hr
    obtain ⟨s1, h1, s2, h2, s3, h3, h4⟩ := hr
    cases h4
    simp only [inTableW, bind_ok] at hw
    obtain ⟨w1, hw1, hw⟩ := hw
    have h1' := h1
    obtain ⟨is, d, hi', hd, rfl⟩ := openR_ok h1'
    have hc : Clean (.dic d) := subDic_clean (fun d' hd' => hl.dic_clean hd') hd
    have hl1 : Lvl false (dSet .up .mark d) := (Lvl.of_clean hc).set_up _
    have hf := mapFields_frame (a := false) hcl h2
    obtain ⟨cur, hm, rfl⟩ := mapFields_ok h2
    obtain ⟨g1, g2⟩ := mapRead_again (strict_po hs) hi hle hlen hm
    have hst := openClose_step hl h1 hf g1 h3
    obtain ⟨dW, e1, e2, e3, e4, hat⟩ := h.enter hT hl h1 (hf.ups) (hf.lvl hl1).1.nodup h3 hst hH hw1
    have hat2 := hat.move (s' := { ({ s with cur := dSet .up .mark d, ups := (s.cur, r.name, is) :: s.ups } : RSt) with cur := cur })
      g1.abb (mapRead_lvl hcl hl1 hm).2 rfl rfl rfl
    refine g2 fuel w1.cur w1.outer out (hat2.cover e3) ?_
    have : (⟨w1.cur, w1.outer, s.lv⟩ : Env) = w1.env := by rw [WSt.env, hat.lv]
    rw [this]; exact hw

theorem getVarval_up {w : DDic} {ups : List DDic} {lv : Dict Name Int} {r : VarRef} {v : Val}
    (h : getVarval ⟨w, ups, lv⟩ false r = .ok v) (hl : dGet r.name lv = none) : getVarval ⟨w, ups, lv⟩ true r = .ok v := by
  rw [getVarval_local] at h
  have hf : dHas r.name lv = false := dHas_none.2 hl
  simp only [hf, Bool.and_false, Bool.false_eq_true, if_false, hl] at h
  unfold getVarval
  simp only [hf, Bool.and_false, Bool.false_eq_true, if_false, hl]
  cases hg : dGet (.var r.name) w with
  | none => rw [hg] at h; cases h
  | some u =>
    have hh : dHas (.var r.name) w = true := dHas_some.2 ⟨u, hg⟩
    have : findScope true r.name w ups = some w := by
      cases ups with
      | nil => rw [findScope, if_pos hh]
      | cons => rw [findScope, if_pos hh]
    rw [this]
    rw [hg] at h
    simp only [hg]
    exact h

theorem slice_append {l : Str} {i j : Nat} (h : i ≤ j) : slice l i j ++ l.drop j = l.drop i := by
  unfold slice
  have e : l.drop j = (l.drop i).drop (j - i) := by rw [List.drop_drop]; congr 1; omega
  rw [List.drop_take, e, List.take_append_drop]

theorem mapTextRead_again {lv : Dict Name Int} {full : Str} {fs : List TextField} {pos : Nat} {cur cur' : DDic}
    (ht : TextOk lv full fs pos cur) (h : mapTextRead lv full fs pos cur = .ok cur') {fuel : Nat} {w : DDic}
    {ups : List DDic} (hc : Cover cur' w) {t : Str} (hw : mapTextWrite fuel ⟨w, ups, lv⟩ fs = .ok t) : t = full.drop pos := by
  induction fs generalizing pos cur t with
  | nil =>
    simp only [mapTextWrite, Except.ok.injEq] at hw; subst hw
    rw [List.drop_eq_nil_of_le ht]
  | cons f fs ih =>
    simp only [mapTextRead] at h
    simp only [TextOk] at ht
    simp only [mapTextWrite, bind_ok, pure_ok] at hw
    obtain ⟨t1, hw1, t2, hw2, rfl⟩ := hw
    have key : ∀ upper : Nat,
        (if upper ≤ pos then (.error .sizeMismatch : Res DDic) else
          match f.ref with
          | none => mapTextRead lv full fs upper cur
          | some r => match setVarval cur lv r (.txt (slice full pos upper)) with
            | .error e => .error e
            | .ok cur' => mapTextRead lv full fs upper cur') = .ok cur' →
        (match f.ref with
          | none => slice full pos upper = List.replicate (upper - pos) ' ' ∧ TextOk lv full fs upper cur
          | some r => NoValue cur lv r ∧ ∀ cur', setVarval cur lv r (.txt (slice full pos upper)) = .ok cur' →
              TextOk lv full fs upper cur') →
        (∀ n, f.len = some n → upper = pos + n) → t1 ++ t2 = full.drop pos := by
      intro upper h ht hup
      split at h
      · cases h
      · rename_i hlt
        rw [← slice_append (l := full) (i := pos) (j := upper) (by omega)]
        cases hr : f.ref with
        | none =>
          rw [hr] at h ht
          rw [textPart, hr] at hw1
          rw [ih ht.2 h hw2, ht.1]
          cases hl : f.len with
          | none => rw [hl] at hw1; cases hw1
          | some n =>
            rw [hl] at hw1; cases hw1
            rw [hup n hl, Nat.add_sub_cancel_left]
        | some r =>
          rw [hr] at h ht
          rw [textPart, hr] at hw1
          dsimp only at h ht hw1
          split at h
          · cases h
          · rename_i cur1 h1
            rw [ih (ht.2 _ h1) h hw2]
            have hst := mapTextRead_step (ht.2 _ h1) h
            have hm : dGet r.name lv = none := by
              rcases ht.1 with hn | hn
              · exact (missing_local hn rfl).1
              · exact (missing_local hn rfl).1
            have hg : getVarval ⟨cur1, ups, lv⟩ false r = .ok (.txt (slice full pos upper)) :=
              setVarval_same h1 ⟨rfl, rfl⟩ hm
            obtain ⟨v', hv', he⟩ := (Cover.before hst hc).found (ups' := ups) hm hg
            have : v' = .txt (slice full pos upper) := by cases he; rfl
            subst this
            have hv2 := getVarval_up hv' hm
            simp only [getVarvalFull, hv2, bind, Except.bind, pure, Except.pure] at hw1
            congr 1
            cases hl : f.len with
            | none => rw [hl] at hw1; cases hw1; rfl
            | some n =>
              rw [hl] at hw1
              dsimp only at hw1
              split at hw1
              · cases hw1
              · cases hw1; rfl
    cases hl : f.len with
    | none => 
      rw [hl] at h ht
      refine key _ h ?_ (by simp [hl])
      cases hr : f.ref with
      | none => rw [hr] at ht; exact ht
      | some r => rw [hr] at ht; exact ht
    | some n =>
      rw [hl] at h ht
      refine key _ h ?_ (by simp [hl])
      cases hr : f.ref with
      | none => rw [hr] at ht; exact ht
      | some r => rw [hr] at ht; exact ht

/-! ## loops -/

theorem iterate_sim {σ τ : Type} {setR : Int → σ → σ} {bodyR : σ → Out σ} {setW : Int → τ → τ} {bodyW : τ → Res τ}
    {V : σ → Prop} {I : σ → τ → Prop} {E : σ → Prop} {P : σ → Prop}
    (hE : ∀ i s s1, V s → P (setR i s) → bodyR (setR i s) = .ok s1 → (E s1 → E s) ∧ V s1)
    (hI : ∀ i s w s1 w1, V s → I s w → P (setR i s) → E s1 → bodyR (setR i s) = .ok s1 → bodyW (setW i w) = .ok w1 → I s1 w1)
    (is : List Int) {s s' : σ} {w w' : τ} (hV : V s) (h : I s w) (hP : AllIter setR bodyR P is s) (he : E s')
    (hr : iterate setR bodyR is s = .ok s') (hw : iterateW setW bodyW is w = .ok w') : I s' w' := by
  induction is generalizing s w with
  | nil => cases hr; cases hw; exact h
  | cons i is ih =>
    rw [iterate, Out.andThen_ok] at hr
    rw [iterateW, bind_ok] at hw
    obtain ⟨s1, h1, h2⟩ := hr
    obtain ⟨w1, h3, h4⟩ := hw
    have g := (hE i s s1 hV hP.1 h1).2
    have e1 : E s1 := (iterate_all (R := fun s s' => E s' → E s) (I := V) (fun _ h => h) (fun h1 h2 h => h1 (h2 h))
      hE is g (hP.2 _ h1) h2).1 he
    exact ih g (hI i s w s1 w1 hV h hP.1 e1 h1 h3) (hP.2 _ h1) h2 h4

/-! ## list bodies -/

/-- a list body read and written up to the same position -/
structure LAt (A N : List Name) (vals : List PyNum) (l : LSt) (w : WSt) (wl : WLSt) (D : DDic) (L : List Level) : Prop where
  lev : Lev A N l.st.cur w.cur D
  so : l.st.outer = L.map Level.d
  lv : wl.lv = l.st.lv
  pos : l.pos = wl.vals.length
  vals : wl.vals.map PyNum.val = (vals.take l.pos).map PyNum.val

theorem take_pad {vals : List PyNum} {pos n : Nat} (hn : pos + n ≤ vals.length)
    (h0 : ∀ j v, pos ≤ j → j < pos + n → vals[j]? = some v → v.val = 0) :
    (vals.take (pos + n)).map PyNum.val = (vals.take pos).map PyNum.val ++ List.replicate n 0 := by
  rw [List.take_add, List.map_append]
  congr 1
  rw [List.eq_replicate_iff]
  constructor
  · simp; omega
  · intro x hx
    obtain ⟨v, hv, rfl⟩ := List.mem_map.1 hx
    obtain ⟨j, hj⟩ := List.mem_iff_getElem?.1 hv
    rw [List.getElem?_take] at hj
    split at hj
    · rw [List.getElem?_drop] at hj
      exact h0 (pos + j) v (by omega) (by omega) hj
    · cases hj

theorem body_sim {A N : List Name} {top D : DDic} {L : List Level} {c : RCtx} {fuel : Nat} {w : WSt}
    (hs : Strict c.po) (hT : Top A N top) (ho : Outer A N top D L) (hwo : w.outer = L.map Level.w) {vals : List PyNum}
    {b : LBody} (hN : ∀ n ∈ bodyNames b, n ∈ N) {l l' : LSt} {wl wl' : WLSt} {a : Bool} (hl : Lvl a l.st.cur)
    (hi : l.st.ignoreAll = false) (ht : TidyBody c vals b l) (h : readBody c vals b l = .ok l')
    (hw : writeBody fuel w b wl = .ok wl') (hat : LAt A N vals l w wl D L) (hH : Hold l'.st.cur D) :
    LAt A N vals l' w wl' D L := by
  induction b generalizing l l' wl wl' with
  | nil => cases h; cases hw; exact hat
  | seq b1 b2 ih1 ih2 =>
    rw [readBody, Out.andThen_ok] at h
    obtain ⟨l1, h1, h2⟩ := h
    rw [writeBody, bind_ok] at hw
    obtain ⟨wl1, hw1, hw2⟩ := hw
    have hf := readBody_frame (a := a) h1
    have hst := readBody_step (hf.ign.trans hi) h2
    have := ih1 (fun n hn => hN n (List.mem_append_left _ hn)) hl hi ht.1 h1 hw1 hat (hH.before hst.grow)
    exact ih2 (fun n hn => hN n (List.mem_append_right _ hn)) (hf.lvl hl).1 (hf.ign.trans hi) (ht.2 _ h1) h2 hw2 this hH
  | expr e =>
    rw [readBody] at h
    split at h
    · cases h
    · rename_i v hv
      rw [Out.lift_ok] at h
      obtain ⟨cur, h1, h2⟩ := h
      cases h2
      obtain ⟨g1, g2⟩ := mapRead_again (strict_po hs) hi (by simp [SameVal]) rfl h1
      have hup := (mapRead_lvl (a := a) (by simpa using Clean.num v) hl h1).2
      have hlev : Lev A N cur w.cur D := hat.lev.sync' g1.abb hup
      simp only [writeBody, bind_ok, pure_ok] at hw
      obtain ⟨v', hv', x, hx, rfl⟩ := hw
      have hm : mapWrite fuel ⟨w.cur, w.outer, l.st.lv⟩ [e] = .ok [v'] := by
        unfold mapWrite
        rw [← hat.lv]
        simp only [List.mapM_cons, hv', List.mapM_nil, bind, Except.bind, pure, Except.pure]
      have hsv := g2 fuel w.cur w.outer _ (hlev.cover hH) hm
      rw [List.forall₂_cons] at hsv
      refine ⟨hlev, hat.so, hat.lv, ?_, ?_⟩
      · simp [hat.pos]
      · rw [List.map_append, hat.vals]
        dsimp only
        rw [List.take_add_one, hv, List.map_append]
        congr 1
        cases v' <;> simp only [SameVal, false_and] at hsv
        simp only [Val.scalar, Except.ok.injEq] at hx
        subst hx
        simp [hsv.1]
  | pad =>
    rw [readBody] at h
    cases h
    simp only [writeBody, Except.ok.injEq] at hw
    subst hw
    refine ⟨hat.lev, hat.so, hat.lv, ?_, ?_⟩
    · simp [hat.pos]
    · rw [List.map_append, hat.vals]
      dsimp only
      rw [take_pad ht.1 ht.2, ← hat.pos]
      congr 1
      rw [List.map_replicate]
      rfl
  | loop v e1 e2 body ih =>
    rw [readBody, Out.lift_ok] at h
    obtain ⟨⟨x, y⟩, h1, h2⟩ := h
    rw [Out.andThen_ok] at h2
    obtain ⟨l1, h2, h3⟩ := h2
    simp only [writeBody, bind_ok, pure_ok] at hw
    obtain ⟨⟨x', y'⟩, hw1, wl1, hw2, hw3⟩ := hw
    have hH1 : Hold l1.st.cur D := by
      cases h3
      split at hH
      · exact hH
      · exact hH
    have hV : ∀ i (s s1 : LSt), (Lvl a s.st.cur ∧ s.st.ignoreAll = false) → TidyBody c vals body (LSt.setVar v i s) →
        readBody c vals body (LSt.setVar v i s) = .ok s1 →
        (Hold s1.st.cur D → Hold s.st.cur D) ∧ (Lvl a s1.st.cur ∧ s1.st.ignoreAll = false) := by
      intro i s s1 hs1 _ hb
      have hf := readBody_frame (a := a) hb
      have hst := readBody_step (l := LSt.setVar v i s) hs1.2 hb
      exact ⟨fun hh => hh.before hst.grow, (hf.lvl hs1.1).1, hf.ign.trans hs1.2⟩
    have hH0 : Hold l.st.cur D := by
      have := iterate_frame (R := fun l l' : LSt => l.st.ignoreAll = false → Step l.st.cur l'.st.cur ∧ l'.st.ignoreAll = false)
        (fun s hi => ⟨.refl _, hi⟩)
        (fun h1 h2 hi => ⟨(h1 hi).1.trans (h2 (h1 hi).2).1, (h2 (h1 hi).2).2⟩)
        (fun i s s' hs' hi => ⟨readBody_step (l := LSt.setVar v i s) hi hs', (readBody_frame (a := false) hs').ign.trans hi⟩) _ h2 hi
      exact hH1.before this.1.grow
    have hh : Here A N top l.st.cur w.cur D L := ⟨hT, ho, hat.lev, hH0⟩
    have h1' : loopHead c.fuel ⟨l.st.cur, L.map Level.d, l.st.lv⟩ v e1 e2 = .ok (x, y) := by
      rw [← hat.so]; exact h1
    rw [hwo, hat.lv] at hw1
    have hxy := hh.loopHead (fun n hn => hN n (by simp [bodyNames, hn])) (fun n hn => hN n (by simp [bodyNames, hn])) h1' hw1
    obtain ⟨rfl, rfl⟩ := hxy
    have := iterate_sim (V := fun s : LSt => Lvl a s.st.cur ∧ s.st.ignoreAll = false)
      (I := fun s wl => LAt A N vals s w wl D L) (E := fun s => Hold s.st.cur D) (P := TidyBody c vals body) hV
      (fun i s wl s1 wl1 hVs hIs hP hEs hb hbw => by
        refine ih (l := LSt.setVar v i s) (wl := WLSt.setVar v i wl) (fun n hn => hN n (by simp [bodyNames, hn]))
          hVs.1 hVs.2 hP hb hbw ⟨hIs.lev, hIs.so, ?_, hIs.pos, hIs.vals⟩ hEs
        simp only [LSt.setVar, WLSt.setVar, hIs.lv]) _ ⟨hl, hi⟩ hat (ht x y h1) hH1 h2 hw2
    cases h3
    subst hw3
    dsimp only
    split
    · exact ⟨this.lev, this.so, by simp only [this.lv], this.pos, this.vals⟩
    · exact this

end Verif
