import Verif.Lemmas.Levels
/-
Reading only adds to the dictionary.
-/
namespace Verif
open Spec

variable [Lit]

theorem contVals_leaf (r : ContRec) : ∀ v ∈ r.vals, SameVal v v := by
  intro v hv
  simp only [ContRec.vals, List.mem_cons, List.not_mem_nil, or_false] at hv
  have hs : ∀ s : Slot, SameVal s.toVal s.toVal := fun s => by cases s <;> exact rfl
  rcases hv with rfl | rfl | rfl | rfl | rfl | rfl
  · exact rfl
  · exact rfl
  all_goals exact hs _

theorem mapFields_ok {c : RCtx} {es : List Expr} {vals : List Val} {s s' : RSt} (h : mapFields c es vals s = .ok s') :
    ∃ cur, mapRead c.fuel (s.po c) s.outer s.lv es vals s.cur = .ok cur ∧ s' = { s with cur := cur } := by
  unfold mapFields at h
  rw [Out.lift_ok] at h
  obtain ⟨cur, h1, h2⟩ := h
  cases h2
  exact ⟨cur, h1, rfl⟩

theorem strict_po {c : RCtx} {s : RSt} (hs : Strict c.po) : Strict (s.po c) := hs

theorem mapRead_step {fuel : Nat} {po : POpts} {ups : List DDic}
    {lv : Dict Name Int} {es : List Expr} {vals : List Val} (hv : ∀ v ∈ vals, SameVal v v)
    {cur cur' : DDic} (h : mapRead fuel po ups lv es vals cur = .ok cur') : Step cur cur' :=
  mapTries_step (fun p hp => hv p.2 (List.of_mem_zip hp).2) 3 h

theorem mapFields_step {c : RCtx} {es : List Expr} {vals : List Val} {s s' : RSt}
    (hi : s.ignoreAll = false) (hv : ∀ v ∈ vals, SameVal v v) (h : mapFields c es vals s = .ok s') : Step s.cur s'.cur := by
  obtain ⟨cur, h1, rfl⟩ := mapFields_ok h
  exact mapRead_step hv h1

theorem setVarval_noValue {cur cur' : DDic} {lv : Dict Name Int} {r : VarRef} {w : Val} (hn : NoValue cur lv r)
    (hw : ∀ e, w ≠ .abb e) (h : setVarval cur lv r w = .ok cur') : Step cur cur' := by
  rcases hn with hn | hn
  · exact setVarval_step h hn rfl hw
  · exact setVarval_step h hn rfl hw

theorem mapTextRead_step {lv : Dict Name Int} {full : Str} {fs : List TextField} {pos : Nat} {cur cur' : DDic}
    (ht : TextOk lv full fs pos cur) (h : mapTextRead lv full fs pos cur = .ok cur') : Step cur cur' := by
  induction fs generalizing pos cur with
  | nil => simp only [mapTextRead, Except.ok.injEq] at h; subst h; exact .refl _
  | cons f fs ih =>
    simp only [mapTextRead] at h
    simp only [TextOk] at ht
    have key : ∀ upper : Nat,
        (if upper ≤ pos then (.error .sizeMismatch : Res DDic) else
          match f.ref with
          | none => mapTextRead lv full fs upper cur
          | some r => match setVarval cur lv r (.txt (slice full pos upper)) with
            | .error e => .error e
            | .ok cur' => mapTextRead lv full fs upper cur') = .ok cur' →
        (match f.ref with
          | none => TextOk lv full fs upper cur
          | some r => NoValue cur lv r ∧ ∀ cur', setVarval cur lv r (.txt (slice full pos upper)) = .ok cur' →
              TextOk lv full fs upper cur') → Step cur cur' := by
      intro upper h ht
      split at h
      · cases h
      · cases hr : f.ref with
        | none =>
          rw [hr] at h ht
          exact ih ht h
        | some r =>
          rw [hr] at h ht
          dsimp only at h ht
          split at h
          · cases h
          · rename_i cur1 h1
            exact (setVarval_noValue ht.1 (by simp) h1).trans (ih (ht.2 _ h1) h)
    cases hl : f.len with
    | none =>
      rw [hl] at h ht
      refine key _ h ?_
      cases hr : f.ref with
      | none => rw [hr] at ht; exact ht.2
      | some r => rw [hr] at ht; exact ht
    | some n =>
      rw [hl] at h ht
      refine key _ h ?_
      cases hr : f.ref with
      | none => rw [hr] at ht; exact ht.2
      | some r => rw [hr] at ht; exact ht

theorem setCtrl_step {k : Ctrl} {cur : DDic} (h : CtrlFree k cur) : Step cur (setCtrl k cur) := by
  obtain ⟨h1, h2, h3⟩ := h
  unfold setCtrl
  have s1 : Step cur (dSet (.var "MAT") (.num (.int k.mat)) cur) := by
    refine Step.set (by simp) ?_
    intro u hu
    rw [h1 u hu]; exact .refl _
  have s2 : Step (dSet (.var "MAT") (.num (.int k.mat)) cur)
      (dSet (.var "MF") (.num (.int k.mf)) (dSet (.var "MAT") (.num (.int k.mat)) cur)) := by
    refine Step.set (by simp) ?_
    intro u hu
    rw [dGet_dSet_ne (by simp)] at hu
    rw [h2 u hu]; exact .refl _
  refine (s1.trans s2).trans (Step.set (by simp) ?_)
  intro u hu
  rw [dGet_dSet_ne (by simp), dGet_dSet_ne (by simp)] at hu
  rw [h3 u hu]; exact .refl _

/-! ## opening and closing -/

theorem setArr_subDic_ext {o : Option Val} {is : List Int} {d : DDic} {nd new : Val} (h : subDic o is = .ok d)
    (he : Ext (.dic d) nd) (hs : setArr o is nd = .ok new) : ∀ u, o = some u → Ext u new := by
  induction is generalizing o new with
  | nil =>
    intro u hu; subst hu
    cases u <;> simp only [subDic, Except.ok.injEq, reduceCtorEq] at h
    subst h
    simp only [setArr, Except.ok.injEq] at hs; subst hs; exact he
  | cons i is ih =>
    intro u hu; subst hu
    cases u with
    | dic d' =>
      simp only [subDic] at h
      simp only [setArr, bind_ok, pure_ok] at hs
      obtain ⟨n1, hn1, rfl⟩ := hs
      refine .of_get fun k u hu => ?_
      by_cases hk : Key.idx i = k
      · subst hk
        rw [dGet_dSet_self]
        exact ⟨_, rfl, ih h hn1 u hu⟩
      · rw [dGet_dSet_ne hk]
        exact ⟨u, hu, .refl _⟩
    | _ => simp [subDic] at h

theorem openR_ok {s s1 : RSt} {r : VarRef} (h : openR s r = .ok s1) :
    ∃ is d, r.idx.mapM (idxVal s.lv) = .ok is ∧ subDic (dGet (.var r.name) s.cur) is = .ok d ∧
      s1 = { s with cur := dSet .up .mark d, ups := (s.cur, r.name, is) :: s.ups } := by
  unfold openR at h
  simp only [bind_ok, pure_ok] at h
  obtain ⟨is, h1, d, h2, rfl⟩ := h
  exact ⟨is, d, h1, h2, rfl⟩

theorem closeR_ok {s s' : RSt} {o : DDic} {n : Name} {is : List Int} {us : List (DDic × Name × List Int)}
    (hu : s.ups = (o, n, is) :: us) (h : closeR s = .ok s') :
    ∃ new, setArr (dGet (.var n) o) is (.dic (dDel .up s.cur)) = .ok new ∧
      s' = { s with cur := dSet (.var n) new o, ups := us } := by
  unfold closeR at h
  rw [hu] at h
  simp only [bind_ok, pure_ok] at h
  obtain ⟨new, h1, rfl⟩ := h
  exact ⟨new, h1, rfl⟩

theorem ext_clean {d cur : DDic} (hd : Clean (.dic d)) (hn : DNodup cur)
    (h : ∀ k v, k.data = true → dGet k d = some v → ∃ v', dGet k cur = some v' ∧ Ext v v') :
    Ext (.dic d) (.dic (dDel .up cur)) := by
  cases hd with
  | dic _ h1 h2 h3 =>
    refine .of_get fun k u hu => ?_
    have hk : k.data = true ∧ k ≠ .up := by
      have := h2 k u hu
      unfold Key.Internal at this
      cases k <;> simp_all [Key.data]
    obtain ⟨v', hv', he⟩ := h k u hk.1 hu
    refine ⟨v', ?_, he⟩
    rw [dGet_dDel hn, if_neg (by simpa using hk.2.symm)]; exact hv'

/-- closing a sub-dictionary that only got additions -/
theorem close_step {s : RSt} {n : Name} {is : List Int} {d cur : DDic} {new : Val}
    (hd : subDic (dGet (.var n) s.cur) is = .ok d) (hc : Clean (.dic d)) (hn : DNodup cur)
    (h : ∀ k v, k.data = true → dGet k d = some v → ∃ v', dGet k cur = some v' ∧ Ext v v')
    (hs : setArr (dGet (.var n) s.cur) is (.dic (dDel .up cur)) = .ok new) :
    Step s.cur (dSet (.var n) new s.cur) :=
  Step.set (setArr_not_abb (by simp) hs) (setArr_subDic_ext hd (ext_clean hc hn h) hs)

theorem clean_get_not_abb {d : DDic} (hd : Clean (.dic d)) {k : Key} {v : Val} (h : dGet k d = some v) (e : Expr) :
    v ≠ .abb e := by
  cases hd with
  | dic _ h1 h2 h3 => exact (h3 k v h).not_abb e

theorem grow_up {d cur : DDic} (hd : Clean (.dic d)) (h : Grow (dSet .up .mark d) cur) :
    ∀ k v, k.data = true → dGet k d = some v → ∃ v', dGet k cur = some v' ∧ Ext v v' := by
  intro k v hk hv
  refine h k v hk (clean_get_not_abb hd hv) ?_
  rw [dGet_dSet_ne (by cases k <;> simp_all [Key.data])]; exact hv

theorem grow_init {d cur : DDic} (hd : Clean (.dic d)) (h : Grow (initWork (dSet .up .mark d)) cur) :
    ∀ k v, k.data = true → dGet k d = some v → ∃ v', dGet k cur = some v' ∧ Ext v v' := by
  intro k v hk hv
  refine h k v hk (clean_get_not_abb hd hv) ?_
  unfold initWork
  rw [dGet_dSet_ne (by cases k <;> simp_all [Key.data]), dGet_dSet_ne (by cases k <;> simp_all [Key.data]),
    dGet_dSet_ne (by cases k <;> simp_all [Key.data])]
  exact hv

theorem openClose_step {a : Bool} {c : RCtx} {s s1 s2 s3 : RSt} {r : VarRef} (hl : Lvl a s.cur) (h1 : openR s r = .ok s1)
    (hf : Frame false c s1 s2) (hst : Step s1.cur s2.cur) (h3 : closeR s2 = .ok s3) : Step s.cur s3.cur := by
  obtain ⟨is, d, hi, hd, rfl⟩ := openR_ok h1
  obtain ⟨new, hn, rfl⟩ := closeR_ok hf.ups h3
  have hc : Clean (.dic d) := subDic_clean (fun d' hd' => hl.dic_clean hd') hd
  have hl1 : Lvl false (dSet .up .mark d) := (Lvl.of_clean hc).set_up _
  exact close_step hd hc (hf.lvl hl1).1.nodup (grow_up hc hst.grow) hn

theorem inTable_step {a : Bool} {c : RCtx} {s s' : RSt} {name : Option VarRef} {f : RSt → Out RSt} (hl : Lvl a s.cur)
    (hf : ∀ (a : Bool) (s s' : RSt), f s = .ok s' → Frame a c s s')
    (hst : ∀ s1 s2, s1.ignoreAll = s.ignoreAll → f s1 = .ok s2 → Step s1.cur s2.cur) (h : inTable name s f = .ok s') : Step s.cur s'.cur := by
  unfold inTable at h
  split at h
  · exact hst _ _ rfl h
  · simp only [Out.lift_ok, Out.andThen_ok] at h
    obtain ⟨s1, h1, s2, h2, s3, h3, h4⟩ := h
    cases h4
    have hi : s1.ignoreAll = s.ignoreAll := by
      obtain ⟨_, _, _, _, rfl⟩ := openR_ok h1; rfl
    exact openClose_step hl h1 (hf false _ _ h2) (hst _ _ hi h2) h3

/-! ## list bodies -/

theorem iterate_all {σ : Type} {R : σ → σ → Prop} {I : σ → Prop} (hr : ∀ s, R s s) (ht : ∀ {a b d}, R a b → R b d → R a d)
    {setVar : Int → σ → σ} {body : σ → Out σ} {P : σ → Prop}
    (hb : ∀ i s s', I s → P (setVar i s) → body (setVar i s) = .ok s' → R s s' ∧ I s')
    (is : List Int) {s s' : σ} (hI : I s) (hP : AllIter setVar body P is s) (h : iterate setVar body is s = .ok s') :
    R s s' ∧ I s' := by
  induction is generalizing s with
  | nil => cases h; exact ⟨hr _, hI⟩
  | cons i is ih =>
    rw [iterate, Out.andThen_ok] at h
    obtain ⟨s1, h1, h2⟩ := h
    obtain ⟨g1, g2⟩ := hb _ _ _ hI hP.1 h1
    obtain ⟨g3, g4⟩ := ih g2 (hP.2 _ h1) h2
    exact ⟨ht g1 g3, g4⟩

theorem readBody_step {c : RCtx} {vals : List PyNum} {b : LBody} {l l' : LSt}
    (hi : l.st.ignoreAll = false) (h : readBody c vals b l = .ok l') : Step l.st.cur l'.st.cur := by
  induction b generalizing l l' with
  | nil => cases h; exact .refl _
  | seq a b ih1 ih2 =>
    rw [readBody, Out.andThen_ok] at h
    obtain ⟨l1, h1, h2⟩ := h
    have hf := readBody_frame (a := false) h1
    exact (ih1 hi h1).trans (ih2 (hf.ign.trans hi) h2)
  | expr e =>
    rw [readBody] at h
    split at h
    · cases h
    · rw [Out.lift_ok] at h
      obtain ⟨cur, h1, h2⟩ := h
      cases h2
      exact mapRead_step (by simp [SameVal]) h1
  | pad => rw [readBody] at h; cases h; exact .refl _
  | loop v e1 e2 body ih =>
    rw [readBody, Out.lift_ok] at h
    obtain ⟨⟨x, y⟩, h1, h2⟩ := h
    rw [Out.andThen_ok] at h2
    obtain ⟨l1, h2, h3⟩ := h2
    have := iterate_frame (R := fun l l' : LSt => l.st.ignoreAll = false → Step l.st.cur l'.st.cur ∧ l'.st.ignoreAll = false)
      (fun s hi => ⟨.refl _, hi⟩)
      (fun h1 h2 hi => ⟨(h1 hi).1.trans (h2 (h1 hi).2).1, (h2 (h1 hi).2).2⟩)
      (fun i s s' hs' hi => ⟨ih (l := LSt.setVar v i s) hi hs', (readBody_frame (a := false) hs').ign.trans hi⟩) _ h2 hi
    cases h3
    split
    · exact this.1
    · exact this.1

theorem readNamedBody_step {a : Bool} {c : RCtx} {vals : List PyNum} {b : LBody} {name : Option VarRef}
    {s : RSt} {l' : LSt} (hl : Lvl a s.cur) (hi : s.ignoreAll = false) (h : readNamedBody c vals b name s = .ok l') :
    Step s.cur l'.st.cur := by
  unfold readNamedBody at h
  split at h
  · exact readBody_step hi h
  · simp only [Out.lift_ok, Out.andThen_ok] at h
    obtain ⟨s1, h1, l2, h2, s3, h3, h4⟩ := h
    cases h4
    have hi1 : s1.ignoreAll = false := by
      obtain ⟨_, _, _, _, rfl⟩ := openR_ok h1; exact hi
    exact openClose_step hl h1 (readBody_frame h2) (readBody_step hi1 h2) h3

/-! ## records -/

theorem proceed_none {s : RSt} (h : s.look = none) : s.proceed = some s := by
  unfold RSt.proceed; rw [h]

theorem cols_leaf (l : List (List PyNum)) : ∀ v ∈ l.map Val.lst, SameVal v v := by
  intro v hv
  rw [List.mem_map] at hv
  obtain ⟨x, _, rfl⟩ := hv
  exact rfl

theorem leaf_take {l : List Val} (h : ∀ v ∈ l, SameVal v v) (n : Nat) : ∀ v ∈ l.take n, SameVal v v :=
  fun v hv => h v (List.mem_of_mem_take hv)

theorem takeRec_next {α : Type} {c : RCtx} {s s' : RSt} {rd : List Str → Nat → Res (α × Nat)} {f : α → RSt → Out RSt}
    (h : takeRec c s rd f = .ok s') : ∃ r s1, Next c s rd r s1 ∧ f r s1 = .ok s' ∧
      s1.cur = s.cur ∧ s1.lv = s.lv ∧ s1.ups = s.ups ∧ s1.ignoreAll = s.ignoreAll ∧ s1.look = s.look ∧ s1.recs = s.recs := by
  obtain ⟨ofs, r, ofs', h1, h2, h3⟩ := takeRec_ok h
  exact ⟨r, _, ⟨ofs, ofs', h1, h2, rfl⟩, h3, rfl, rfl, rfl, rfl, rfl, rfl⟩

theorem readAct_step {a : Bool} {c : RCtx} {act : Act} {s s' : RSt} (hl : Lvl a s.cur)
    (hi : s.ignoreAll = false) (hk : s.look = none) (ht : TidyAct c act s) (h : readAct c act s = .ok s') :
    Step s.cur s'.cur := by
  cases act with
  | text k fs =>
    rw [readAct] at h
    obtain ⟨r, s1, hn, h, e1, e2, -⟩ := takeRec_next h
    simp only [Out.lift_ok] at h
    obtain ⟨_, _, cur, h1, h2⟩ := h
    unfold logRec at h2; cases h2
    obtain ⟨t1, t2⟩ := ht r s1 hn
    rw [e1, e2] at h1
    exact (mapTextRead_step t1 h1).trans (setCtrl_step (t2 _ h1))
  | cont isHead k fs =>
    rw [readAct] at h
    obtain ⟨r, s1, hn, h, e1, e2, e3, e4, -⟩ := takeRec_next h
    simp only [Out.lift_ok, Out.andThen_ok] at h
    obtain ⟨_, _, s2, h1, h2⟩ := h
    have hst := mapFields_step (e4.trans hi) (contVals_leaf r) h1
    rw [e1] at hst
    unfold logRec at h2; cases h2
    cases isHead with
    | false => exact hst
    | true => exact hst.trans (setCtrl_step (ht r s1 hn s2 h1))
  | dir k fs =>
    rw [readAct] at h
    obtain ⟨r, s1, hn, h, e1, e2, e3, e4, -⟩ := takeRec_next h
    simp only [Out.lift_ok, Out.andThen_ok] at h
    obtain ⟨_, _, s2, h1, h2⟩ := h
    have hst := mapFields_step (e4.trans hi) (by simp [SameVal]) h1
    rw [e1] at hst
    unfold logRec at h2; cases h2
    exact hst
  | intg k fs nd =>
    rw [readAct] at h
    rw [Out.lift_ok] at h
    obtain ⟨n, hnd, h⟩ := h
    split at h
    · obtain ⟨r, s1, hn, h, e1, e2, e3, e4, -⟩ := takeRec_next h
      simp only [Out.lift_ok, Out.andThen_ok] at h
      obtain ⟨_, _, s2, h1, h2⟩ := h
      have hst := mapFields_step (e4.trans hi) (by simp [SameVal, intsVal]) h1
      rw [e1] at hst
      unfold logRec at h2; cases h2
      exact hst
    · cases h
  | tab1 k fs x y name =>
    rw [readAct] at h
    obtain ⟨r, s1, hn, h, e1, e2, e3, e4, e5, -⟩ := takeRec_next h
    simp only [Out.lift_ok, Out.andThen_ok] at h
    obtain ⟨_, _, s2, h1, h2⟩ := h
    have hst := mapFields_step (e4.trans hi) (leaf_take (contVals_leaf r.head) 4) h1
    rw [e1] at hst
    have hf := mapFields_frame (a := a) (clean_take (contVals_clean r.head) 4) h1
    rw [proceed_none (hf.look (e5.trans hk))] at h2
    simp only [Out.andThen_ok] at h2
    obtain ⟨s3, h2, h3⟩ := h2
    unfold logRec at h3; cases h3
    have := inTable_step (c := c) (hf.lvl (e1 ▸ hl)).1
      (fun a s s' hh => mapFields_frame (cols_clean [_, _, _, _]) hh) ?_ h2
    · exact hst.trans this
    · intro sa sb hh hm
      exact mapFields_step (hh.trans (hf.ign.trans (e4.trans hi))) (cols_leaf [_, _, _, _]) hm
  | tab2 k fs name =>
    rw [readAct] at h
    obtain ⟨r, s1, hn, h, e1, e2, e3, e4, e5, -⟩ := takeRec_next h
    simp only [Out.lift_ok, Out.andThen_ok] at h
    obtain ⟨_, _, s2, h1, h2⟩ := h
    have hv : ∀ v ∈ r.head.vals.take 4 ++ r.head.vals.drop 5, SameVal v v := by
      intro v hv
      rcases List.mem_append.1 hv with h | h
      · exact contVals_leaf _ v (List.mem_of_mem_take h)
      · exact contVals_leaf _ v (List.mem_of_mem_drop h)
    have hv2 : ∀ v ∈ r.head.vals.take 4 ++ r.head.vals.drop 5, Clean v := by
      intro v hv
      rcases List.mem_append.1 hv with h | h
      · exact contVals_clean _ v (List.mem_of_mem_take h)
      · exact contVals_clean _ v (List.mem_of_mem_drop h)
    have hst := mapFields_step (e4.trans hi) hv h1
    rw [e1] at hst
    have hf := mapFields_frame (a := a) hv2 h1
    rw [proceed_none (hf.look (e5.trans hk))] at h2
    simp only [Out.andThen_ok] at h2
    obtain ⟨s3, h2, h3⟩ := h2
    unfold logRec at h3; cases h3
    have := inTable_step (c := c) (hf.lvl (e1 ▸ hl)).1
      (fun a s s' hh => mapFields_frame (cols_clean [_, _]) hh) ?_ h2
    · exact hst.trans this
    · intro sa sb hh hm
      exact mapFields_step (hh.trans (hf.ign.trans (e4.trans hi))) (cols_leaf [_, _]) hm
  | list k fs body name =>
    rw [readAct] at h
    obtain ⟨r, s1, hn, h, e1, e2, e3, e4, e5, -⟩ := takeRec_next h
    simp only [Out.lift_ok, Out.andThen_ok] at h
    obtain ⟨_, _, s2, h1, h2⟩ := h
    have hst := mapFields_step (e4.trans hi) (contVals_leaf r.head) h1
    rw [e1] at hst
    have hf := mapFields_frame (a := a) (contVals_clean r.head) h1
    rw [proceed_none (hf.look (e5.trans hk))] at h2
    dsimp only at h2
    split at h2
    · cases h2
    · rename_i l hbody
      split at h2
      · cases h2
      · unfold logRec at h2; cases h2
        exact hst.trans (readNamedBody_step (hf.lvl (e1 ▸ hl)).1 (hf.ign.trans (e4.trans hi)) hbody)
  | send =>
    rw [readAct] at h
    simp only [Out.lift_ok] at h
    obtain ⟨ofs, _, ⟨r, n⟩, _, h2⟩ := h
    unfold logRec at h2; cases h2
    exact .refl _
  | stop =>
    rw [readAct] at h
    simp only [Out.lift_ok] at h
    obtain ⟨_, _, h⟩ := h
    cases h

/-! ## recipes -/

theorem WInv.step {d d' : DDic} (h : WInv d) (hl : Lvl true d') (hs : SameAbb d d') : WInv d' := by
  obtain ⟨l, h1, h2⟩ := h.abb
  refine ⟨hl, l, hs.2 ▸ h1, fun n hn => ?_⟩
  obtain ⟨e, he⟩ := h2 n hn
  exact ⟨e, (hs.1 n e).1 he⟩

theorem introAbbr_grow {d d' : DDic} (h : WInv d) {n : Name} {e : Expr} (hi : introAbbr d n e = .ok d') :
    Grow d d' ∧ ∀ k, k ≠ .var n → k ≠ .abbrevs → dGet k d' = dGet k d := by
  obtain ⟨l, hl, habb⟩ := h.abb
  unfold introAbbr at hi
  simp only [abbrNames, hl] at hi
  split at hi
  · cases hi
  · rename_i hcol
    cases hi
    have key : ∀ k, k ≠ .var n → k ≠ .abbrevs → dGet k (dSet (.var n) (.abb e) (dSet .abbrevs (.names (if l.contains n then l else l ++ [n])) d)) = dGet k d := by
      intro k h1 h2
      rw [dGet_dSet_ne (Ne.symm h1), dGet_dSet_ne (Ne.symm h2)]
    refine ⟨?_, key⟩
    intro k v hk hv hg
    by_cases hkn : k = .var n
    · subst hkn
      exfalso
      by_cases hc : l.contains n = true
      · obtain ⟨e', he'⟩ := habb n (by simpa using hc)
        rw [hg] at he'; cases he'; exact hv _ rfl
      · apply hcol
        simp only [Bool.and_eq_true, Bool.not_eq_true']
        exact ⟨by simpa using hc, dHas_some.2 ⟨v, hg⟩⟩
    · refine ⟨v, ?_, .refl _⟩
      rw [key k hkn (by rintro rfl; simp [Key.data] at hk)]; exact hg

theorem removeWork_get {d d' : DDic} (h : WInv d) (hr : removeWork d = .ok d') {k : Key} {v : Val} (hk : k.data = true)
    (hv : ∀ e, v ≠ .abb e) (hg : dGet k d = some v) : dGet k d' = some v := by
  rw [removeWork_core h hr]
  obtain ⟨l, hl, habb⟩ := h.abb
  unfold core
  have e2 : abbrNames d = l := by simp only [abbrNames, hl]
  rw [e2]
  have hnd : DNodup (d.filter fun p => coreKey l p.1) := by
    have := h.lvl.nodup
    unfold DNodup dKeys at this ⊢
    exact this.sublist (List.filter_sublist.map _)
  apply dGet_of_mem hnd
  rw [List.mem_filter]
  refine ⟨dGet_mem hg, ?_⟩
  cases k with
  | var n =>
    simp only [coreKey, Bool.not_eq_true', List.contains_eq_mem, decide_eq_false_iff_not]
    intro hn
    obtain ⟨e, he⟩ := habb n hn
    rw [hg] at he; cases he; exact hv _ rfl
  | idx i => rfl
  | _ => simp [Key.data] at hk

/-- what a section does to the dictionary around it -/
theorem sect_step {c : RCtx} {s s1 s2 s3 : RSt} {r : VarRef} {cur : DDic} {a : Bool} (hl : Lvl a s.cur)
    (h1 : openR s r = .ok s1) (hf : Frame true c { s1 with cur := initWork s1.cur } s2)
    (hg : Grow (initWork s1.cur) s2.cur) (hw : WInv s2.cur) (hr : removeWork s2.cur = .ok cur)
    (h3 : closeR { s2 with cur := cur } = .ok s3) : Step s.cur s3.cur := by
  obtain ⟨is, d, hi, hd, rfl⟩ := openR_ok h1
  obtain ⟨new, hn, rfl⟩ := closeR_ok (s := { s2 with cur := cur }) hf.ups h3
  have hc : Clean (.dic d) := subDic_clean (fun d' hd' => hl.dic_clean hd') hd
  refine close_step hd hc (removeWork_lvl hw.lvl hr).1.nodup ?_ hn
  intro k v hk hv
  obtain ⟨v', hv', he⟩ := grow_init hc hg k v hk hv
  refine ⟨v', removeWork_get hw hr hk ?_ hv', he⟩
  intro e h
  exact clean_get_not_abb hc hv e ((he.abb_iff e).2 h)

theorem readProg_grow {c : RCtx} {p : Prog} {s s' : RSt} (hw : WInv s.cur)
    (hi : s.ignoreAll = false) (hk : s.look = none) (ht : Tidy c p s) (h : readProg c p s = .ok s') :
    Grow s.cur s'.cur ∧ WInv s'.cur := by
  induction p generalizing s s' with
  | skip => cases h; exact ⟨.refl _, hw⟩
  | seq a b iha ihb =>
    rw [readProg, Out.andThen_ok] at h
    obtain ⟨s1, h1, h2⟩ := h
    have hf := readProg_frame h1
    obtain ⟨g1, g2⟩ := iha hw hi hk ht.1 h1
    obtain ⟨g3, g4⟩ := ihb g2 (hf.ign.trans hi) (hf.look hk) (ht.2 _ h1) h2
    exact ⟨g1.trans g3, g4⟩
  | act a =>
    rw [readProg, proceed_none hk] at h
    have hst := readAct_step hw.lvl hi hk ht h
    have hf := readAct_frame (a := true) h
    exact ⟨hst.grow, hw.step (hf.lvl hw.lvl).1 hst.abb⟩
  | sect r body ih =>
    have hstop : s.stopped = false := by simp [RSt.stopped, hk]
    rw [readProg, hstop] at h
    simp only [Bool.false_eq_true, if_false, Out.lift_ok, Out.andThen_ok] at h
    obtain ⟨s1, h1, s2, h2, cur, h3, s3, h4, h5⟩ := h
    cases h5
    have hf := readProg_frame h2
    have h1' := h1
    obtain ⟨is, d, hidx, hd, rfl⟩ := openR_ok h1'
    have hc : Clean (.dic d) := subDic_clean (fun d' hd' => hw.lvl.dic_clean hd') hd
    have hl1 : Lvl false (dSet .up .mark d) := (Lvl.of_clean hc).set_up _
    have ht1 := ht _ h1
    obtain ⟨g1, g2⟩ := ih (s := { s with cur := initWork (dSet .up .mark d), ups := (s.cur, r.name, is) :: s.ups })
      (clean_work hl1).1 hi hk ht1 h2
    have hst := sect_step hw.lvl h1 hf g1 g2 h3 h4
    refine ⟨hst.grow, hw.step ?_ hst.abb⟩
    have hff : Frame true c s s' := readProg_frame (p := .sect r body) (by
      rw [readProg, hstop]
      simp only [Bool.false_eq_true, if_false, Out.lift_ok, Out.andThen_ok]
      exact ⟨_, h1, s2, h2, cur, h3, s', h4, rfl⟩)
    exact (hff.lvl hw.lvl).1
  | loop v e1 e2 body ih =>
    have hstop : s.stopped = false := by simp [RSt.stopped, hk]
    rw [readProg, hstop] at h
    simp only [Bool.false_eq_true, if_false, Out.lift_ok, Out.andThen_ok] at h
    obtain ⟨⟨x, y⟩, h1, s1, h2, h3⟩ := h
    have := iterate_all (R := fun s s' : RSt => Grow s.cur s'.cur)
      (I := fun s => WInv s.cur ∧ s.ignoreAll = false ∧ s.look = none)
      (fun s => Grow.refl _) (fun h1 h2 => h1.trans h2)
      (fun i s s' hI hP hb => by
        obtain ⟨g1, g2⟩ := ih (s := RSt.setVar v i s) hI.1 hI.2.1 hI.2.2 hP hb
        have hf := readProg_frame hb
        exact ⟨g1, g2, hf.ign.trans hI.2.1, hf.look hI.2.2⟩) _ ⟨hw, hi, hk⟩ (ht x y h1) h2
    cases h3
    split
    · exact ⟨this.1, this.2.1⟩
    · exact ⟨this.1, this.2.1⟩
  | ite cond look thn els iht ihe =>
    have hstop : s.stopped = false := by simp [RSt.stopped, hk]
    cases look with
    | none =>
      rw [readProg, hstop] at h
      simp only [Bool.false_eq_true, if_false, Out.lift_ok] at h
      obtain ⟨t, h1, h2⟩ := h
      cases t with
      | true => exact iht hw hi hk (ht.2.1 h1) (by simpa using h2)
      | false => exact ihe hw hi hk (ht.2.2 h1) (by simpa using h2)
    | some n =>
      obtain ⟨_, _, ⟨_, g2, g3⟩ | ⟨_, g2, g3⟩⟩ := ht s' h
      · exact iht hw hi hk g3 g2
      · exact ihe hw hi hk g3 g2
  | abbr n e =>
    have hstop : s.stopped = false := by simp [RSt.stopped, hk]
    rw [readProg, hstop] at h
    simp only [Bool.false_eq_true, if_false, Out.lift_ok] at h
    obtain ⟨cur, h1, h2⟩ := h
    cases h2
    exact ⟨(introAbbr_grow hw h1).1, (introAbbr_core hw h1).1⟩

end Verif
