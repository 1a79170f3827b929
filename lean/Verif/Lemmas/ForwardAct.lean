import Verif.Lemmas.Forward
/-
Reading the records that have been written: single records.
-/
namespace Verif
open Spec

theorem Adv.refl {D d : DDic} (h : HoldAll d D) : Adv D d d [] := ⟨.refl _, h, by simp⟩

theorem Adv.lev {A N : List Name} {D d d' w : DDic} {U : List Path} (h : Adv D d d' U) (hl : Lev A N d w D)
    (hu : dHas .up d' = dHas .up d) : Lev A N d' w D := hl.sync' h.step.abb hu

/-! ## TEXT records -/

theorem textPart_len {fuel : Nat} {env : Env} {f : TextField} {t : Str} {n : Nat} (hn : f.len = some n)
    (h : textPart fuel env f = .ok t) : t.length = n := by
  unfold textPart at h
  cases hr : f.ref with
  | none => rw [hr, hn] at h; cases h; simp
  | some r =>
    rw [hr] at h
    simp only [bind_ok] at h
    obtain ⟨v, _, h⟩ := h
    cases v <;> simp only [hn, reduceCtorEq] at h
    split at h
    · cases h
    · cases h; rename_i hh; simpa using hh

theorem textPart_txt {fuel : Nat} {w : DDic} {ups : List DDic} {lv : Dict Name Int} {f : TextField} {r : VarRef} {s t : Str}
    (hr : f.ref = some r) (hl : dGet r.name lv = none) (hv : getVarval ⟨w, [], lv⟩ false r = .ok (.txt t))
    (h : textPart fuel ⟨w, ups, lv⟩ f = .ok s) : s = t := by
  have hv1 : getVarval ⟨w, ups, lv⟩ false r = .ok (.txt t) := by
    rw [getVarval_local] at hv ⊢; exact hv
  have hv2 := getVarval_up hv1 hl
  rw [textPart, hr] at h
  simp only [getVarvalFull, hv2, bind, Except.bind, pure, Except.pure] at h
  cases hn : f.len with
  | none => rw [hn] at h; cases h; rfl
  | some n =>
    rw [hn] at h
    dsimp only at h
    split at h
    · cases h
    · cases h; rfl

theorem text_fwd {A N : List Name} {w D : DDic} {lv : Dict Name Int} {full : Str} {fs : List TextField} {pos : Nat}
    {cur cur' : DDic} {a : Bool} {fuel : Nat} {ups : List DDic} (hal : ∀ f ∈ fs.dropLast, f.len ≠ none)
    (hva : ∀ f ∈ fs, ∀ r, f.ref = some r → dGet r.name lv = none ∧ ∃ t, getVarval ⟨w, [], lv⟩ false r = .ok (.txt t))
    (hlvl : Lvl a cur) (hl : Lev A N cur w D) (hh : HoldAll cur D)
    (hw : mapTextWrite fuel ⟨w, ups, lv⟩ fs = .ok (full.drop pos)) (h : mapTextRead lv full fs pos cur = .ok cur') :
    Adv D cur cur' ((fs.filterMap TextField.ref).flatMap (usesRef w lv)) := by
  induction fs generalizing pos cur with
  | nil => simp only [mapTextRead, Except.ok.injEq] at h; subst h; exact .refl hh
  | cons f fs ih =>
    simp only [mapTextRead] at h
    simp only [mapTextWrite, bind_ok, pure_ok] at hw
    obtain ⟨t1, hw1, t2, hw2, hw3⟩ := hw
    have hal' : ∀ g ∈ fs.dropLast, g.len ≠ none := by
      intro g hg
      refine hal g ?_
      cases fs with
      | nil => simp at hg
      | cons x xs => rw [List.dropLast_cons_cons]; exact List.mem_cons_of_mem _ hg
    have hva' := fun g hg => hva g (List.mem_cons_of_mem _ hg)
    have key : ∀ upper : Nat,
        (if upper ≤ pos then (.error .sizeMismatch : Res DDic) else
          match f.ref with
          | none => mapTextRead lv full fs upper cur
          | some r => match setVarval cur lv r (.txt (slice full pos upper)) with
            | .error e => .error e
            | .ok cur' => mapTextRead lv full fs upper cur') = .ok cur' →
        slice full pos upper = t1 → full.drop upper = t2 →
        Adv D cur cur' (((f :: fs).filterMap TextField.ref).flatMap (usesRef w lv)) := by
      intro upper h e1 e2
      split at h
      · cases h
      · rw [← e2] at hw2
        cases hr : f.ref with
        | none =>
          rw [hr] at h
          rw [List.filterMap_cons_none hr]
          exact ih hal' hva' hlvl hl hh hw2 h
        | some r =>
          rw [hr] at h
          dsimp only at h
          split at h
          · cases h
          · rename_i cur1 h1
            obtain ⟨q1, t, q2⟩ := hva f (by simp) r hr
            have q3 := textPart_txt hr q1 q2 hw1
            obtain ⟨g1, g2⟩ := setVarval_fwd hl hh h1 q2 q1 (by rw [e1, q3]; rfl)
            obtain ⟨g3, g4⟩ := hlvl.setVarval (.txt _) h1
            have hl1 := hl.sync' g1.abb g4
            rw [List.filterMap_cons_some hr, List.flatMap_cons]
            refine Adv.trans ⟨g1, g2, fun q hq => ?_⟩ (ih hal' hva' g3 hl1 g2 hw2 h)
            exact cov_found hl1 g2 hq (setVarval_same (ups := []) h1 ⟨rfl, rfl⟩ q1)
    cases hn : f.len with
    | none =>
      rw [hn] at h
      have : fs = [] := by
        cases fs with
        | nil => rfl
        | cons x xs => exact absurd hn (hal f (by rw [List.dropLast_cons_cons]; simp))
      subst this
      simp only [mapTextWrite, Except.ok.injEq] at hw2
      subst hw2
      refine key full.length h ?_ (by simp)
      rw [List.append_nil] at hw3
      rw [slice, List.take_of_length_le (Nat.le_refl _), ← hw3]
    | some n =>
      rw [hn] at h
      have hlen := textPart_len hn hw1
      refine key (pos + n) h ?_ ?_
      · rw [slice, List.drop_take, Nat.add_sub_cancel_left, ← hw3, ← hlen, List.take_left]
      · rw [← List.drop_drop, ← hw3, ← hlen, List.drop_left]

/-! ## control numbers -/

theorem num_fwd {A N : List Name} {d w D : DDic} {n : Name} {x : PyNum} (hl : Lev A N d w D) (hh : HoldAll d D)
    (hw : dGet (.var n) w = some (.num x)) : Adv D d (dSet (.var n) (.num x) d) [[.var n]] ∧
      Lev A N (dSet (.var n) (.num x) d) w D := by
  obtain ⟨h1, h2⟩ := hl.data hw (getArr_nil _) (by simp)
  have h3 := set_fwd hl hh (new := .num x) (by simp) h1 h2 (.refl _)
  have hst : Step d (dSet (.var n) (.num x) d) := by
    refine Step.set (by simp) fun u hu => ?_
    obtain ⟨v', hv', he⟩ := hh (.var n) u rfl hu (fun e he => h2 e (he ▸ hu))
    rw [h1] at hv'; cases hv'; exact he
  refine ⟨⟨hst, h3.2, fun q hq => ?_⟩, hl.sync' hst.abb ?_⟩
  · simp only [List.mem_singleton] at hq
    subst hq
    exact ⟨_, [], .num x, .num x, rfl, rfl, dGet_dSet_self _ _ _, rfl, rfl⟩
  · unfold dHas; rw [dGet_dSet_ne (by simp)]

theorem ctrlNum_get {d : DDic} {n : Name} {i : Int} (h : ctrlNum d n = .ok i) : dGet (.var n) d = some (.num (.int i)) := by
  unfold ctrlNum at h
  split at h
  · cases h
  · cases h; assumption
  · cases h

theorem ctrl_fwd {A N : List Name} {d D : DDic} {w : WSt} {k : Ctrl} (hl : Lev A N d w.cur D) (hh : HoldAll d D)
    (hm : dHas (.var "MAT") w.cur = true) (hk : getCtrl w = .ok k) : Adv D d (setCtrl k d) ctrlPaths := by
  have hs : matScope w.cur w.outer = w.cur := by
    cases w.outer with
    | nil => rfl
    | cons u us => simp [matScope, hm]
  unfold getCtrl at hk
  simp only [hs, bind_ok, pure_ok] at hk
  obtain ⟨i1, h1, i2, h2, i3, h3, rfl⟩ := hk
  obtain ⟨a1, l1⟩ := num_fwd hl hh (ctrlNum_get h1)
  obtain ⟨a2, l2⟩ := num_fwd l1 a1.hold (ctrlNum_get h2)
  obtain ⟨a3, l3⟩ := num_fwd l2 a2.hold (ctrlNum_get h3)
  exact (a1.trans a2).trans a3

/-! ## inner dictionaries -/

/-- a reading and a writing state at the same point of the recipe -/
structure Fw (A N : List Name) (top : DDic) (s : RSt) (w : WSt) (D : DDic) (L : List Level) : Prop where
  out : Outer A N top D L
  lev : Lev A N s.cur w.cur D
  hold : HoldAll s.cur D
  so : s.outer = L.map Level.d
  wo : w.outer = L.map Level.w
  lv : w.lv = s.lv

theorem Fw.here {A N : List Name} {top D : DDic} {s : RSt} {w : WSt} {L : List Level} (hT : Top A N top)
    (h : Fw A N top s w D L) : Here A N top s.cur w.cur D L := ⟨hT, h.out, h.lev, h.hold.hold⟩

theorem Fw.move {A N : List Name} {top D : DDic} {s s' : RSt} {w : WSt} {L : List Level} {U : List Path}
    (h : Fw A N top s w D L) (ha : Adv D s.cur s'.cur U) (hu : dHas .up s'.cur = dHas .up s.cur)
    (hups : s'.ups = s.ups) (hlv : s'.lv = s.lv) : Fw A N top s' w D L :=
  ⟨h.out, ha.lev h.lev hu, ha.hold, by rw [RSt.outer, hups]; exact h.so, h.wo, h.lv.trans hlv.symm⟩

theorem subDic_ext {o : Option Val} {is : List Int} {d dW : DDic} {v' : Val} (h : subDic o is = .ok d)
    (ho : ∀ u, o = some u → Ext u v') (hy : getArr v' is = .ok (.dic dW)) : Ext (.dic d) (.dic dW) := by
  have hnil : ∀ x : DDic, Ext (.dic []) (.dic x) := fun x => .of_get fun k u hu => by simp [dGet] at hu
  induction is generalizing o v' with
  | nil =>
    rw [getArr_nil] at hy; cases hy
    cases o with
    | none => simp only [subDic, Except.ok.injEq] at h; subst h; exact hnil _
    | some u =>
      cases u <;> simp only [subDic, Except.ok.injEq, reduceCtorEq] at h
      subst h; exact ho _ rfl
  | cons i is ih =>
    cases o with
    | none => simp only [subDic, Except.ok.injEq] at h; subst h; exact hnil _
    | some u =>
      cases u <;> simp only [subDic, reduceCtorEq] at h
      rename_i du
      cases v' with
      | dic dv =>
        simp only [getArr] at hy
        cases hg : dGet (Key.idx i) dv with
        | none => rw [hg] at hy; simp at hy
        | some u' =>
          rw [hg] at hy
          refine ih h (fun u hu => ?_) hy
          obtain ⟨u2, hu2, he⟩ := (ho _ rfl).get hu
          rw [hg] at hu2; cases hu2; exact he
      | _ => simp [getArr] at hy

/-- entering a sub-dictionary on both sides -/
theorem Fw.enter {A N : List Name} {top D : DDic} {s s1 : RSt} {w w1 : WSt} {L : List Level}
    {r : VarRef} {a : Bool} (hT : Top A N top) (h : Fw A N top s w D L) (hl : Lvl a s.cur)
    (h1 : openR s r = .ok s1) (hw : openW w r = .ok w1) :
    ∃ is d dW v, r.idx.mapM (idxVal s.lv) = .ok is ∧
      s1 = { s with cur := dSet .up .mark d, ups := (s.cur, r.name, is) :: s.ups } ∧
      w1.cur = dSet .up .mark dW ∧ w1.out = w.out ∧ Clean (.dic d) ∧ Clean (.dic dW) ∧ dGet (.var r.name) D = some v ∧
      getArr v is = .ok (.dic dW) ∧ (∀ e, dGet (.var r.name) s.cur ≠ some (.abb e)) ∧
      Fw A N top s1 w1 dW (⟨s.cur, w.cur, D⟩ :: L) := by
  obtain ⟨is, d, hi, hd, rfl⟩ := openR_ok h1
  obtain ⟨is', dW, hi', hd', rfl⟩ := openW_ok hw
  rw [h.lv, hi] at hi'; cases hi'
  have hc : Clean (.dic d) := subDic_clean (fun d' hd' => hl.dic_clean hd') hd
  cases hv : dGet (.var r.name) w.cur with
  | none => rw [hv] at hd'; simp [subDicW] at hd'
  | some v =>
    rw [hv] at hd'
    have hy := subDicW_getArr hd'
    obtain ⟨hD, hna⟩ := h.lev.data hv hy (by simp)
    obtain ⟨_, hvc⟩ := h.lev.sub _ _ hD
    have hcW : Clean (.dic dW) := getArr_clean hvc hy
    have hext : Ext (.dic d) (.dic dW) := by
      refine subDic_ext hd (fun u hu => ?_) hy
      obtain ⟨v2, hv2, he⟩ := h.hold _ u rfl hu (fun e he => hna e (he ▸ hu))
      rw [hD] at hv2; cases hv2; exact he
    refine ⟨is, d, dW, v, hi, rfl, rfl, rfl, hc, hcW, hD, hy, hna, ?_, Lev.fresh hc hcW, ?_, ?_, ?_, h.lv⟩
    · obtain ⟨ch, n1, n2⟩ := h.out.nest
      obtain ⟨ch', n3, n4⟩ := Nested.into n1 hD hy
      refine ⟨⟨ch', n3, ?_⟩, ?_, ?_, ?_⟩
      · intro x hx
        rcases List.mem_cons.1 hx with rfl | hx
        · exact n4 _ (by simp)
        · exact n4 _ (List.mem_cons_of_mem _ (n2 x hx))
      · intro x hx
        rcases List.mem_cons.1 hx with rfl | hx
        · exact ⟨ch, n1⟩
        · exact h.out.inner x hx
      · intro x hx
        rcases List.mem_cons.1 hx with rfl | hx
        · exact ⟨h.lev, h.hold.hold⟩
        · exact h.out.rel x hx
      · exact List.Pairwise.cons (fun x hx n hn hd => h.out.push hT n hn hd x hx) h.out.apart
    · intro k u hk hu _
      rw [dGet_dSet_ne (by rintro rfl; simp [Key.data] at hk)] at hu
      exact hext.get hu
    · show s.cur :: s.outer = _
      rw [h.so]; rfl
    · show w.cur :: w.outer = _
      rw [h.wo]; rfl

/-- leaving it again -/
theorem leave_fwd {A N : List Name} {D d w dW : DDic} {n : Name} {is : List Int} {v new : Val} {cur : DDic}
    (hl : Lev A N d w D) (hh : HoldAll d D) (hlvl : Lvl false cur) (hi : HoldAll cur dW)
    (hD : dGet (.var n) D = some v) (hy : getArr v is = .ok (.dic dW)) (hna : ∀ e, dGet (.var n) d ≠ some (.abb e))
    (hn : setArr (dGet (.var n) d) is (.dic (dDel .up cur)) = .ok new) :
    HoldAll (dSet (.var n) new d) D ∧
      ∀ q, Cov cur q → Cov (dSet (.var n) new d) ((.var n :: is.map Key.idx) ++ q) := by
  have hext : Ext (.dic (dDel .up cur)) (.dic dW) := by
    have hcl := hlvl.clean
    refine .of_get fun k u hu => ?_
    have hna := clean_get_not_abb hcl hu
    cases hcl with
    | dic _ h1 h2 h3 =>
      have hk : k.data = true := by
        have := h2 k u hu
        cases k <;> simp_all [Key.data, Key.Internal]
      rw [dGet_dDel hlvl.nodup] at hu
      split at hu
      · cases hu
      · exact hi k u hk hu hna
  have hold : ∀ u, dGet (.var n) d = some u → Ext u v := by
    intro u hu
    obtain ⟨v2, hv2, he⟩ := hh _ u rfl hu (fun e he => hna e (he ▸ hu))
    rw [hD] at hv2; cases hv2; exact he
  refine ⟨(set_fwd hl hh (setArr_not_abb (by simp) hn) hD hna (setArr_into hn hold hy hext)).2, ?_⟩
  rintro q ⟨k, ks, u, x, rfl, hk, h1, h2, h3⟩
  refine ⟨.var n, is.map Key.idx ++ k :: ks, new, x, rfl, rfl, dGet_dSet_self _ _ _, ?_, h3⟩
  rw [valAt_append, valAt_getArr.2 (getArr_setArr_same hn)]
  show valAt (.dic (dDel .up cur)) (k :: ks) = _
  simp only [valAt]
  rw [dGet_dDel hlvl.nodup, if_neg (by rintro rfl; simp [Key.data] at hk), h1]
  exact h2

/-- a part of a record inside a sub-dictionary -/
theorem inside_fwd {A N : List Name} {top D : DDic} {s s1 s2 s3 : RSt} {w w1 : WSt} {L : List Level} {c : RCtx}
    {r : VarRef} {a : Bool} {U : WSt → List Path} (hT : Top A N top) (h : Fw A N top s w D L) (hl : Lvl a s.cur)
    (h1 : openR s r = .ok s1) (hw : openW w r = .ok w1) (hf : Frame false c s1 s2) (h3 : closeR s2 = .ok s3)
    (hin : ∀ dW L', Fw A N top s1 w1 dW L' → Lvl false s1.cur → Adv dW s1.cur s2.cur (U w1)) :
    Adv D s.cur s3.cur (usesIn r w U) := by
  obtain ⟨is, d, dW, v, hi, hs1, hw1, _, hc, hcW, hD, hy, hna, hfw⟩ := h.enter hT hl h1 hw
  have hl1 : Lvl false s1.cur := by rw [hs1]; exact (Lvl.of_clean hc).set_up _
  have ha := hin _ _ hfw hl1
  have hst := openClose_step hl h1 hf ha.step h3
  have hu := hf.ups
  rw [hs1] at hu
  obtain ⟨new, hn, rfl⟩ := closeR_ok hu h3
  obtain ⟨g1, g2⟩ := leave_fwd h.lev h.hold (hf.lvl hl1).1 ha.hold hD hy hna hn
  refine ⟨hst, g1, fun q hq => ?_⟩
  simp only [usesIn, hw, refPath, h.lv, hi, List.mem_map] at hq
  obtain ⟨q', hq', rfl⟩ := hq
  exact g2 _ (ha.cov _ hq')

theorem inTable_fwd {A N : List Name} {top D : DDic} {s s' : RSt} {w : WSt} {L : List Level} {a : Bool}
    {c : RCtx} {fuel : Nat} {name : Option VarRef} {es : List Expr} {cols out : List Val} (hT : Top A N top)
    (h : Fw A N top s w D L) (hl : Lvl a s.cur) (hcl : ∀ v ∈ cols, Clean v)
    (hr : inTable name s (mapFields c es cols) = .ok s')
    (hw : inTableW name w (fun s1 => mapWrite fuel s1.env es) = .ok out) (hs : List.Forall₂ SameVal cols out) :
    Adv D s.cur s'.cur (usesTable name w fun w1 => usesFields w1.cur w1.lv es) := by
  have hm : ∀ {s s' : RSt} {w : WSt} {D : DDic} {L : List Level} {a : Bool}, Fw A N top s w D L → Lvl a s.cur →
      mapFields c es cols s = .ok s' → mapWrite fuel w.env es = .ok out →
      Adv D s.cur s'.cur (usesFields w.cur w.lv es) := by
    intro s s' w D L a h hl hr hw
    have henv : w.env = ⟨w.cur, w.outer, s.lv⟩ := by rw [← h.lv]; rfl
    rw [henv] at hw
    rw [h.lv]
    exact mapFields_fwd ((mapM_forall₂ hw).length_eq.trans hs.length_eq.symm) hcl hl h.lev h.hold hw hs hr
  cases name with
  | none => exact hm h hl hr hw
  | some r =>
    simp only [inTable, Out.lift_ok, Out.andThen_ok] at hr
    obtain ⟨s1, h1, s2, h2, s3, h3, h4⟩ := hr
    cases h4
    simp only [inTableW, bind_ok] at hw
    obtain ⟨w1, hw1, hw⟩ := hw
    exact inside_fwd hT h hl h1 hw1 (mapFields_frame hcl h2) h3 fun dW L' hfw hl1 => hm hfw hl1 h2 hw

/-! ## loops -/

theorem iterate_back {σ τ : Type} {setR : Int → σ → σ} {bodyR : σ → Out σ} {setW : Int → τ → τ} {bodyW : τ → Res τ}
    {K : σ → τ → Prop}
    (hK : ∀ i s w s1 w1, bodyR (setR i s) = .ok s1 → bodyW (setW i w) = .ok w1 → K s1 w1 → K s w)
    (is : List Int) {s s' : σ} {w w' : τ} (hr : iterate setR bodyR is s = .ok s') (hw : iterateW setW bodyW is w = .ok w')
    (hk : K s' w') : K s w := by
  induction is generalizing s w with
  | nil => cases hr; cases hw; exact hk
  | cons i is ih =>
    rw [iterate, Out.andThen_ok] at hr
    rw [iterateW, bind_ok] at hw
    obtain ⟨s1, h1, h2⟩ := hr
    obtain ⟨w1, h3, h4⟩ := hw
    exact hK i s w s1 w1 h1 h3 (ih h2 h4)

theorem iterate_fwd {σ τ : Type} {setR : Int → σ → σ} {bodyR : σ → Out σ} {setW : Int → τ → τ} {bodyW : τ → Res τ}
    {I K P : σ → τ → Prop} {R : σ → σ → Prop} {C : σ → Path → Prop} {f : τ → List Path} (hrefl : ∀ s, R s s)
    (htrans : ∀ {a b d}, R a b → R b d → R a d) (hC : ∀ {s s' q}, R s s' → C s q → C s' q)
    (hK : ∀ i s w s1 w1, bodyR (setR i s) = .ok s1 → bodyW (setW i w) = .ok w1 → K s1 w1 → K s w)
    (hI : ∀ i s w s1 w1, I s w → P (setR i s) (setW i w) → K s1 w1 → bodyR (setR i s) = .ok s1 →
      bodyW (setW i w) = .ok w1 → I s1 w1 ∧ R s s1 ∧ ∀ q ∈ f (setW i w), C s1 q)
    (is : List Int) {s s' : σ} {w w' : τ} (h : I s w) (hP : AllIter₂ setR bodyR setW bodyW P is s w) (hk : K s' w')
    (hr : iterate setR bodyR is s = .ok s') (hw : iterateW setW bodyW is w = .ok w') :
    I s' w' ∧ R s s' ∧ ∀ q ∈ usesIter setW bodyW f is w, C s' q := by
  induction is generalizing s w with
  | nil => cases hr; cases hw; exact ⟨h, hrefl _, by simp [usesIter]⟩
  | cons i is ih =>
    rw [iterate, Out.andThen_ok] at hr
    rw [iterateW, bind_ok] at hw
    obtain ⟨s1, h1, h2⟩ := hr
    obtain ⟨w1, h3, h4⟩ := hw
    obtain ⟨g1, g2, g3⟩ := hI i s w s1 w1 h hP.1 (iterate_back hK is h2 h4 hk) h1 h3
    obtain ⟨g4, g5, g6⟩ := ih g1 (hP.2 _ _ h1 h3) h2 h4
    refine ⟨g4, htrans g2 g5, fun q hq => ?_⟩
    simp only [usesIter, h3, List.mem_append] at hq
    rcases hq with hq | hq
    · exact hC g5 (g3 q hq)
    · exact g6 q hq

theorem allIter₂_true {σ τ : Type} {setR : Int → σ → σ} {bodyR : σ → Out σ} {setW : Int → τ → τ} {bodyW : τ → Res τ}
    (is : List Int) (s : σ) (w : τ) : AllIter₂ setR bodyR setW bodyW (fun _ _ => True) is s w := by
  induction is generalizing s w with
  | nil => trivial
  | cons i is ih => exact ⟨trivial, fun s1 w1 _ _ => ih s1 w1⟩

/-! ## list bodies -/

theorem iterateW_prefix {σ β : Type} {get : σ → List β} {setW : Int → σ → σ} {body : σ → Res σ}
    (hset : ∀ i s, get (setW i s) = get s) (hb : ∀ s s', body s = .ok s' → get s <+: get s')
    (is : List Int) {s s' : σ} (h : iterateW setW body is s = .ok s') : get s <+: get s' := by
  induction is generalizing s with
  | nil => cases h; exact List.prefix_refl _
  | cons i is ih =>
    rw [iterateW, bind_ok] at h
    obtain ⟨s1, h1, h2⟩ := h
    have := hb _ _ h1
    rw [hset] at this
    exact this.trans (ih h2)

theorem writeBody_prefix {fuel : Nat} {w : WSt} {b : LBody} {l l' : WLSt} (h : writeBody fuel w b l = .ok l') :
    l.vals <+: l'.vals := by
  induction b generalizing l l' with
  | nil => cases h; exact List.prefix_refl _
  | seq a b i1 i2 =>
    rw [writeBody, bind_ok] at h
    obtain ⟨l1, h1, h2⟩ := h
    exact (i1 h1).trans (i2 h2)
  | expr e =>
    simp only [writeBody, bind_ok, pure_ok] at h
    obtain ⟨v', _, x, _, rfl⟩ := h
    exact List.prefix_append _ _
  | pad =>
    simp only [writeBody, Except.ok.injEq] at h
    subst h
    exact List.prefix_append _ _
  | loop v a b body ih =>
    simp only [writeBody, bind_ok, pure_ok] at h
    obtain ⟨⟨x, y⟩, h1, l1, h2, h3⟩ := h
    have := iterateW_prefix (get := WLSt.vals) (setW := WLSt.setVar v) (fun _ _ => rfl) (fun s s' hs => ih hs) _ h2
    subst h3
    dsimp only
    split
    · exact this
    · exact this

/-- a list body read and written up to the same position -/
structure LFw (A N : List Name) (l : LSt) (w : WSt) (wl : WLSt) (D : DDic) (L : List Level) (a : Bool) : Prop where
  lvl : Lvl a l.st.cur
  lev : Lev A N l.st.cur w.cur D
  hold : HoldAll l.st.cur D
  so : l.st.outer = L.map Level.d
  lv : wl.lv = l.st.lv
  pos : l.pos = wl.vals.length

theorem body_fwd {A N : List Name} {top D : DDic} {L : List Level} {c : RCtx} {fuel : Nat} {w : WSt}
    (hT : Top A N top) (ho : Outer A N top D L) (hwo : w.outer = L.map Level.w) {vals G : List PyNum}
    (hG : vals.map PyNum.val = G.map PyNum.val)
    {b : LBody} (hN : ∀ n ∈ bodyNames b, n ∈ N) {l l' : LSt} {wl wl' : WLSt} {a : Bool}
    (h : readBody c vals b l = .ok l') (hw : writeBody fuel w b wl = .ok wl') (hp : wl'.vals <+: G)
    (hat : LFw A N l w wl D L a) : LFw A N l' w wl' D L a ∧ Adv D l.st.cur l'.st.cur (usesBody fuel w b wl) := by
  induction b generalizing l l' wl wl' with
  | nil => cases h; cases hw; exact ⟨hat, .refl hat.hold⟩
  | seq b1 b2 ih1 ih2 =>
    rw [readBody, Out.andThen_ok] at h
    obtain ⟨l1, h1, h2⟩ := h
    rw [writeBody, bind_ok] at hw
    obtain ⟨wl1, hw1, hw2⟩ := hw
    obtain ⟨g1, g2⟩ := ih1 (fun n hn => hN n (List.mem_append_left _ hn)) h1 hw1 ((writeBody_prefix hw2).trans hp) hat
    obtain ⟨g3, g4⟩ := ih2 (fun n hn => hN n (List.mem_append_right _ hn)) h2 hw2 hp g1
    refine ⟨g3, ?_⟩
    simp only [usesBody, hw1]
    exact g2.trans g4
  | expr e =>
    rw [readBody] at h
    split at h
    · cases h
    · rename_i v hv
      rw [Out.lift_ok] at h
      obtain ⟨cur, h1, h2⟩ := h
      cases h2
      simp only [writeBody, bind_ok, pure_ok] at hw
      obtain ⟨v', hv', x, hx, rfl⟩ := hw
      have hxv : v' = .num x := scalar_ok hx
      have hsame : SameVal (.num v) v' := by
        subst hxv
        have e1 : G[l.pos]? = some x := by
          rw [hat.pos]
          obtain ⟨t, rfl⟩ := hp
          simp
        have e2 : (vals.map PyNum.val)[l.pos]? = (G.map PyNum.val)[l.pos]? := by rw [hG]
        simp only [List.getElem?_map, hv, e1, Option.map_some, Option.some.injEq] at e2
        exact e2
      have hm : mapWrite fuel ⟨w.cur, w.outer, l.st.lv⟩ [e] = .ok [v'] := by
        unfold mapWrite
        rw [← hat.lv]
        simp only [List.mapM_cons, hv', List.mapM_nil, bind, Except.bind, pure, Except.pure]
      have hcl : ∀ u ∈ [Val.num v], Clean u := by simpa using Clean.num v
      have hmf : mapFields c [e] [.num v] l.st = .ok { l.st with cur := cur } := by
        unfold mapFields; rw [h1]; rfl
      have ha := mapFields_fwd (s := l.st) rfl hcl hat.lvl hat.lev hat.hold hm (.cons hsame .nil) hmf
      have hup := mapRead_lvl hcl hat.lvl h1
      refine ⟨⟨hup.1, ha.lev hat.lev hup.2, ha.hold, hat.so, hat.lv, by simp [hat.pos]⟩, ?_⟩
      simp only [usesBody, hat.lv]
      exact ha
  | pad =>
    rw [readBody] at h
    cases h
    simp only [writeBody, Except.ok.injEq] at hw
    subst hw
    exact ⟨⟨hat.lvl, hat.lev, hat.hold, hat.so, hat.lv, by simp [hat.pos]⟩, .refl hat.hold⟩
  | loop v e1 e2 body ih =>
    rw [readBody, Out.lift_ok] at h
    obtain ⟨⟨x, y⟩, h1, h2⟩ := h
    rw [Out.andThen_ok] at h2
    obtain ⟨l1, h2, h3⟩ := h2
    simp only [writeBody, bind_ok, pure_ok] at hw
    obtain ⟨⟨x', y'⟩, hw1, wl1, hw2, hw3⟩ := hw
    have hh : Here A N top l.st.cur w.cur D L := ⟨hT, ho, hat.lev, hat.hold.hold⟩
    have h1' : loopHead c.fuel ⟨l.st.cur, L.map Level.d, l.st.lv⟩ v e1 e2 = .ok (x, y) := by
      rw [← hat.so]; exact h1
    have hw1' := hw1
    rw [hwo, hat.lv] at hw1'
    obtain ⟨rfl, rfl⟩ := hh.loopHead (fun n hn => hN n (by simp [bodyNames, hn])) (fun n hn => hN n (by simp [bodyNames, hn])) h1' hw1'
    have hp1 : wl1.vals <+: G := by
      subst hw3
      split at hp
      · exact hp
      · exact hp
    obtain ⟨g1, g2, g3⟩ := iterate_fwd (I := fun s wl => LFw A N s w wl D L a) (K := fun _ wl => wl.vals <+: G)
      (P := fun _ _ => True) (R := fun s s' : LSt => Step s.st.cur s'.st.cur) (C := fun s q => Cov s.st.cur q)
      (f := usesBody fuel w body) (fun s => .refl _) (fun h1 h2 => h1.trans h2) (fun h1 h2 => h2.grow h1.grow)
      (fun i s wl s1 wl1 _ hb hk => (writeBody_prefix (l := WLSt.setVar v i wl) hb).trans hk)
      (fun i s wl s1 wl1 hI _ hk hb hbw => by
        obtain ⟨q1, q2⟩ := ih (l := LSt.setVar v i s) (wl := WLSt.setVar v i wl) (fun n hn => hN n (by simp [bodyNames, hn]))
          hb hbw hk ⟨hI.lvl, hI.lev, hI.hold, hI.so, by simp only [LSt.setVar, WLSt.setVar, hI.lv], hI.pos⟩
        exact ⟨q1, q2.step, q2.cov⟩) _ hat (allIter₂_true _ _ _) hp1 h2 hw2
    simp only [usesBody, hw1]
    cases h3
    subst hw3
    dsimp only
    split
    · exact ⟨⟨g1.lvl, g1.lev, g1.hold, g1.so, by simp only [g1.lv], g1.pos⟩, g2, g1.hold, g3⟩
    · exact ⟨g1, g2, g1.hold, g3⟩

theorem namedBody_fwd {A N : List Name} {top D : DDic} {s : RSt} {w : WSt} {L : List Level} {a : Bool}
    {c : RCtx} {fuel : Nat} {name : Option VarRef} {b : LBody} {vals : List PyNum} {l' : LSt} {wl : WLSt}
    (hN : ∀ n ∈ bodyNames b, n ∈ N) (hT : Top A N top) (h : Fw A N top s w D L) (hl : Lvl a s.cur)
    (hr : readNamedBody c vals b name s = .ok l')
    (hw : inTableW name w (fun s1 => writeBody fuel s1 b ⟨[], s1.lv⟩) = .ok wl)
    (hG : vals.map PyNum.val = wl.vals.map PyNum.val) :
    Adv D s.cur l'.st.cur (usesTable name w fun w1 => usesBody fuel w1 b ⟨[], w1.lv⟩) := by
  cases name with
  | none =>
    simp only [readNamedBody, inTableW] at hr hw
    exact (body_fwd hT h.out h.wo hG hN hr hw (List.prefix_refl _) (l := ⟨0, s⟩) ⟨hl, h.lev, h.hold, h.so, h.lv, rfl⟩).2
  | some r =>
    simp only [readNamedBody, Out.lift_ok, Out.andThen_ok] at hr
    obtain ⟨s1, h1, l2, h2, s3, h3, h4⟩ := hr
    cases h4
    simp only [inTableW, bind_ok] at hw
    obtain ⟨w1, hw1, hw⟩ := hw
    refine inside_fwd (c := c) (U := fun w1 => usesBody fuel w1 b ⟨[], w1.lv⟩) hT h hl h1 hw1 (readBody_frame h2) h3
      fun dW L' hfw hl1 => ?_
    exact (body_fwd hT hfw.out hfw.wo hG hN h2 hw (List.prefix_refl _) (l := ⟨0, s1⟩)
      ⟨hl1, hfw.lev, hfw.hold, hfw.so, hfw.lv, rfl⟩).2

end Verif
