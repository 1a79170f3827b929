import Verif.Spec.Scope
import Verif.Lemmas.Eval
/-
Lemmas on assignment of variables and the evaluation of expressions afterwards.
-/
namespace Verif
open Spec

/-- a value that is not a dictionary -/
def Val.isLeaf : Val → Bool
  | .dic _ => false
  | _ => true

/-- what is found below an optional container -/
def getArr? (o : Option Val) (is : List Int) : Res Val :=
  match o with
  | none => .error .unavailableIndex
  | some v => getArr v is

theorem getArr_setArr_same {o : Option Val} {is : List Int} {w new : Val} (h : setArr o is w = .ok new) :
    getArr new is = .ok w := by
  induction is generalizing o new with
  | nil =>
    have : new = w := by
      cases o with
      | none => simp only [setArr, Except.ok.injEq] at h; exact h.symm
      | some v => cases v <;> simp only [setArr, Except.ok.injEq] at h <;> exact h.symm
    subst this; simp [getArr]
  | cons i is ih =>
    cases o with
    | none =>
      simp only [setArr, bind_ok, pure_ok] at h
      obtain ⟨n, hn, rfl⟩ := h
      simp only [getArr, dGet_dSet_self]; exact ih hn
    | some v =>
      cases v with
      | dic d =>
        simp only [setArr, bind_ok, pure_ok] at h
        obtain ⟨n, hn, rfl⟩ := h
        simp only [getArr, dGet_dSet_self]; exact ih hn
      | _ => simp [setArr] at h

theorem getArr_setArr_keep {o : Option Val} {is : List Int} {w new : Val} (h : setArr o is w = .ok new)
    (hm : getArr? o is = .error .unavailableIndex) {is' : List Int} {v : Val} (hv : getArr? o is' = .ok v)
    (hl : v.isLeaf = true) : getArr new is' = .ok v := by
  induction is generalizing o new is' with
  | nil =>
    cases o with
    | none => simp [getArr?] at hv
    | some u => cases u <;> simp [getArr?, getArr] at hm
  | cons i is ih =>
    cases o with
    | none => simp [getArr?] at hv
    | some u =>
      cases u with
      | dic d =>
        simp only [setArr, bind_ok, pure_ok] at h
        obtain ⟨n, hn, rfl⟩ := h
        cases is' with
        | nil => simp only [getArr?, getArr, Except.ok.injEq] at hv; subst hv; simp [Val.isLeaf] at hl
        | cons j js =>
          simp only [getArr]
          rw [dGet_dSet]
          by_cases e : i = j
          · subst e
            rw [if_pos rfl]
            refine ih hn ?_ ?_
            · simp only [getArr?, getArr] at hm
              cases hd : dGet (Key.idx i) d with
              | none => rfl
              | some x => rw [hd] at hm; exact hm
            · simp only [getArr?, getArr] at hv
              cases hd : dGet (Key.idx i) d with
              | none => rw [hd] at hv; cases hv
              | some x => rw [hd] at hv; exact hv
          · rw [if_neg (by simpa using e)]
            exact hv
      | _ => simp [setArr] at h

/-- look-up without the enclosing dictionaries -/
theorem getVarval_local (cur : DDic) (ups : List DDic) (lv : Dict Name Int) (r : VarRef) :
    getVarval ⟨cur, ups, lv⟩ false r =
      if dHas (.var r.name) cur && dHas r.name lv then .error .loopVariable
      else match dGet r.name lv with
        | some i => .ok (.num (.int i))
        | none => match dGet (.var r.name) cur with
          | none => .error .variableNotFound
          | some v => r.idx.mapM (idxVal lv) >>= getArr v := by
  unfold getVarval
  have hf : findScope false r.name cur ups = if dHas (.var r.name) cur then some cur else none := by
    cases ups <;> simp [findScope]
  simp only [hf]
  split
  · rfl
  · cases dGet r.name lv with
    | some i => rfl
    | none =>
      cases hd : dGet (.var r.name) cur with
      | none => simp [dHas, hd]
      | some v => simp [dHas, hd]

/-- both references lead to the same place -/
def SamePlace (lv : Dict Name Int) (r r' : VarRef) : Prop :=
  r.name = r'.name ∧ r.idx.mapM (idxVal lv) = r'.idx.mapM (idxVal lv)

theorem idx_err {lv : Dict Name Int} {l : List Idx} {e : Err} (h : l.mapM (idxVal lv) = .error e) : e = .keyError := by
  induction l with
  | nil => simp [pure, Except.pure] at h
  | cons i l ih =>
    simp only [List.mapM_cons, bind_error, pure, Except.pure, reduceCtorEq, and_false, exists_false, or_false] at h
    rcases h with h | ⟨_, _, h⟩
    · cases i with
      | var n =>
        simp only [idxVal] at h
        split at h
        · cases h
        · cases h; rfl
      | num i => simp [idxVal] at h
    · exact ih h

/-- the state of affairs when a variable is missing -/
theorem missing_local {cur : DDic} {ups : List DDic} {lv : Dict Name Int} {r : VarRef} {e : Err}
    (h : getVarval ⟨cur, ups, lv⟩ false r = .error e) (hm : e.isMissing = true) :
    dGet r.name lv = none ∧
      ∀ is, r.idx.mapM (idxVal lv) = .ok is → getArr? (dGet (.var r.name) cur) is = .error .unavailableIndex := by
  rw [getVarval_local] at h
  split at h
  · cases h; simp [Err.isMissing] at hm
  · cases hl : dGet r.name lv with
    | some i => rw [hl] at h; cases h
    | none =>
      refine ⟨rfl, fun is his => ?_⟩
      rw [hl] at h
      cases hd : dGet (.var r.name) cur with
      | none => rfl
      | some v =>
        rw [hd] at h
        simp only [his] at h
        have h' : getArr v is = .error e := h
        simp only [getArr?]
        rw [h']
        have : ∀ (is : List Int) (v : Val) (e : Err), getArr v is = .error e → e = .unavailableIndex ∨ e = .typeError := by
          intro is
          induction is with
          | nil => intro v e h; cases v <;> simp [getArr] at h
          | cons i is ih =>
            intro v e h
            cases v with
            | dic d =>
              simp only [getArr] at h
              split at h
              · exact ih _ _ h
              · cases h; exact .inl rfl
            | _ => simp only [getArr, Except.error.injEq] at h; exact .inr h.symm
        rcases this _ _ _ h' with rfl | rfl
        · rfl
        · simp [Err.isMissing] at hm

/-- after an assignment the place has the value -/
theorem setVarval_same {cur cur' : DDic} {ups : List DDic} {lv : Dict Name Int} {r r' : VarRef} {w : Val}
    (h : setVarval cur lv r w = .ok cur') (hp : SamePlace lv r r') (hl : dGet r.name lv = none) :
    getVarval ⟨cur', ups, lv⟩ false r' = .ok w := by
  unfold setVarval at h
  simp only [bind_ok, pure_ok] at h
  obtain ⟨is, his, new, hnew, rfl⟩ := h
  rw [getVarval_local]
  have e2 : dHas r.name lv = false := by simp [dHas, hl]
  rw [← hp.1, e2, Bool.and_false, if_neg (by simp), hl]
  simp only [dGet_dSet_self]
  rw [← hp.2, his]
  exact getArr_setArr_same hnew

/-- an assignment to a missing place keeps all other values -/
theorem setVarval_keep {cur cur' : DDic} {ups : List DDic} {lv : Dict Name Int} {r r' : VarRef} {w v : Val} {e : Err}
    (h : setVarval cur lv r w = .ok cur') (hg : getVarval ⟨cur, ups, lv⟩ false r = .error e) (hm : e.isMissing = true)
    (hv : getVarval ⟨cur, ups, lv⟩ false r' = .ok v) (hl : v.isLeaf = true) :
    getVarval ⟨cur', ups, lv⟩ false r' = .ok v := by
  obtain ⟨h1, h2⟩ := missing_local hg hm
  unfold setVarval at h
  simp only [bind_ok, pure_ok] at h
  obtain ⟨is, his, new, hnew, rfl⟩ := h
  have h3 := h2 is his
  rw [getVarval_local] at hv ⊢
  by_cases e1 : r.name = r'.name
  · rw [← e1] at hv ⊢
    have e2 : dHas r.name lv = false := by simp [dHas, h1]
    rw [e2, Bool.and_false, if_neg (by simp), h1] at hv ⊢
    simp only [dGet_dSet_self]
    cases hd : dGet (.var r.name) cur with
    | none => rw [hd] at hv; cases hv
    | some u =>
      rw [hd] at hv
      simp only [bind_ok] at hv ⊢
      obtain ⟨is', his', hv⟩ := hv
      refine ⟨is', his', ?_⟩
      refine getArr_setArr_keep hnew h3 ?_ hl
      rw [hd]; exact hv
  · have e3 : dGet (Key.var r'.name) (dSet (Key.var r.name) new cur) = dGet (Key.var r'.name) cur :=
      dGet_dSet_ne (by simpa using e1) _ _
    simp only [dHas, e3] at hv ⊢
    exact hv

/-- variable references in an expression, also within the expressions of abbreviations -/
inductive Occ (B : VarRef → Binding) : VarRef → Expr → Prop
  | direct {r e} : r ∈ e.refs → Occ B r e
  | via {r r' e e'} : r' ∈ e.refs → B r' = .expr e' → Occ B r e' → Occ B r e

theorem Occ.mono {B : VarRef → Binding} {r : VarRef} {e e' : Expr} (h : Occ B r e) (hs : ∀ x ∈ e.refs, x ∈ e'.refs) :
    Occ B r e' := by
  cases h with
  | direct h => exact .direct (hs _ h)
  | via h1 h2 h3 => exact .via (hs _ h1) h2 h3

/-- a number that takes part in arithmetic -/
def PyNum.Plain (x : PyNum) : Prop := ∃ q, x.arith = .ok q

theorem plain_int (n : Int) : (PyNum.int n).Plain := ⟨_, rfl⟩
theorem plain_flt (q : ℚ) : (PyNum.num (.flt q)).Plain := ⟨_, rfl⟩

theorem pAdd_plain {x y z : PyNum} (h : pAdd x y = .ok z) : x.Plain ∧ y.Plain ∧ z.Plain := by
  unfold pAdd at h
  split at h
  · cases h; exact ⟨plain_int _, plain_int _, plain_int _⟩
  · simp only [bind_ok, pure_ok] at h
    obtain ⟨a, ha, b, hb, rfl⟩ := h
    exact ⟨⟨a, ha⟩, ⟨b, hb⟩, plain_flt _⟩

theorem pSub_plain {x y z : PyNum} (h : pSub x y = .ok z) : x.Plain ∧ y.Plain ∧ z.Plain := by
  unfold pSub at h
  split at h
  · cases h; exact ⟨plain_int _, plain_int _, plain_int _⟩
  · simp only [bind_ok, pure_ok] at h
    obtain ⟨a, ha, b, hb, rfl⟩ := h
    exact ⟨⟨a, ha⟩, ⟨b, hb⟩, plain_flt _⟩

theorem pMul_plain {x y z : PyNum} (h : pMul x y = .ok z) : x.Plain ∧ y.Plain ∧ z.Plain := by
  unfold pMul at h
  split at h
  · cases h; exact ⟨plain_int _, plain_int _, plain_int _⟩
  · simp only [bind_ok, pure_ok] at h
    obtain ⟨a, ha, b, hb, rfl⟩ := h
    exact ⟨⟨a, ha⟩, ⟨b, hb⟩, plain_flt _⟩

theorem pNeg_plain {x z : PyNum} (h : pNeg x = .ok z) : x.Plain ∧ z.Plain := by
  unfold pNeg at h
  split at h
  · cases h; exact ⟨plain_int _, plain_int _⟩
  · simp only [bind_ok, pure_ok] at h
    obtain ⟨a, ha, rfl⟩ := h
    exact ⟨⟨a, ha⟩, plain_flt _⟩

theorem pDiv_plain {c : Bool} {x y z : PyNum} (h : pDiv c x y = .ok z) : x.Plain ∧ y.Plain ∧ z.Plain := by
  unfold pDiv at h
  split at h
  · refine ⟨plain_int _, plain_int _, ?_⟩
    split at h
    · cases h
    · split at h
      · cases h; exact plain_int _
      · split at h
        · cases h
        · cases h; exact plain_flt _
  · simp only [bind_ok] at h
    obtain ⟨a, ha, b, hb, h⟩ := h
    split at h
    · cases h
    · rw [pure_ok] at h; subst h
      exact ⟨⟨a, ha⟩, ⟨b, hb⟩, plain_flt _⟩

theorem pMod_plain {x y z : PyNum} (h : pMod x y = .ok z) : x.Plain ∧ y.Plain ∧ z.Plain := by
  unfold pMod at h
  split at h
  · refine ⟨plain_int _, plain_int _, ?_⟩
    split at h
    · cases h
    · cases h; exact plain_int _
  · simp only [bind_ok] at h
    obtain ⟨a, ha, b, hb, h⟩ := h
    split at h
    · cases h
    · rw [pure_ok] at h; subst h
      exact ⟨⟨a, ha⟩, ⟨b, hb⟩, plain_flt _⟩

theorem pAdd_total {x y : PyNum} (hx : x.Plain) (hy : y.Plain) : ∃ z, pAdd x y = .ok z := by
  obtain ⟨a, ha⟩ := hx
  obtain ⟨b, hb⟩ := hy
  unfold pAdd
  split
  · exact ⟨_, rfl⟩
  · rw [ha, hb]; exact ⟨_, rfl⟩

theorem pSub_total {x y : PyNum} (hx : x.Plain) (hy : y.Plain) : ∃ z, pSub x y = .ok z := by
  obtain ⟨a, ha⟩ := hx
  obtain ⟨b, hb⟩ := hy
  unfold pSub
  split
  · exact ⟨_, rfl⟩
  · rw [ha, hb]; exact ⟨_, rfl⟩

theorem pMul_total {x y : PyNum} (hx : x.Plain) (hy : y.Plain) : ∃ z, pMul x y = .ok z := by
  obtain ⟨a, ha⟩ := hx
  obtain ⟨b, hb⟩ := hy
  unfold pMul
  split
  · exact ⟨_, rfl⟩
  · rw [ha, hb]; exact ⟨_, rfl⟩

theorem pNeg_total {x : PyNum} (hx : x.Plain) : ∃ z, pNeg x = .ok z := by
  obtain ⟨a, ha⟩ := hx
  unfold pNeg
  split
  · exact ⟨_, rfl⟩
  · rw [ha]; exact ⟨_, rfl⟩

theorem pDiv_total {x y : PyNum} (hx : x.Plain) (hy : y.Plain) (h0 : y.val ≠ 0) : ∃ z, pDiv false x y = .ok z := by
  obtain ⟨a, ha⟩ := hx
  obtain ⟨b, hb⟩ := hy
  have hb' := arith_val hb
  unfold pDiv
  split
  · rename_i m n
    have : n ≠ 0 := by intro e; subst e; exact h0 (by simp [PyNum.val])
    rw [if_neg this]
    split
    · exact ⟨_, rfl⟩
    · exact ⟨_, rfl⟩
  · rw [ha, hb]
    have : b ≠ 0 := by rw [← hb']; exact h0
    simp only [bind, Except.bind, if_neg this]
    exact ⟨_, rfl⟩

theorem pMod_total {x y : PyNum} (hx : x.Plain) (hy : y.Plain) (h0 : y.val ≠ 0) : ∃ z, pMod x y = .ok z := by
  obtain ⟨a, ha⟩ := hx
  obtain ⟨b, hb⟩ := hy
  have hb' := arith_val hb
  unfold pMod
  split
  · rename_i m n
    have : n ≠ 0 := by intro e; subst e; exact h0 (by simp [PyNum.val])
    rw [if_neg this]
    exact ⟨_, rfl⟩
  · rw [ha, hb]
    have : b ≠ 0 := by rw [← hb']; exact h0
    simp only [bind, Except.bind, if_neg this]
    exact ⟨_, rfl⟩

/-- relation between the result of an evaluation and that of a later one, in which the unknown has the value `w` -/
structure Re (w : ℚ) (c : PyNum) (v v' : Lin) : Prop where
  ex : ∃ c', v'.c = .num c' ∧ c'.val = c.val + v.k.val * w ∧ (c.Plain → c'.Plain)
  k0 : v'.k.val = 0
  kp : v'.k.Plain
  kp0 : v.k.Plain

theorem bindOf_abb {env : Env} {l : Bool} {r : VarRef} {e : Expr} (h : getVarval env l r = .ok (.abb e)) :
    bindOf env l r = .expr e := by
  simp [bindOf, h]

theorem evalWith_again {env env' : Env} {o o' : EvalOpts} {rec rec' : Expr → Res Lin} {w : PyNum}
    (hl : o'.lookUp = o.lookUp) (hci : o'.castInt = false) (hw : w.Plain)
    (H1 : ∀ r v, getVarval env o.lookUp r = .ok v → v.isLeaf = true → getVarval env' o.lookUp r = .ok v)
    (hmiss : o.acceptMissing = true → ∀ e x, rec e = .error x → x.isMissing = false)
    (hrec : ∀ e v c, (∀ r err, Occ (bindOf env o.lookUp) r e → getVarval env o.lookUp r = .error err →
        err.isMissing = true → getVarval env' o.lookUp r = .ok (.num w)) →
      rec e = .ok v → v.c = .num c → ∃ v', rec' e = .ok v' ∧ Re w.val c v v')
    (e : Expr) {v : Lin} {c : PyNum}
    (H2 : ∀ r err, Occ (bindOf env o.lookUp) r e → getVarval env o.lookUp r = .error err →
        err.isMissing = true → getVarval env' o.lookUp r = .ok (.num w))
    (h : evalWith env o rec e = .ok v) (hc : v.c = .num c) :
    ∃ v', evalWith env' o' rec' e = .ok v' ∧ Re w.val c v v' := by
  have hvar : ∀ (r : VarRef) (v : Lin) (c : PyNum),
      (∀ r' err, Occ (bindOf env o.lookUp) r' (.var r) → getVarval env o.lookUp r' = .error err →
        err.isMissing = true → getVarval env' o.lookUp r' = .ok (.num w)) →
      evalVar env o rec r = .ok v → v.c = .num c →
      ∃ v', evalVar env' o' rec' r = .ok v' ∧ Re w.val c v v' := by
    intro r v c H h hc
    rcases evalVar_cases h with ⟨e, hg, hr⟩ | ⟨u, hg, hu, rfl⟩ | ⟨ha, rfl, ⟨err, hg, hm⟩ | ⟨e, e', hg, hr, hm⟩⟩
    · obtain ⟨v', h1, h2⟩ := hrec e v c (fun r' err ho => H r' err
        (.via (r' := r) (by simp [Expr.refs]) (bindOf_abb hg) ho)) hr hc
      refine ⟨v', ?_, h2⟩
      unfold evalVar
      rw [hl, H1 _ _ hg rfl]
      simp only [h1]
    · simp only at hc; subst hc
      refine ⟨⟨.num c, .int 0, none⟩, ?_, ⟨⟨c, rfl, by simp [PyNum.val], id⟩, by simp [PyNum.val], plain_int _, plain_int _⟩⟩
      unfold evalVar
      rw [hl, H1 _ _ hg rfl]
    · simp only [Val.num.injEq] at hc; subst hc
      have := H r err (.direct (by simp [Expr.refs])) hg hm
      refine ⟨⟨.num w, .int 0, none⟩, ?_, ⟨⟨w, rfl, by simp [PyNum.val], fun _ => hw⟩, by simp [PyNum.val], plain_int _, plain_int _⟩⟩
      unfold evalVar
      rw [hl, this]
    · rw [hmiss ha _ _ hr] at hm; cases hm
  induction e generalizing v c with
  | num x =>
    simp only [evalWith, Except.ok.injEq] at h; subst h
    simp only [Val.num.injEq] at hc; subst hc
    exact ⟨_, rfl, ⟨⟨x, rfl, by simp [PyNum.val], id⟩, by simp [PyNum.val], plain_int _, plain_int _⟩⟩
  | desired x =>
    simp only [evalWith, Except.ok.injEq] at h; subst h
    simp only [Val.num.injEq] at hc; subst hc
    exact ⟨_, rfl, ⟨⟨x, rfl, by simp [PyNum.val], id⟩, by simp [PyNum.val], plain_int _, plain_int _⟩⟩
  | var r => exact hvar r v c H2 h hc
  | incons r => exact hvar r v c (fun r' err ho => H2 r' err (ho.mono (by simp [Expr.refs]))) h hc
  | neg e ih =>
    simp only [evalWith, bind_ok] at h
    obtain ⟨v1, h1, h⟩ := h
    unfold linNeg at h
    simp only [bind_ok, pure_ok] at h
    obtain ⟨a, ha, c1, hc1, k1, hk1, rfl⟩ := h
    simp only [Val.num.injEq] at hc; subst hc
    obtain ⟨v', g1, g2⟩ := ih (fun r' err ho => H2 r' err (ho.mono (by simp [Expr.refs]))) h1 (scalar_ok ha)
    obtain ⟨c', e1, e2, e3⟩ := g2.ex
    obtain ⟨z, hz⟩ := pNeg_total (e3 (pNeg_plain hc1).1)
    obtain ⟨z2, hz2⟩ := pNeg_total g2.kp
    refine ⟨⟨.num z, z2, v'.x⟩, ?_, ⟨⟨z, rfl, ?_, fun _ => (pNeg_plain hz).2⟩, ?_, (pNeg_plain hz2).2, (pNeg_plain hk1).2⟩⟩
    · simp only [evalWith, g1, linNeg, e1, Val.scalar, hz, hz2, bind, Except.bind, pure, Except.pure]
    · simp only [pNeg_val hz, pNeg_val hc1, pNeg_val hk1, e2]; ring
    · rw [pNeg_val hz2, g2.k0, neg_zero]
  | add a b i1 i2 =>
    simp only [evalWith, bind_ok] at h
    obtain ⟨v1, h1, v2, h2, h⟩ := h
    unfold linAddSub at h
    split at h
    · cases h
    · simp only [bind_ok, pure_ok] at h
      obtain ⟨a1, ha1, a2, ha2, c1, hc1, k1, hk1, rfl⟩ := h
      simp only [Val.num.injEq] at hc; subst hc
      obtain ⟨u1, g1, r1⟩ := i1 (fun r' err ho => H2 r' err (ho.mono (by simp +contextual [Expr.refs]))) h1 (scalar_ok ha1)
      obtain ⟨u2, g2, r2⟩ := i2 (fun r' err ho => H2 r' err (ho.mono (by simp +contextual [Expr.refs]))) h2 (scalar_ok ha2)
      obtain ⟨d1, e1, e2, e3⟩ := r1.ex
      obtain ⟨d2, f1, f2, f3⟩ := r2.ex
      obtain ⟨z, hz⟩ := pAdd_total (e3 (pAdd_plain hc1).1) (f3 (pAdd_plain hc1).2.1)
      obtain ⟨z2, hz2⟩ := pAdd_total r1.kp r2.kp
      have n1 : u1.unk = false := by simp [Lin.unk, r1.k0]
      refine ⟨⟨.num z, z2, u2.x⟩, ?_, ⟨⟨z, rfl, ?_, fun _ => (pAdd_plain hz).2.2⟩, ?_, (pAdd_plain hz2).2.2, (pAdd_plain hk1).2.2⟩⟩
      · simp [evalWith, g1, g2, linAddSub, e1, f1, n1, Val.scalar, hz, hz2, bind, Except.bind, pure, Except.pure]
      · simp only [pAdd_val hz, pAdd_val hc1, pAdd_val hk1, e2, f2]; ring
      · rw [pAdd_val hz2, r1.k0, r2.k0, add_zero]
  | sub a b i1 i2 =>
    simp only [evalWith, bind_ok] at h
    obtain ⟨v1, h1, v2, h2, h⟩ := h
    unfold linAddSub at h
    split at h
    · cases h
    · simp only [bind_ok, pure_ok] at h
      obtain ⟨a1, ha1, a2, ha2, c1, hc1, k1, hk1, rfl⟩ := h
      simp only [Val.num.injEq] at hc; subst hc
      obtain ⟨u1, g1, r1⟩ := i1 (fun r' err ho => H2 r' err (ho.mono (by simp +contextual [Expr.refs]))) h1 (scalar_ok ha1)
      obtain ⟨u2, g2, r2⟩ := i2 (fun r' err ho => H2 r' err (ho.mono (by simp +contextual [Expr.refs]))) h2 (scalar_ok ha2)
      obtain ⟨d1, e1, e2, e3⟩ := r1.ex
      obtain ⟨d2, f1, f2, f3⟩ := r2.ex
      obtain ⟨z, hz⟩ := pSub_total (e3 (pSub_plain hc1).1) (f3 (pSub_plain hc1).2.1)
      obtain ⟨z2, hz2⟩ := pSub_total r1.kp r2.kp
      have n1 : u1.unk = false := by simp [Lin.unk, r1.k0]
      refine ⟨⟨.num z, z2, u2.x⟩, ?_, ⟨⟨z, rfl, ?_, fun _ => (pSub_plain hz).2.2⟩, ?_, (pSub_plain hz2).2.2, (pSub_plain hk1).2.2⟩⟩
      · simp [evalWith, g1, g2, linAddSub, e1, f1, n1, Val.scalar, hz, hz2, bind, Except.bind, pure, Except.pure]
      · simp only [pSub_val hz, pSub_val hc1, pSub_val hk1, e2, f2]; ring
      · rw [pSub_val hz2, r1.k0, r2.k0, sub_zero]
  | mul a b i1 i2 =>
    simp only [evalWith, bind_ok] at h
    obtain ⟨v1, h1, v2, h2, h⟩ := h
    have key : ∃ a1 a2 c1 k1, v1.c = .num a1 ∧ v2.c = .num a2 ∧ pMul a1 a2 = .ok c1 ∧ k1.Plain ∧
        k1.val * w.val + a1.val * a2.val = (a1.val + v1.k.val * w.val) * (a2.val + v2.k.val * w.val) ∧ v.c = .num c1 ∧ v.k = k1 := by
      unfold linMul at h
      split at h
      · cases h
      · rename_i hu
        split at h
        · rename_i u1
          have hk1 : v1.k.val = 0 := by simpa [Lin.unk] using u1
          simp only [bind_ok, pure_ok] at h
          obtain ⟨a1, ha1, a2, ha2, c1, hc1, k1, hk1', rfl⟩ := h
          refine ⟨a1, a2, c1, k1, scalar_ok ha1, scalar_ok ha2, hc1, (pMul_plain hk1').2.2, ?_, rfl, rfl⟩
          rw [pMul_val hk1', hk1]; ring
        · rename_i u1
          have u1' : v1.unk = true := by simpa using u1
          have u2 : v2.unk = false := by simpa [u1'] using hu
          have hk2 : v2.k.val = 0 := by simpa [Lin.unk] using u2
          simp only [bind_ok, pure_ok] at h
          obtain ⟨a1, ha1, a2, ha2, c1, hc1, k1, hk1', rfl⟩ := h
          refine ⟨a1, a2, c1, k1, scalar_ok ha1, scalar_ok ha2, hc1, (pMul_plain hk1').2.2, ?_, rfl, rfl⟩
          rw [pMul_val hk1', hk2]; ring
    obtain ⟨a1, a2, c1, k1, ha1, ha2, hc1, hkp, hval, hvc, rfl⟩ := key
    rw [hvc] at hc
    simp only [Val.num.injEq] at hc; subst hc
    obtain ⟨u1, g1, r1⟩ := i1 (fun r' err ho => H2 r' err (ho.mono (by simp +contextual [Expr.refs]))) h1 ha1
    obtain ⟨u2, g2, r2⟩ := i2 (fun r' err ho => H2 r' err (ho.mono (by simp +contextual [Expr.refs]))) h2 ha2
    obtain ⟨d1, e1, e2, e3⟩ := r1.ex
    obtain ⟨d2, f1, f2, f3⟩ := r2.ex
    obtain ⟨z, hz⟩ := pMul_total (e3 (pMul_plain hc1).1) (f3 (pMul_plain hc1).2.1)
    obtain ⟨z2, hz2⟩ := pMul_total (e3 (pMul_plain hc1).1) r2.kp
    have n1 : u1.unk = false := by simp [Lin.unk, r1.k0]
    refine ⟨⟨.num z, z2, u2.x⟩, ?_, ⟨⟨z, rfl, ?_, fun _ => (pMul_plain hz).2.2⟩, ?_, (pMul_plain hz2).2.2, hkp⟩⟩
    · simp [evalWith, g1, g2, linMul, e1, f1, n1, Val.scalar, hz, hz2, bind, Except.bind, pure, Except.pure]
    · simp only [pMul_val hz, pMul_val hc1, e2, f2]; rw [← hval]; ring
    · rw [pMul_val hz2, r2.k0, mul_zero]
  | div a b i1 i2 =>
    simp only [evalWith, bind_ok] at h
    obtain ⟨v1, h1, v2, h2, h⟩ := h
    unfold linDiv at h
    split at h
    · cases h
    · rename_i hu
      have hk2 : v2.k.val = 0 := by simpa [Lin.unk] using hu
      simp only [bind_ok, pure_ok] at h
      obtain ⟨a1, ha1, a2, ha2, c1, hc1, k1, hk1, rfl⟩ := h
      simp only [Val.num.injEq] at hc; subst hc
      obtain ⟨u1, g1, r1⟩ := i1 (fun r' err ho => H2 r' err (ho.mono (by simp +contextual [Expr.refs]))) h1 (scalar_ok ha1)
      obtain ⟨u2, g2, r2⟩ := i2 (fun r' err ho => H2 r' err (ho.mono (by simp +contextual [Expr.refs]))) h2 (scalar_ok ha2)
      obtain ⟨d1, e1, e2, e3⟩ := r1.ex
      obtain ⟨d2, f1, f2, f3⟩ := r2.ex
      have hne : d2.val ≠ 0 := by rw [f2, hk2, zero_mul, add_zero]; exact (pDiv_val hc1).1
      obtain ⟨z, hz⟩ := pDiv_total (e3 (pDiv_plain hc1).1) (f3 (pDiv_plain hc1).2.1) hne
      obtain ⟨z2, hz2⟩ := pDiv_total r1.kp (f3 (pDiv_plain hc1).2.1) hne
      have n2 : u2.unk = false := by simp [Lin.unk, r2.k0]
      refine ⟨⟨.num z, z2, u1.x⟩, ?_, ⟨⟨z, rfl, ?_, fun _ => (pDiv_plain hz).2.2⟩, ?_, (pDiv_plain hz2).2.2, (pDiv_plain hk1).2.2⟩⟩
      · simp [evalWith, g1, g2, linDiv, e1, f1, n2, hci, Val.scalar, hz, hz2, bind, Except.bind, pure, Except.pure]
      · simp only [(pDiv_val hz).2, (pDiv_val hc1).2, (pDiv_val hk1).2, e2, f2, hk2]
        rw [zero_mul, add_zero]; ring
      · rw [(pDiv_val hz2).2, r1.k0, zero_div]
  | mod a b i1 i2 =>
    simp only [evalWith, bind_ok] at h
    obtain ⟨v1, h1, v2, h2, h⟩ := h
    unfold linMod at h
    split at h
    · cases h
    · rename_i hu
      have u1 : v1.unk = false := by cases h' : v1.unk <;> simp [h'] at hu ⊢
      have u2 : v2.unk = false := by cases h' : v2.unk <;> simp [h'] at hu ⊢
      have hk1 : v1.k.val = 0 := by simpa [Lin.unk] using u1
      have hk2 : v2.k.val = 0 := by simpa [Lin.unk] using u2
      simp only [bind_ok, pure_ok] at h
      obtain ⟨a1, ha1, a2, ha2, c1, hc1, rfl⟩ := h
      simp only [Val.num.injEq] at hc; subst hc
      obtain ⟨u1, g1, r1⟩ := i1 (fun r' err ho => H2 r' err (ho.mono (by simp +contextual [Expr.refs]))) h1 (scalar_ok ha1)
      obtain ⟨u2, g2, r2⟩ := i2 (fun r' err ho => H2 r' err (ho.mono (by simp +contextual [Expr.refs]))) h2 (scalar_ok ha2)
      obtain ⟨d1, e1, e2, e3⟩ := r1.ex
      obtain ⟨d2, f1, f2, f3⟩ := r2.ex
      have hne : d2.val ≠ 0 := by rw [f2, hk2, zero_mul, add_zero]; exact (pMod_val hc1).1
      obtain ⟨z, hz⟩ := pMod_total (e3 (pMod_plain hc1).1) (f3 (pMod_plain hc1).2.1) hne
      have n1 : u1.unk = false := by simp [Lin.unk, r1.k0]
      have n2 : u2.unk = false := by simp [Lin.unk, r2.k0]
      refine ⟨⟨.num z, .int 0, none⟩, ?_, ⟨⟨z, rfl, ?_, fun _ => (pMod_plain hz).2.2⟩, by simp [PyNum.val], plain_int _, plain_int _⟩⟩
      · simp [evalWith, g1, g2, linMod, e1, f1, n1, n2, Val.scalar, hz, bind, Except.bind, pure, Except.pure]
      · have e4 : (PyNum.int 0).val = 0 := by simp [PyNum.val]
        rw [(pMod_val hz).2, (pMod_val hc1).2, e2, f2, hk1, hk2, e4]
        simp only [zero_mul, add_zero]

theorem evalExpr_again (fuel : Nat) {env env' : Env} {o o' : EvalOpts} {w : PyNum}
    (hl : o'.lookUp = o.lookUp) (hci : o'.castInt = false) (hw : w.Plain)
    (H1 : ∀ r v, getVarval env o.lookUp r = .ok v → v.isLeaf = true → getVarval env' o.lookUp r = .ok v)
    (e : Expr) {v : Lin} {c : PyNum}
    (H2 : ∀ r err, Occ (bindOf env o.lookUp) r e → getVarval env o.lookUp r = .error err →
        err.isMissing = true → getVarval env' o.lookUp r = .ok (.num w))
    (h : evalExpr fuel env o e = .ok v) (hc : v.c = .num c) :
    ∃ v', evalExpr fuel env' o' e = .ok v' ∧ Re w.val c v v' := by
  induction fuel generalizing e v c with
  | zero =>
    refine evalWith_again (rec := fun _ => .error .recursion) (rec' := fun _ => .error .recursion) hl hci hw H1 ?_ ?_ e H2 h hc
    · intro _ _ _ h; cases h; rfl
    · intro _ _ _ _ h; cases h
  | succ n ih =>
    refine evalWith_again (rec := evalExpr n env o) (rec' := evalExpr n env' o') hl hci hw H1 ?_ ?_ e H2 h hc
    · intro ha _ _ h; exact evalExpr_err n ha h
    · intro e v c H h hc; exact ih e H h hc

/-- value of a linear form -/
theorem Lin.at_some {v : Lin} {c : PyNum} {ρ : VarRef → ℚ} {r : VarRef} (h : v.x = some r) :
    v.at c ρ = c.val + v.k.val * ρ r := by
  simp [Lin.at, h]

end Verif
