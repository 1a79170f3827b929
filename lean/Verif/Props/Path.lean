import Verif.Model.Obj
import Verif.Lemmas.Eval
/-
Properties of `EndfPath`: C42, C43, C44.
-/
namespace Verif

/-- neither path extends the other -/
def Spec.Apart (p q : Path) : Prop := ¬ p <+: q ∧ ¬ q <+: p

open Spec

theorem PEl.key_inj {a b : PEl} : a.key = b.key ↔ a = b := by
  cases a <;> cases b <;> simp [PEl.key]

theorem getItem_setItem {o o' v : Obj} {k : PEl} (h : setItem o k v = .ok o') :
    getItem o' k = .ok v ∧ ∀ k', k' ≠ k → getItem o' k' = getItem o k' := by
  unfold setItem at h
  split at h
  · cases h
    refine ⟨by simp [getItem, dGet_dSet_self], fun k' hk => ?_⟩
    simp only [getItem]
    rw [dGet_dSet_ne (fun e => hk (PEl.key_inj.1 e.symm))]
  · rename_i l n
    split at h
    · rename_i hn
      cases h
      refine ⟨by simp [getItem, hn], fun k' hk => ?_⟩
      cases k' with
      | idx m =>
        have : n ≠ m := fun e => hk (by rw [e])
        simp [getItem, List.getElem?_set_ne this]
      | name s => simp [getItem]
    · cases h
  · cases h

/-- the element has been added or has been there; the others are the same -/
structure Child (o o1 : Obj) (k : PEl) (new c : Obj) : Prop where
  here : getItem o1 k = .ok c
  was : getItem o k = .ok c ∨ (∃ e, getItem o k = .error e) ∧ c = new
  rest : ∀ k', k' ≠ k → (getItem o1 k').toOption = (getItem o k').toOption

theorem listSetdefault_child {o o1 c new : Obj} {n : Nat} (h : listSetdefault o n new = .ok (o1, c)) :
    Child o o1 (.idx n) new c := by
  unfold listSetdefault at h
  simp only [bind_ok] at h
  obtain ⟨len, hl, h⟩ := h
  split at h
  · cases h
  · split at h
    · rename_i hn
      subst hn
      split at h
      · rename_i l
        cases h
        simp only [objLen, Except.ok.injEq] at hl
        subst hl
        refine ⟨by simp [getItem], .inr ⟨⟨.indexError, by simp [getItem]⟩, rfl⟩, fun k' hk => ?_⟩
        cases k' with
        | idx m =>
          have hm : l.length ≠ m := fun e => hk (by rw [e])
          simp only [getItem]
          by_cases h2 : m < l.length
          · rw [List.getElem?_append_left h2]
          · have : ¬ m < (l ++ [c]).length := by simp; omega
            rw [List.getElem?_eq_none (by omega), List.getElem?_eq_none (by omega)]
        | name s => simp [getItem]
      · cases h
    · simp only [bind_ok] at h
      obtain ⟨c', h1, h2⟩ := h
      cases h2
      exact ⟨h1, .inl h1, fun _ _ => rfl⟩

theorem dicSetdefault_child {o o1 c new : Obj} {k : PEl} (h : dicSetdefault o k new = .ok (o1, c)) :
    Child o o1 k new c := by
  unfold dicSetdefault at h
  split at h
  · rename_i d
    split at h
    · rename_i c' hc
      cases h
      have : getItem (.dic d) k = .ok c := by simp [getItem, hc]
      exact ⟨this, .inl this, fun _ _ => rfl⟩
    · rename_i hc
      cases h
      refine ⟨by simp [getItem, dGet_dSet_self], .inr ⟨⟨.keyError, by simp [getItem, hc]⟩, rfl⟩, fun k' hk => ?_⟩
      simp only [getItem]
      rw [dGet_dSet_ne (fun e => hk (PEl.key_inj.1 e.symm))]
  · cases h

theorem setStep_child {m : PMode} {lead : Bool} {k k2 : PEl} {o o1 c : Obj} (h : setStep m lead k k2 o = .ok (o1, c)) :
    ∃ new, (new = .dic [] ∨ new = .lst []) ∧ Child o o1 k new c := by
  unfold setStep at h
  split at h
  · exact ⟨_, .inl rfl, dicSetdefault_child h⟩
  · dsimp only at h
    split at h
    · refine ⟨_, ?_, listSetdefault_child h⟩
      split <;> simp
    · refine ⟨_, ?_, dicSetdefault_child h⟩
      split <;> simp

/-- putting back an element -/
theorem getItem_putBack {o c c' : Obj} {k : PEl} (h : getItem o k = .ok c) :
    (getItem (putBack o k c') k = .ok c' ∨ putBack o k c' = o ∧ ∃ s, c = .str s) ∧
      ∀ k', k' ≠ k → getItem (putBack o k c') k' = getItem o k' := by
  unfold putBack
  split
  · refine ⟨.inl (by simp [getItem, dGet_dSet_self]), fun k' hk => ?_⟩
    simp only [getItem]
    rw [dGet_dSet_ne (fun e => hk (PEl.key_inj.1 e.symm))]
  · rename_i l n
    have hn : n < l.length := by
      by_contra hn
      simp only [getItem] at h
      rw [List.getElem?_eq_none (by omega)] at h
      cases h
    refine ⟨.inl (by simp [getItem, hn]), fun k' hk => ?_⟩
    cases k' with
    | idx m =>
      have : n ≠ m := fun e => hk (by rw [e])
      simp [getItem, List.getElem?_set_ne this]
    | name s => simp [getItem]
  · rename_i h1 h2
    refine ⟨.inr ⟨rfl, ?_⟩, fun _ _ => rfl⟩
    unfold getItem at h
    split at h
    · exact absurd rfl (h1 _)
    · exact absurd rfl (h2 _ _ rfl)
    · split at h
      · cases h; exact ⟨_, rfl⟩
      · cases h
    · cases h

theorem setLast_str {m : PMode} {lead : Bool} {k : PEl} {s : Str} {v o' : Obj} :
    setLast m lead k (.str s) v ≠ .ok o' := by
  intro h
  unfold setLast at h
  split at h
  · simp [setItem] at h
  · split at h
    · simp only [listSet, objLen, bind_ok] at h
      obtain ⟨len, _, h⟩ := h
      split at h
      · cases h
      · split at h
        · cases h
        · simp [setItem] at h
    · simp [setItem] at h

/-- nothing can be set in a text -/
theorem psetL_str {m : PMode} {v : Obj} {p : Path} (hp : p ≠ []) {lead : Bool} {s : Str} :
    (∃ e o', psetL m v lead p (.str s) = .err e o') := by
  induction p generalizing lead s with
  | nil => exact absurd rfl hp
  | cons k p ih =>
    cases p with
    | nil =>
      rw [psetL]
      cases h : setLast m (lead && k.isIdx) k (.str s) v with
      | ok o' => exact absurd h setLast_str
      | error e => exact ⟨e, _, rfl⟩
    | cons k2 p =>
      rw [psetL]
      cases h : setStep m (lead && k.isIdx) k k2 (.str s) with
      | error e => exact ⟨e, _, rfl⟩
      | ok q =>
        obtain ⟨o1, c⟩ := q
        obtain ⟨new, hnew, hc⟩ := setStep_child h
        have : ∃ t, c = .str t := by
          rcases hc.was with h1 | ⟨_, rfl⟩
          · cases k with
            | idx n =>
              simp only [getItem] at h1
              split at h1
              · cases h1; exact ⟨_, rfl⟩
              · cases h1
            | name t => simp [getItem] at h1
          · exfalso
            unfold setStep at h
            split at h
            · simp [dicSetdefault] at h
            · dsimp only at h
              split at h
              · simp only [listSetdefault, objLen, bind_ok] at h
                obtain ⟨len, hl, h⟩ := h
                split at h
                · cases h
                · split at h
                  · cases h
                  · simp only [bind_ok, getItem] at h
                    obtain ⟨c1, h1, h2⟩ := h
                    split at h1
                    · cases h1
                      simp only [Except.ok.injEq, Prod.mk.injEq] at h2
                      rcases hnew with e | e <;> rw [e] at h2 <;> simp at h2
                    · cases h1
              · simp [dicSetdefault] at h
        obtain ⟨t, rfl⟩ := this
        obtain ⟨e, o', h2⟩ := ih (by simp) (lead := lead && k.isIdx) (s := t)
        dsimp only
        rw [h2]
        exact ⟨e, _, rfl⟩

theorem setLast_spec {m : PMode} {lead : Bool} {k : PEl} {o o' v : Obj} (h : setLast m lead k o v = .ok o') :
    getItem o' k = .ok v ∧ ∀ k', k' ≠ k → (getItem o' k').toOption = (getItem o k').toOption := by
  have base : ∀ {o o'}, setItem o k v = .ok o' →
      getItem o' k = .ok v ∧ ∀ k', k' ≠ k → (getItem o' k').toOption = (getItem o k').toOption := fun h =>
    ⟨(getItem_setItem h).1, fun k' hk => by rw [(getItem_setItem h).2 k' hk]⟩
  unfold setLast at h
  split at h
  · exact base h
  · split at h
    · rename_i n _
      simp only [listSet, bind_ok] at h
      obtain ⟨len, hl, h⟩ := h
      split at h
      · cases h
      · split at h
        · rename_i hn
          subst hn
          split at h
          · rename_i l
            cases h
            simp only [objLen, Except.ok.injEq] at hl
            subst hl
            refine ⟨by simp [getItem], fun k' hk => ?_⟩
            cases k' with
            | idx m =>
              have hm : l.length ≠ m := fun e => hk (by rw [e])
              simp only [getItem]
              by_cases h2 : m < l.length
              · rw [List.getElem?_append_left h2]
              · have : ¬ m < (l ++ [v]).length := by simp; omega
                rw [List.getElem?_eq_none (by omega), List.getElem?_eq_none (by omega)]
            | name s => simp [getItem]
          · cases h
        · exact base h
    · exact base h

/-- C42: after `p.set(d, v)`, `p.get(d)` is `v` -/
theorem C42_get (m : PMode) (p : Path) (o o' v : Obj) (hp : p ≠ []) (h : pset m p o v = .ok o') : pget p o' = .ok v := by
  unfold pset at h
  generalize true = lead at h
  induction p generalizing o o' lead with
  | nil => exact absurd rfl hp
  | cons k p ih =>
    cases p with
    | nil =>
      rw [psetL] at h
      cases h1 : setLast m (lead && k.isIdx) k o v with
      | error e => rw [h1] at h; cases h
      | ok o2 =>
        rw [h1] at h
        cases h
        simp [pget, (setLast_spec h1).1, bind, Except.bind]
    | cons k2 p =>
      rw [psetL] at h
      cases h1 : setStep m (lead && k.isIdx) k k2 o with
      | error e => rw [h1] at h; cases h
      | ok q =>
        obtain ⟨o1, c⟩ := q
        rw [h1] at h
        dsimp only at h
        cases h2 : psetL m v (lead && k.isIdx) (k2 :: p) c with
        | err e c' => rw [h2] at h; cases h
        | ok c' =>
          rw [h2] at h
          cases h
          obtain ⟨new, _, hc⟩ := setStep_child h1
          rcases (getItem_putBack (c' := c') hc.here).1 with h3 | ⟨_, s, rfl⟩
          · rw [pget, h3]
            exact ih c c' (by simp) _ h2
          · obtain ⟨e, o', h4⟩ := psetL_str (m := m) (v := v) (p := k2 :: p) (by simp) (lead := lead && k.isIdx) (s := s)
            rw [h4] at h2; cases h2

theorem pget_new {new : Obj} (hn : new = .dic [] ∨ new = .lst []) {q : Path} (hq : q ≠ []) :
    (pget q new).toOption = none := by
  cases q with
  | nil => exact absurd rfl hq
  | cons k q =>
    rcases hn with rfl | rfl
    · simp [pget, getItem, dGet, bind, Except.bind, Except.toOption]
    · cases k <;> simp [pget, getItem, bind, Except.bind, Except.toOption]

theorem pget_cons_eq {o o' : Obj} {k : PEl} (h : (getItem o' k).toOption = (getItem o k).toOption) (q : Path) :
    (pget (k :: q) o').toOption = (pget (k :: q) o).toOption := by
  simp only [pget]
  cases h1 : getItem o' k with
  | ok a =>
    cases h2 : getItem o k with
    | ok b => rw [h1, h2] at h; simp only [Except.toOption, Option.some.injEq] at h; rw [h]
    | error e => rw [h1, h2] at h; cases h
  | error e1 =>
    cases h2 : getItem o k with
    | ok b => rw [h1, h2] at h; cases h
    | error e => rfl

/-- C42: what is at a path that neither extends nor is extended by `p` is unchanged by `p.set(d, v)`, also if it fails -/
theorem C42_other (m : PMode) (p q : Path) (o v : Obj) (h : Apart p q) :
    (pget q (pset m p o v).obj).toOption = (pget q o).toOption := by
  unfold pset
  generalize true = lead
  induction p generalizing o lead q with
  | nil => exact absurd List.nil_prefix h.1
  | cons k p ih =>
    cases q with
    | nil => exact absurd List.nil_prefix h.2
    | cons k' q =>
      cases p with
      | nil =>
        rw [psetL]
        cases h1 : setLast m (lead && k.isIdx) k o v with
        | error e => rfl
        | ok o2 =>
          refine pget_cons_eq ((setLast_spec h1).2 k' ?_) q
          rintro rfl
          exact h.1 (by simp)
      | cons k2 p =>
        rw [psetL]
        cases h1 : setStep m (lead && k.isIdx) k k2 o with
        | error e => rfl
        | ok x =>
          obtain ⟨o1, c⟩ := x
          dsimp only
          obtain ⟨new, hnew, hc⟩ := setStep_child h1
          have hobj : ((psetL m v (lead && k.isIdx) (k2 :: p) c).map (putBack o1 k)).obj =
              putBack o1 k (psetL m v (lead && k.isIdx) (k2 :: p) c).obj := by
            cases psetL m v (lead && k.isIdx) (k2 :: p) c <;> rfl
          rw [hobj]
          generalize hc' : (psetL m v (lead && k.isIdx) (k2 :: p) c).obj = c'
          by_cases hk : k' = k
          · subst hk
            have hap : Apart (k2 :: p) q := by
              refine ⟨fun e => h.1 ?_, fun e => h.2 ?_⟩
              · exact (List.cons_prefix_cons).2 ⟨rfl, e⟩
              · exact (List.cons_prefix_cons).2 ⟨rfl, e⟩
            have hq : q ≠ [] := by rintro rfl; exact hap.2 List.nil_prefix
            have e1 : (pget (k' :: q) o).toOption = (pget q c).toOption := by
              rcases hc.was with h2 | ⟨⟨e, h2⟩, rfl⟩
              · rw [pget, h2]; rfl
              · rw [pget, h2, pget_new hnew hq]; rfl
            rw [e1]
            rcases (getItem_putBack (c' := c') hc.here).1 with h3 | ⟨h3, _⟩
            · rw [pget, h3, ← hc']
              exact ih q c hap _
            · rw [h3, pget, hc.here]; rfl
          · refine pget_cons_eq ?_ q
            rw [(getItem_putBack (c' := c') hc.here).2 k' hk]
            exact hc.rest k' hk

/-- C42: with dictionaries as arrays (the default) a failing `set` leaves the object as it was -/
theorem C42_failing (lm : Bool) (p : Path) (o o' v : Obj) (e : Err) (h : pset ⟨true, lm⟩ p o v = .err e o') : o' = o := by
  have ok : ∀ (p : Path) (lead : Bool), p ≠ [] → ∃ o2, psetL ⟨true, lm⟩ v lead p (.dic []) = .ok o2 := by
    intro p
    induction p with
    | nil => intro _ h; exact absurd rfl h
    | cons k p ih =>
      intro lead _
      cases p with
      | nil => exact ⟨_, by simp [psetL, setLast, setItem, Mut.of]; rfl⟩
      | cons k2 p =>
        obtain ⟨o2, h2⟩ := ih (lead && k.isIdx) (by simp)
        exact ⟨_, by simp [psetL, setStep, dicSetdefault, dGet, h2, Mut.map]; rfl⟩
  have key : ∀ lead, psetL ⟨true, lm⟩ v lead p o = .err e o' → o' = o := by
   clear h
   induction p generalizing o o' with
   | nil => intro _ h; cases h
   | cons k p ih =>
    intro lead h
    cases p with
    | nil =>
      rw [psetL] at h
      cases h1 : setLast ⟨true, lm⟩ (lead && k.isIdx) k o v with
      | error e => rw [h1] at h; cases h; rfl
      | ok o2 => rw [h1] at h; cases h
    | cons k2 p =>
      rw [psetL] at h
      simp only [setStep, Bool.true_or, if_true] at h
      cases o with
      | dic d =>
        simp only [dicSetdefault] at h
        cases hg : dGet k.key d with
        | none =>
          rw [hg] at h
          dsimp only at h
          obtain ⟨o2, h2⟩ := ok (k2 :: p) (lead && k.isIdx) (by simp)
          rw [h2] at h
          cases h
        | some c =>
          rw [hg] at h
          dsimp only at h
          cases h2 : psetL ⟨true, lm⟩ v (lead && k.isIdx) (k2 :: p) c with
          | ok c' => rw [h2] at h; cases h
          | err e' c' =>
            rw [h2] at h
            cases h
            rw [ih c c' _ h2]
            simp only [putBack]
            rw [dSet_same hg]
      | none => cases h; rfl
      | num x => cases h; rfl
      | str s => cases h; rfl
      | lst l => cases h; rfl
  exact key true h

/-! ## C43 -/

theorem pget_str {p : Path} {s : Str} {o : Obj} (h : pget p (.str s) = .ok o) : ∃ t, o = .str t := by
  induction p generalizing s with
  | nil => cases h; exact ⟨s, rfl⟩
  | cons k p ih =>
    cases k with
    | idx n =>
      simp only [pget, getItem] at h
      cases hs : s[n]? with
      | none => rw [hs] at h; cases h
      | some c => rw [hs] at h; exact ih h
    | name t => cases h


theorem getItem_err {o : Obj} {k : PEl} {e : Err} (h : getItem o k = .error e) :
    e = .keyError ∨ e = .indexError ∨ e = .typeError := by
  unfold getItem at h
  repeat' split at h
  all_goals first | cases h <;> simp

theorem pget_err {p : Path} {o : Obj} {e : Err} (h : pget p o = .error e) :
    e = .keyError ∨ e = .indexError ∨ e = .typeError := by
  induction p generalizing o with
  | nil => cases h
  | cons k p ih =>
    rw [pget] at h
    cases h1 : getItem o k with
    | ok c => rw [h1] at h; exact ih h
    | error e' => rw [h1] at h; cases h; exact getItem_err h1

/-- C43: `exists` never raises and is true iff `get` succeeds -/
theorem C43_exists (p : Path) (o : Obj) : pexists p o = .ok (pget p o).toBool := by
  unfold pexists
  cases h : pget p o with
  | ok v => rfl
  | error e => rcases pget_err h with rfl | rfl | rfl <;> rfl

/-- C43, partial: if the element is removed from a dictionary, the path doesn't exist any more and what is at other
paths is unchanged.  Missing: elements of lists, see `C43_fails`. -/
theorem C43_remove_partial (p : Path) (o o' : Obj) (d : Dict PKey Obj) (hd : pget p.dropLast o = .ok (.dic d))
    (hn : DNodup d) (h : premove p o = .ok o') :
    pexists p o' = .ok false ∧ ∀ q, Apart p q → (pget q o').toOption = (pget q o).toOption := by
  rw [C43_exists]
  suffices hs : (∃ e, pget p o' = .error e) ∧ ∀ q, Apart p q → (pget q o').toOption = (pget q o).toOption by
    obtain ⟨⟨e, he⟩, h2⟩ := hs
    exact ⟨by rw [he]; rfl, h2⟩
  induction p generalizing o o' with
  | nil => cases h
  | cons k p ih =>
    cases p with
    | nil =>
      simp only [List.dropLast_singleton, pget, Except.ok.injEq] at hd
      subst hd
      rw [premove, delItem] at h
      split at h
      · cases h
        refine ⟨⟨.keyError, ?_⟩, ?_⟩
        · simp only [pget, getItem, dGet_dDel hn]
          simp [bind, Except.bind]
        · intro q hq
          cases q with
          | nil => exact absurd List.nil_prefix hq.2
          | cons k' q =>
            refine pget_cons_eq ?_ q
            have : k.key ≠ k'.key := fun e => hq.1 (by rw [PEl.key_inj.1 e]; simp)
            simp only [getItem, dGet_dDel hn, if_neg this]
      · cases h
    | cons k2 p =>
      rw [premove] at h
      simp only [bind_ok] at h
      obtain ⟨c, h1, c', h2, h3⟩ := h
      cases h3
      simp only [List.dropLast_cons₂, pget, h1] at hd
      obtain ⟨⟨e, he⟩, i2⟩ := ih c c' hd h2
      have hp := getItem_putBack (c' := c') h1
      have hs : ∀ s, c ≠ .str s := by
        rintro s rfl
        obtain ⟨t, ht⟩ := pget_str hd
        cases ht
      rcases hp.1 with h4 | ⟨_, s, rfl⟩
      · refine ⟨⟨e, by rw [pget, h4]; exact he⟩, ?_⟩
        intro q hq
        cases q with
        | nil => exact absurd List.nil_prefix hq.2
        | cons k' q =>
          by_cases hk : k' = k
          · subst hk
            rw [pget, pget, h4, h1]
            exact i2 q ⟨fun e => hq.1 ((List.cons_prefix_cons).2 ⟨rfl, e⟩), fun e => hq.2 ((List.cons_prefix_cons).2 ⟨rfl, e⟩)⟩
          · exact pget_cons_eq (by rw [hp.2 k' hk]) q
      · exact absurd rfl (hs s)

/-! ## C44 -/

theorem pathEq_iff (p q : Path) (h : p.length = q.length) : pathEq p q = true ↔ p = q := by
  induction p generalizing q with
  | nil => cases q with
    | nil => simp [pathEq]
    | cons => simp at h
  | cons a p ih => cases q with
    | nil => simp at h
    | cons b q =>
      have := ih q (by simpa using h)
      simp only [pathEq, List.zip_cons_cons, List.all_cons, Bool.and_eq_true, decide_eq_true_eq, List.cons.injEq] at this ⊢
      rw [this]

/-- C44, partial: `==` holds for paths of the same length exactly if they consist of the same elements.  Missing: paths
of different lengths, see `C44_fails`. -/
theorem C44_partial (p q : Path) (h : p.length = q.length) : pathEq p q = true ↔ p = q := pathEq_iff p q h

/-- C44: what `==` decides: one path is a prefix of the other -/
theorem C44_prefix (p q : Path) : pathEq p q = true ↔ p <+: q ∨ q <+: p := by
  induction p generalizing q with
  | nil => simp [pathEq]
  | cons a p ih => cases q with
    | nil => simp [pathEq]
    | cons b q =>
      have := ih q
      simp only [pathEq, List.zip_cons_cons, List.all_cons, Bool.and_eq_true, decide_eq_true_eq,
        List.cons_prefix_cons] at this ⊢
      rw [this]
      constructor
      · rintro ⟨rfl, h | h⟩ <;> simp [h]
      · rintro (⟨rfl, h⟩ | ⟨rfl, h⟩) <;> simp [h]

/-- **C44 fails**: `==` holds for different paths, and it isn't transitive: `a/b == a`, `a == a/c`, but not
`a/b == a/c`. -/
theorem C44_fails :
    pathEq [.name ['a'], .name ['b']] [.name ['a']] = true ∧ pathEq [.name ['a']] [.name ['a'], .name ['c']] = true ∧
    pathEq [.name ['a'], .name ['b']] [.name ['a'], .name ['c']] = false := by decide

/-- C44: it is reflexive and symmetric -/
theorem C44_refl_symm (p q : Path) : pathEq p p = true ∧ (pathEq p q = pathEq q p) := by
  refine ⟨(C44_prefix p p).2 (.inl List.prefix_rfl), ?_⟩
  rw [Bool.eq_iff_iff, C44_prefix, C44_prefix, or_comm]

/-- **C43 fails** for elements of lists: after removal of `a/0` the path still exists, and what was at `a/1` is gone -/
theorem C43_fails :
    let o : Obj := .dic [(.str ['a'], .lst [.str ['x'], .str ['y']])]
    (match premove [.name ['a'], .idx 0] o with
    | .ok o' => (pexists [.name ['a'], .idx 0] o').toOption == some true &&
        (pexists [.name ['a'], .idx 1] o').toOption == some false && (pexists [.name ['a'], .idx 1] o).toOption == some true
    | .error _ => false) = true := by decide +kernel

/-- C42, list arrays: `a/1/b` is set in `{'a': [..]}`, and `a/1` is appended; a second new element of the array can't
be set -/
example :
    let o : Obj := .dic [(.str ['a'], .lst [.none])]
    (match pset ⟨false, true⟩ [.name ['a'], .idx 1, .name ['b']] o (.str ['v']) with
    | .ok o' => (match pget [.name ['a'], .idx 1, .name ['b']] o' with | .ok (.str s) => s == ['v'] | _ => false)
    | .err _ _ => false) = true ∧
    (pset ⟨false, true⟩ [.name ['a'], .idx 5, .name ['b']] o (.str ['v'])).isOk = false := by decide +kernel

/-- C42, C43 in nested dictionaries -/
example :
    let p : Path := [.name ['a'], .idx 1, .name ['b']]
    (match pset {} p (.dic [(.str ['a'], .dic [(.int 2, .none)])]) (.str ['v']) with
    | .ok o => (match pget p o with | .ok (.str s) => s == ['v'] | _ => false) &&
        (pget [.name ['a'], .idx 2] o).toBool &&
        (match premove p o with
        | .ok o' => (pexists p o').toOption == some false && (pget [.name ['a'], .idx 2] o').toBool
        | .error _ => false)
    | .err _ _ => false) = true := by decide +kernel

/-- with lists as arrays a failing `set` can leave something behind -/
theorem C42_list_leaves :
    (match pset ⟨false, true⟩ [.name ['a'], .idx 1] (.dic []) .none with
    | .err .indexError (.dic d) => dKeys d == [.str ['a']]
    | _ => false) = true := by decide +kernel

end Verif
