import Verif.Lemmas.Interp
import Verif.Model.RecipeWrite
/-
Writing leaves the data dictionary as it was.
-/
namespace Verif
open Spec

theorem filter_dSet {κ α : Type} [DecidableEq κ] {P : κ → Bool} {k : κ} (hk : P k = false) (v : α) (d : Dict κ α) :
    (dSet k v d).filter (fun p => P p.1) = d.filter (fun p => P p.1) := by
  induction d with
  | nil => simp [dSet, hk]
  | cons p d ih =>
    obtain ⟨a, b⟩ := p
    by_cases h : a = k
    · subst h; simp [dSet, hk]
    · simp only [dSet, if_neg h, List.filter_cons, ih]

theorem dDel_filter {κ α : Type} [DecidableEq κ] {k : κ} {d : Dict κ α} (hn : DNodup d) :
    dDel k d = d.filter (fun p => decide (p.1 ≠ k)) := by
  induction d with
  | nil => rfl
  | cons p d ih =>
    obtain ⟨a, b⟩ := p
    unfold DNodup dKeys at hn
    rw [List.map_cons, List.nodup_cons] at hn
    by_cases h : a = k
    · subst h
      simp only [dDel, if_true, List.filter_cons, ne_eq, not_true_eq_false, decide_false, Bool.false_eq_true, if_false]
      symm; rw [List.filter_eq_self]
      rintro ⟨x, y⟩ hx
      simp only [ne_eq, decide_not, Bool.not_eq_true', decide_eq_false_iff_not]
      rintro rfl
      exact hn.1 (List.mem_map.2 ⟨_, hx, rfl⟩)
    · simp only [dDel, if_neg h, List.filter_cons, ne_eq, h, not_false_eq_true, decide_true, if_true, if_false, ih hn.2]

/-- keys that are not for bookkeeping, given the names of the abbreviations -/
def coreKey (l : List Name) : Key → Bool
  | .var n => !l.contains n
  | .idx _ => true
  | .up => true
  | .abbrevs => false
  | .startidcs => false

/-- the dictionary without working entries -/
def core (d : DDic) : DDic := d.filter fun p => coreKey (abbrNames d) p.1

structure WInv (d : DDic) : Prop where
  lvl : Lvl true d
  abb : ∃ l, dGet .abbrevs d = some (.names l) ∧ ∀ n ∈ l, ∃ e, dGet (.var n) d = some (.abb e)

theorem foldlM_delVar_eq {l : List Name} {d d' : DDic} (hn : DNodup d) (h : l.foldlM delVar d = .ok d') :
    d' = d.filter fun p => match p.1 with | .var n => !l.contains n | _ => true := by
  induction l generalizing d with
  | nil =>
    simp only [List.foldlM_nil, pure_ok] at h; subst h
    symm; rw [List.filter_eq_self]
    rintro ⟨k, v⟩ _
    cases k <;> simp
  | cons m l ih =>
    simp only [List.foldlM_cons, bind_ok] at h
    obtain ⟨d1, h1, h⟩ := h
    unfold delVar at h1
    split at h1
    · cases h1
      rw [ih (dDel_nodup hn) h, dDel_filter hn, List.filter_filter]
      apply List.filter_congr
      rintro ⟨k, v⟩ _
      cases k with
      | var n =>
        by_cases hmn : n = m
        · subst hmn; simp
        · simp [hmn]
      | _ => simp
    · cases h1

theorem removeWork_core {d d' : DDic} (h : WInv d) (hr : removeWork d = .ok d') : d' = core d := by
  obtain ⟨l, hl, _⟩ := h.abb
  unfold removeWork at hr
  rw [hl] at hr
  simp only [bind_ok, pure_ok] at hr
  obtain ⟨d1, h1, rfl⟩ := hr
  have g := foldlM_delVar h.lvl.nodup h1
  rw [dDel_filter (dDel_nodup g.1), dDel_filter g.1, foldlM_delVar_eq h.lvl.nodup h1, List.filter_filter, List.filter_filter]
  unfold core
  apply List.filter_congr
  rintro ⟨k, v⟩ _
  cases k <;> simp [coreKey, abbrNames, hl]

theorem introAbbr_core {d d' : DDic} (h : WInv d) {n : Name} {e : Expr} (hi : introAbbr d n e = .ok d') :
    WInv d' ∧ core d' = core d := by
  have hlvl := (introAbbr_lvl h.lvl hi).1
  obtain ⟨l, hl, habb⟩ := h.abb
  unfold introAbbr at hi
  simp only [abbrNames, hl] at hi
  split at hi
  · cases hi
  · rename_i hcol
    cases hi
    generalize hl2 : (if l.contains n = true then l else l ++ [n]) = l2
    rw [hl2] at hlvl
    have eA : dGet Key.abbrevs (dSet (Key.var n) (.abb e) (dSet .abbrevs (.names l2) d)) = some (.names l2) := by
      rw [dGet_dSet_ne (by simp), dGet_dSet_self]
    have hmem : ∀ m ∈ l2, m = n ∨ m ∈ l := by
      intro m hm; rw [← hl2] at hm
      split at hm
      · exact .inr hm
      · rcases List.mem_append.1 hm with h | h
        · exact .inr h
        · exact .inl (by simpa using h)
    refine ⟨⟨hlvl, l2, eA, ?_⟩, ?_⟩
    · intro m hm
      by_cases hmn : m = n
      · subst hmn; exact ⟨e, dGet_dSet_self _ _ _⟩
      · rcases hmem m hm with h | h
        · exact absurd h hmn
        · obtain ⟨e', he'⟩ := habb m h
          exact ⟨e', by rw [dGet_dSet_ne (by simpa using Ne.symm hmn), dGet_dSet_ne (by simp)]; exact he'⟩
    · unfold core
      have e1 : abbrNames (dSet (Key.var n) (.abb e) (dSet .abbrevs (.names l2) d)) = l2 := by
        simp only [abbrNames, eA]
      have e2 : abbrNames d = l := by simp only [abbrNames, hl]
      rw [e1, e2]
      have hn2 : l2.contains n = true := by
        rw [← hl2]; split
        · assumption
        · simp
      have hk1 : coreKey l2 (.var n) = false := by simp only [coreKey, hn2, Bool.not_true]
      have hk2 : coreKey l2 .abbrevs = false := rfl
      rw [filter_dSet (P := coreKey l2) hk1, filter_dSet (P := coreKey l2) hk2]
      apply List.filter_congr
      rintro ⟨k, v⟩ hkv
      cases k with
      | var m =>
        simp only [coreKey]
        by_cases hc : l.contains n = true
        · rw [if_pos hc] at hl2; rw [hl2]
        · rw [if_neg hc] at hl2
          have hm : m ≠ n := by
            rintro rfl
            apply hcol
            have : dGet (Key.var m) d ≠ none := by
              rw [Ne, dGet_none_iff, not_not]; exact List.mem_map.2 ⟨_, hkv, rfl⟩
            obtain ⟨w, hw⟩ := Option.ne_none_iff_exists'.1 this
            simp only [dHas, hw, Option.isSome_some, Bool.and_true, Bool.not_eq_true']
            simpa using hc
          rw [← hl2]; simp [hm]
      | _ => rfl

theorem clean_work {d : DDic} (h : Lvl false d) : WInv (initWork d) ∧ core (initWork d) = d := by
  have eA : dGet Key.abbrevs (initWork d) = some (.names []) := by
    unfold initWork; rw [dGet_dSet_ne (by simp), dGet_dSet_self]
  refine ⟨⟨initWork_lvl h, [], eA, by simp⟩, ?_⟩
  have e1 : abbrNames (initWork d) = [] := by simp only [abbrNames, eA]
  unfold core
  rw [e1]; unfold initWork
  rw [filter_dSet (P := coreKey []) rfl, filter_dSet (P := coreKey []) rfl, List.filter_eq_self]
  rintro ⟨k, v⟩ hkv
  have hg := dGet_of_mem h.nodup hkv
  cases k with
  | var n => simp [coreKey]
  | idx i => rfl
  | up => rfl
  | abbrevs => cases (h.abbrevs v hg).1
  | startidcs => cases h.startidcs v hg

theorem setArr_subDicW {o : Option Val} {is : List Int} {d : DDic} (h : subDicW o is = .ok d) :
    ∃ v, o = some v ∧ setArr o is (.dic d) = .ok v := by
  induction is generalizing o with
  | nil =>
    cases o with
    | none => simp [subDicW] at h
    | some v =>
      cases v <;> simp [subDicW] at h
      subst h
      exact ⟨_, rfl, rfl⟩
  | cons i is ih =>
    cases o with
    | none => simp [subDicW] at h
    | some v =>
      cases v <;> simp [subDicW] at h
      rename_i d'
      obtain ⟨v, hv, hs⟩ := ih h
      refine ⟨_, rfl, ?_⟩
      simp only [setArr, hs, bind, Except.bind, pure, Except.pure]
      rw [dSet_same hv]

theorem subDicW_clean {o : Option Val} {is : List Int} {d : DDic} (ho : ∀ d, o = some (.dic d) → Clean (.dic d))
    (h : subDicW o is = .ok d) : Clean (.dic d) := by
  induction is generalizing o with
  | nil =>
    cases o with
    | none => simp [subDicW] at h
    | some v => cases v <;> simp [subDicW] at h; subst h; exact ho _ rfl
  | cons i is ih =>
    cases o with
    | none => simp [subDicW] at h
    | some v =>
      cases v <;> simp [subDicW] at h
      rename_i d'
      have := ho d' rfl
      cases this with
      | dic _ h1 h2 h3 => exact ih (fun d' hd => h3 _ _ hd) h

theorem dDel_none {κ α : Type} [DecidableEq κ] {k : κ} {d : Dict κ α} (h : dGet k d = none) : dDel k d = d := by
  induction d with
  | nil => rfl
  | cons p d ih =>
    obtain ⟨a, b⟩ := p
    by_cases hk : a = k
    · subst hk; simp [dGet] at h
    · simp only [dGet, if_neg hk] at h
      simp only [dDel, if_neg hk, ih h]

/-- what writing leaves unchanged -/
structure WFrame (s s' : WSt) : Prop where
  ups : s'.ups = s.ups
  lv : s'.lv = s.lv
  inv : WInv s.cur → WInv s'.cur ∧ core s'.cur = core s.cur

theorem WFrame.refl (s : WSt) : WFrame s s := ⟨rfl, rfl, fun h => ⟨h, rfl⟩⟩

theorem WFrame.trans {s s1 s2 : WSt} (h1 : WFrame s s1) (h2 : WFrame s1 s2) : WFrame s s2 :=
  ⟨h2.ups.trans h1.ups, h2.lv.trans h1.lv, fun h => ⟨(h2.inv (h1.inv h).1).1, (h2.inv (h1.inv h).1).2.trans (h1.inv h).2⟩⟩

theorem iterateW_lv {σ : Type} {lv : σ → Dict Name Int} {setVar : Int → σ → σ} {body : σ → Res σ} {v : Name}
    (hset : ∀ i s, lv (setVar i s) = dSet v i (lv s)) (hb : ∀ s s', body s = .ok s' → lv s' = lv s)
    (is : List Int) {s s' : σ} (h : iterateW setVar body is s = .ok s') (hne : is ≠ []) :
    ∃ i, lv s' = dSet v i (lv s) := by
  induction is generalizing s with
  | nil => exact absurd rfl hne
  | cons i is ih =>
    rw [iterateW, bind_ok] at h
    obtain ⟨s1, h1, h2⟩ := h
    have e1 : lv s1 = dSet v i (lv s) := by rw [hb _ _ h1, hset]
    by_cases hi : is = []
    · subst hi; cases h2; exact ⟨i, e1⟩
    · obtain ⟨j, hj⟩ := ih h2 hi
      exact ⟨j, by rw [hj, e1, dSet_dSet]⟩

theorem loopW_lv {σ : Type} {lv : σ → Dict Name Int} {setVar : Int → σ → σ} {body : σ → Res σ} {v : Name}
    (hset : ∀ i s, lv (setVar i s) = dSet v i (lv s)) (hb : ∀ s s', body s = .ok s' → lv s' = lv s)
    {x y : Int} {s s' : σ} (hv : dHas v (lv s) = false) (h : iterateW setVar body (intRange x y) s = .ok s') :
    (if x ≤ y then dDel v (lv s') else lv s') = lv s := by
  split
  · rename_i hxy
    obtain ⟨i, hi⟩ := iterateW_lv hset hb _ h (by rw [intRange_cons hxy]; simp)
    rw [hi, dDel_dSet _ hv]
  · rename_i hxy
    rw [intRange_empty (by omega)] at h
    cases h; rfl

theorem iterateW_frame {σ : Type} {R : σ → σ → Prop} (hr : ∀ s, R s s) (ht : ∀ {a b d}, R a b → R b d → R a d)
    {setVar : Int → σ → σ} {body : σ → Res σ} (hb : ∀ i s s', body (setVar i s) = .ok s' → R s s')
    (is : List Int) {s s' : σ} (h : iterateW setVar body is s = .ok s') : R s s' := by
  induction is generalizing s with
  | nil => cases h; exact hr _
  | cons i is ih =>
    rw [iterateW, bind_ok] at h
    obtain ⟨s1, h1, h2⟩ := h
    exact ht (hb _ _ _ h1) (ih h2)

theorem writeProg_frame {fuel : Nat} {p : Prog} {s s' : WSt} (h : writeProg fuel p s = .ok s') : WFrame s s' := by
  induction p generalizing s s' with
  | skip => cases h; exact .refl _
  | seq a b iha ihb =>
    rw [writeProg, bind_ok] at h
    obtain ⟨s1, h1, h2⟩ := h
    exact (iha h1).trans (ihb h2)
  | act a =>
    simp only [writeProg, bind_ok, pure_ok] at h
    obtain ⟨r, _, rfl⟩ := h
    exact ⟨rfl, rfl, fun h => ⟨h, rfl⟩⟩
  | sect r body ih =>
    simp only [writeProg, bind_ok] at h
    obtain ⟨s1, h1, s2, h2, cur, h3, h4⟩ := h
    unfold openW at h1
    split at h1
    · cases h1
    simp only [bind_ok, pure_ok] at h1
    obtain ⟨is, _, d, hd, rfl⟩ := h1
    have hf := ih h2
    have hu := hf.ups
    unfold closeW at h4
    simp only [hu, bind_ok, pure_ok] at h4
    obtain ⟨new, hn, rfl⟩ := h4
    refine ⟨rfl, hf.lv, fun hw => ?_⟩
    have hc : Clean (.dic d) := subDicW_clean (fun d' hd' => hw.lvl.dic_clean hd') hd
    have hl1 : Lvl false (dSet .up .mark d) := (Lvl.of_clean hc).set_up _
    obtain ⟨w1, w2⟩ := clean_work hl1
    obtain ⟨w3, w4⟩ := hf.inv w1
    have hcur := removeWork_core w3 h3
    rw [w4, w2] at hcur
    have hdel : dDel Key.up cur = d := by
      rw [hcur]
      apply dDel_dSet
      cases hc with
      | dic _ c1 c2 c3 =>
        unfold dHas
        cases hg : dGet Key.up d with
        | none => rfl
        | some v => exact absurd (.inl rfl) (c2 _ _ hg)
    obtain ⟨v, hv, hset⟩ := setArr_subDicW hd
    rw [hdel, hset] at hn
    cases hn
    simp only
    rw [dSet_same hv]
    exact ⟨hw, rfl⟩
  | loop v e1 e2 body ih =>
    simp only [writeProg, bind_ok, pure_ok] at h
    obtain ⟨⟨x, y⟩, h1, s1, h2, h3⟩ := h
    have hv := loopHead_ok h1
    have hlv := loopW_lv (lv := fun l : WSt => l.lv) (fun _ _ => rfl) (fun s s' hs => (ih (s := s) (s' := s') hs).lv) hv h2
    have hf : s1.ups = s.ups ∧ (WInv s.cur → WInv s1.cur ∧ core s1.cur = core s.cur) :=
      iterateW_frame (R := fun s s1 : WSt => s1.ups = s.ups ∧ (WInv s.cur → WInv s1.cur ∧ core s1.cur = core s.cur))
        (fun s => ⟨rfl, fun h => ⟨h, rfl⟩⟩)
        (fun h1 h2 => ⟨h2.1.trans h1.1, fun h => ⟨(h2.2 (h1.2 h).1).1, (h2.2 (h1.2 h).1).2.trans (h1.2 h).2⟩⟩)
        (fun i s s' hs => ⟨(ih (s := WSt.setVar v i s) hs).ups, (ih (s := WSt.setVar v i s) hs).inv⟩) _ h2
    subst h3
    dsimp only at hlv ⊢
    split
    · rename_i hxy; simp only [hxy, if_true] at hlv
      exact ⟨hf.1, hlv, hf.2⟩
    · rename_i hxy; simp only [hxy, if_false] at hlv
      exact ⟨hf.1, hlv, hf.2⟩
  | ite cond look thn els iht ihe =>
    simp only [writeProg, bind_ok] at h
    obtain ⟨t, _, h⟩ := h
    split at h
    · exact iht h
    · exact ihe h
  | abbr n e =>
    simp only [writeProg, bind_ok, pure_ok] at h
    obtain ⟨cur, h1, rfl⟩ := h
    exact ⟨rfl, rfl, fun hw => introAbbr_core hw h1⟩

end Verif
