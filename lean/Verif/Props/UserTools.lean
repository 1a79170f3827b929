import Verif.Model.UserTools
import Verif.Lemmas.Eval
/-
C54 (sanitizing keys), C55 (locate), C56 (parsed and unparsed sections).
-/
namespace Verif
open Spec

mutual
/-- the keys of each dictionary are distinct, as in Python -/
def Obj.Wf : Obj → Prop
  | .dic d => DNodup d ∧ wfD d
  | .lst l => wfL l
  | _ => True
def wfD : List (PKey × Obj) → Prop
  | [] => True
  | (_, o) :: d => o.Wf ∧ wfD d
def wfL : List Obj → Prop
  | [] => True
  | o :: l => o.Wf ∧ wfL l
end

theorem wfD_mem {d : List (PKey × Obj)} (h : wfD d) {k : PKey} {o : Obj} (hm : (k, o) ∈ d) : o.Wf := by
  induction d with
  | nil => cases hm
  | cons p d ih =>
    obtain ⟨k', o'⟩ := p
    simp only [wfD] at h
    rcases List.mem_cons.1 hm with e | hm
    · cases e; exact h.1
    · exact ih h.2 hm

/-! ## C55 -/

/-- `loc` is the position of an entry named `v` in nested dictionaries -/
inductive Spec.Occ (v : PKey) : Obj → List PKey → Prop
  | here {d : List (PKey × Obj)} {o : Obj} (h : (v, o) ∈ d) : Occ v (.dic d) [v]
  | deeper {d e : List (PKey × Obj)} {k : PKey} {loc : List PKey} (h : (k, .dic e) ∈ d) (hl : Occ v (.dic e) loc) :
      Occ v (.dic d) (k :: loc)

theorem mem_dKeys {v : PKey} {d : List (PKey × Obj)} : v ∈ dKeys d ↔ ∃ o, (v, o) ∈ d := by
  simp [dKeys]

theorem Spec.Occ.ne_nil {v : PKey} {o : Obj} {loc : List PKey} (h : Occ v o loc) : loc ≠ [] := by
  cases h <;> simp

theorem locD_mem {v : PKey} {d : List (PKey × Obj)} {l : List PKey} :
    l ∈ locD v d ↔ ∃ k o r, (k, o) ∈ d ∧ r ∈ locO v o ∧ l = k :: r := by
  induction d with
  | nil => simp [locD]
  | cons p d ih =>
    obtain ⟨k, o⟩ := p
    rw [locD, List.mem_append, ih, List.mem_map]
    constructor
    · rintro (⟨r, h1, rfl⟩ | ⟨k', o', r, h1, h2, h3⟩)
      · exact ⟨k, o, r, by simp, h1, rfl⟩
      · exact ⟨k', o', r, by simp [h1], h2, h3⟩
    · rintro ⟨k', o', r, h1, h2, rfl⟩
      rcases List.mem_cons.1 h1 with e | h1
      · cases e; exact .inl ⟨r, h2, rfl⟩
      · exact .inr ⟨k', o', r, h1, h2, rfl⟩

/-- locations returned are the occurrences without another one on a level above -/
theorem locO_iff (v : PKey) (l : List PKey) (o : Obj) (hw : o.Wf) :
    l ∈ locO v o ↔ Occ v o l ∧ ∀ a b, l = a ++ b → 2 ≤ b.length → ¬ Occ v o (a ++ [v]) := by
  induction l generalizing o with
  | nil =>
    constructor
    · intro h
      cases o with
      | dic d =>
        rw [locO] at h
        split at h
        · simp at h
        · rw [locD_mem] at h; obtain ⟨k, o, r, _, _, h⟩ := h; cases h
      | _ => simp [locO] at h
    · rintro ⟨h, _⟩; exact absurd rfl h.ne_nil
  | cons k r ih =>
    cases o with
    | dic d =>
      rw [locO]
      by_cases hv : v ∈ dKeys d
      · rw [if_pos hv, List.mem_singleton]
        obtain ⟨o, ho⟩ := mem_dKeys.1 hv
        constructor
        · intro e
          cases e
          refine ⟨.here ho, fun a b hab hb => ?_⟩
          have := congrArg List.length hab
          simp at this; omega
        · rintro ⟨h1, h2⟩
          cases r with
          | nil =>
            cases h1 with
            | here h => rfl
            | deeper h hl => exact absurd rfl hl.ne_nil
          | cons k2 r => exact absurd (.here ho) (h2 [] (k :: k2 :: r) rfl (by simp))
      · rw [if_neg hv, locD_mem]
        constructor
        · rintro ⟨k', o, r', h1, h2, h3⟩
          cases h3
          obtain ⟨h4, h5⟩ := (ih o (wfD_mem hw.2 h1)).1 h2
          have ho : ∃ e, o = .dic e := by cases h4 <;> exact ⟨_, rfl⟩
          obtain ⟨e, rfl⟩ := ho
          refine ⟨.deeper h1 h4, fun a b hab hb hn => ?_⟩
          cases a with
          | nil =>
            cases hn with
            | here h => exact hv (mem_dKeys.2 ⟨_, h⟩)
            | deeper h hl => exact absurd rfl hl.ne_nil
          | cons x a =>
            cases hab
            generalize hz : (k :: a) ++ [v] = z at hn
            cases hn with
            | here h => cases a <;> simp at hz
            | @deeper _ e2 _ _ h hl =>
              simp only [List.cons_append, List.cons.injEq] at hz
              obtain ⟨rfl, rfl⟩ := hz
              have := dGet_of_mem hw.1 h
              rw [dGet_of_mem hw.1 h1] at this
              cases this
              exact h5 a b rfl hb hl
        · rintro ⟨h1, h2⟩
          cases h1 with
          | here h => exact absurd (mem_dKeys.2 ⟨_, h⟩) hv
          | @deeper _ e _ _ h hl =>
            refine ⟨k, .dic e, r, h, (ih (.dic e) (wfD_mem hw.2 h)).2 ⟨hl, fun a b hab hb hn => ?_⟩, rfl⟩
            exact h2 (k :: a) b (by rw [hab]; rfl) hb (.deeper h hn)
    | _ =>
      simp only [locO, List.not_mem_nil, false_iff, not_and]
      intro h; cases h

theorem locD_nodup {v : PKey} {d : List (PKey × Obj)} (hn : DNodup d) (ih : ∀ k o, (k, o) ∈ d → (locO v o).Nodup) :
    (locD v d).Nodup := by
  induction d with
  | nil => simp [locD]
  | cons p d ihd =>
    obtain ⟨k, o⟩ := p
    rw [locD, List.nodup_append']
    unfold DNodup at hn
    simp only [dKeys, List.map_cons, List.nodup_cons] at hn
    refine ⟨(ih k o (by simp)).map fun a b h => by simpa using h, ihd hn.2 fun k o h => ih k o (by simp [h]), ?_⟩
    intro l h1 h2
    obtain ⟨r, _, rfl⟩ := List.mem_map.1 h1
    obtain ⟨k', o', r', h3, _, h4⟩ := locD_mem.1 h2
    cases h4
    exact hn.1 (List.mem_map.2 ⟨_, h3, rfl⟩)

mutual
theorem locO_nodup (v : PKey) : ∀ o : Obj, o.Wf → (locO v o).Nodup
  | .dic d, h => by
    rw [locO]
    split
    · simp
    · exact locD_nodup h.1 (locD_all v d h.2)
  | .none, _ => by simp [locO]
  | .num _, _ => by simp [locO]
  | .str _, _ => by simp [locO]
  | .lst _, _ => by simp [locO]
theorem locD_all (v : PKey) : ∀ d : List (PKey × Obj), wfD d → ∀ k o, (k, o) ∈ d → (locO v o).Nodup
  | [], _ => fun k o hm => by cases hm
  | (k', o') :: d, h => fun k o hm => by
    simp only [wfD] at h
    have h1 := locO_nodup v o' h.1
    have h2 := locD_all v d h.2
    rcases List.mem_cons.1 hm with e | hm
    · cases e; exact h1
    · exact h2 k o hm
end

theorem occ_get {v : PKey} {o : Obj} {l : List PKey} (h : Occ v o l) (hw : o.Wf) :
    (∃ x, getLoc l o = .ok x) ∧ l.getLast? = some v := by
  induction h with
  | here h => exact ⟨⟨_, by rw [getLoc, dGet_of_mem hw.1 h]; rfl⟩, rfl⟩
  | @deeper d e k loc h hl ih =>
    obtain ⟨⟨x, h1⟩, h2⟩ := ih (wfD_mem hw.2 h)
    refine ⟨⟨x, by rw [getLoc, dGet_of_mem hw.1 h]; exact h1⟩, ?_⟩
    rw [List.getLast?_cons, h2]; rfl

/-- C55: every location leads to the variable -/
theorem C55_leads (v : PKey) (o : Obj) (hw : o.Wf) (l : List PKey) (h : l ∈ locO v o) :
    (∃ x, getLoc l o = .ok x) ∧ l.getLast? = some v :=
  occ_get ((locO_iff v l o hw).1 h).1 hw

/-- C55: hence `get_endf_values` succeeds on the locations -/
theorem C55_values (v : PKey) (o : Obj) (hw : o.Wf) : ∃ xs, getValues o (locO v o) = .ok xs ∧ xs.length = (locO v o).length := by
  have : ∀ ls : List (List PKey), (∀ l ∈ ls, ∃ x, getLoc l o = .ok x) →
      ∃ xs, getValues o ls = .ok xs ∧ xs.length = ls.length := by
    intro ls
    induction ls with
    | nil => intro _; exact ⟨[], rfl, rfl⟩
    | cons l ls ih =>
      intro h
      obtain ⟨x, hx⟩ := h l (by simp)
      obtain ⟨xs, h1, h2⟩ := ih fun l hl => h l (by simp [hl])
      refine ⟨x :: xs, ?_, by simp [h2]⟩
      unfold getValues at h1 ⊢
      simp [List.mapM_cons, hx, h1, bind, Except.bind, pure, Except.pure]
  exact this _ fun l hl => (C55_leads v o hw l hl).1

/-- C55, partial: an occurrence is returned exactly once if no dictionary on the way to the one that contains it contains
the variable, and no other locations are returned.  Missing: an occurrence in a sub-dictionary of a dictionary that
contains the variable, although it is not below the other occurrence itself, see `C55_fails`. -/
theorem C55_partial (v : PKey) (o : Obj) (hw : o.Wf) :
    (locO v o).Nodup ∧
    ∀ l, l ∈ locO v o ↔ Occ v o l ∧ ∀ a b, l = a ++ b → 2 ≤ b.length → ¬ Occ v o (a ++ [v]) :=
  ⟨locO_nodup v o hw, fun l => locO_iff v l o hw⟩

/-- C55: nothing is returned iff there is no occurrence -/
theorem C55_none (v : PKey) (o : Obj) (hw : o.Wf) : locO v o = [] ↔ ∀ l, ¬ Occ v o l := by
  constructor
  · intro h l hl
    -- the shortest beginning of `l` that is an occurrence
    have : ∀ n l, l.length ≤ n → Occ v o l → ∃ l', l' ∈ locO v o := by
      intro n
      induction n with
      | zero => intro l hn hl; exact absurd (List.length_eq_zero_iff.1 (by omega)) hl.ne_nil
      | succ n ih =>
        intro l hn hl
        by_cases hex : ∃ a b, l = a ++ b ∧ 2 ≤ b.length ∧ Occ v o (a ++ [v])
        · obtain ⟨a, b, rfl, hb, ho⟩ := hex
          refine ih _ ?_ ho
          simp only [List.length_append, List.length_cons, List.length_nil] at hn ⊢
          omega
        · refine ⟨l, (locO_iff v l o hw).2 ⟨hl, fun a b h1 h2 h3 => hex ⟨a, b, h1, h2, h3⟩⟩⟩
    obtain ⟨l', h'⟩ := this l.length l le_rfl hl
    rw [h] at h'; cases h'
  · intro h
    apply List.eq_nil_iff_forall_not_mem.2
    intro l hl
    exact h l ((locO_iff v l o hw).1 hl).1

/-- **C55 fails**: an occurrence that isn't nested below another one isn't returned: `AWR` and `a/AWR` -/
theorem C55_fails :
    let v : PKey := .str ['v']
    let o : Obj := .dic [(v, .none), (.str ['a'], .dic [(v, .none)])]
    locO v o = [[v]] ∧ (getLoc [.str ['a'], v] o).toBool = true := by decide +kernel

/-- C55: two occurrences, one of them in a dictionary below the other level -/
example :
    let v : PKey := .str ['v']
    let o : Obj := .dic [(.int 1, .dic [(v, .none)]), (.int 2, .dic [(.str ['a'], .dic [(v, .num (.int 3))])])]
    locO v o = [[.int 1, v], [.int 2, .str ['a'], v]] := by decide +kernel

/-! ## C56 -/

/-- the sections of an object with two levels -/
def Spec.sections (d : List (PKey × Obj)) : List (PKey × PKey) :=
  d.flatMap fun (mf, o) => match o with
    | .dic e => e.map fun (mt, _) => (mf, mt)
    | _ => []

/-- each section is a dictionary or a list -/
def Spec.ResultShape (d : List (PKey × Obj)) : Prop :=
  ∀ mf o, (mf, o) ∈ d → ∃ e, o = .dic e ∧ ∀ mt s, (mt, s) ∈ e → s.isDict = true ∨ s.isList = true

theorem listMts_perm {mf : PKey} {e : List (PKey × Obj)} (h : ∀ mt s, (mt, s) ∈ e → s.isDict = true ∨ s.isList = true) :
    (listMts Obj.isDict mf e ++ listMts Obj.isList mf e).Perm (e.map fun (mt, _) => (mf, mt)) := by
  induction e with
  | nil => simp [listMts]
  | cons p e ih =>
    obtain ⟨mt, s⟩ := p
    have ih := ih fun mt s hs => h mt s (by simp [hs])
    rw [listMts, listMts]
    cases s with
    | dic d => simpa [Obj.isDict, Obj.isList] using ih
    | lst l =>
      simp only [Obj.isDict, Obj.isList, Bool.false_eq_true, if_false, if_true, List.map_cons]
      exact List.perm_middle.trans (ih.cons _)
    | _ => rcases h mt _ (List.mem_cons_self ..) with h | h <;> cases h

/-- C56: the two lists together are the sections, each exactly once -/
theorem C56_partition (d : List (PKey × Obj)) (h : ResultShape d) :
    ∃ p u, listParsed d = .ok p ∧ listUnparsed d = .ok u ∧ (p ++ u).Perm (sections d) := by
  induction d with
  | nil => exact ⟨[], [], rfl, rfl, by simp [sections]⟩
  | cons x d ih =>
    obtain ⟨mf, o⟩ := x
    obtain ⟨p, u, h1, h2, h3⟩ := ih fun mf o hm => h mf o (by simp [hm])
    obtain ⟨e, rfl, he⟩ := h mf o (by simp)
    refine ⟨listMts Obj.isDict mf e ++ p, listMts Obj.isList mf e ++ u, ?_, ?_, ?_⟩
    · unfold listParsed at h1 ⊢; rw [listMfs, h1]; rfl
    · unfold listUnparsed at h2 ⊢; rw [listMfs, h2]; rfl
    · have := (listMts_perm (mf := mf) he).append h3
      refine List.Perm.trans ?_ this
      rw [List.append_assoc, List.append_assoc]
      refine List.Perm.append_left _ ?_
      rw [← List.append_assoc, ← List.append_assoc]
      exact List.Perm.append_right _ List.perm_append_comm

/-- C56: no section is listed twice -/
theorem C56_once (d : List (PKey × Obj)) (h : ResultShape d) (hw : (Obj.dic d).Wf) (p u : List (PKey × PKey))
    (hp : listParsed d = .ok p) (hu : listUnparsed d = .ok u) : (p ++ u).Nodup := by
  obtain ⟨p', u', h1, h2, h3⟩ := C56_partition d h
  rw [hp] at h1; rw [hu] at h2; cases h1; cases h2
  rw [h3.nodup_iff]
  clear h3 hp hu
  induction d with
  | nil => simp [sections]
  | cons x d ih =>
    obtain ⟨mf, o⟩ := x
    obtain ⟨e, rfl, he⟩ := h mf o (by simp)
    obtain ⟨hn, hwd⟩ := hw
    simp only [wfD, Obj.Wf] at hwd
    unfold DNodup at hn
    simp only [dKeys, List.map_cons, List.nodup_cons] at hn
    have ih := ih (fun mf o hm => h mf o (by simp [hm])) ⟨hn.2, hwd.2⟩
    simp only [sections, List.flatMap_cons] at ih ⊢
    rw [List.nodup_append']
    refine ⟨?_, ih, ?_⟩
    · have := hwd.1.1
      unfold DNodup dKeys at this
      have := this.map (f := fun mt => (mf, mt)) fun a b hab => by simpa using hab
      rw [List.map_map] at this
      exact this
    · intro a h1 h2
      obtain ⟨q, _, rfl⟩ := List.mem_map.1 h1
      obtain ⟨⟨mf', o'⟩, h3, h4⟩ := List.mem_flatMap.1 h2
      cases o' with
      | dic e' =>
        obtain ⟨q', _, h5⟩ := List.mem_map.1 h4
        simp only [Prod.mk.injEq] at h5
        exact hn.1 (List.mem_map.2 ⟨_, h3, h5.1⟩)
      | _ => simp at h4

/-- C56: results of `parse` have this shape -/
theorem C56_result (emb : DDic → List (PKey × Obj)) (r : Dict Int (Dict Int (SecVal DDic))) : ResultShape (resultObj emb r) := by
  intro mf o hm
  obtain ⟨⟨mf', d⟩, _, h⟩ := List.mem_map.1 hm
  cases h
  refine ⟨_, rfl, fun mt s hs => ?_⟩
  obtain ⟨⟨mt', v⟩, _, h⟩ := List.mem_map.1 hs
  cases h
  cases v <;> simp [secObj, Obj.isDict, Obj.isList]

/-- C56: for the result of any call of `parse`, the sections listed are those of the result -/
theorem C56_parse (x : PCtx) (o : PObj) (a : PArgs) (emb : DDic → List (PKey × Obj)) (r : Dict Int (Dict Int (SecVal DDic)))
    (_h : (parse x o a).2 = .ok r) :
    ∃ p u, listParsed (resultObj emb r) = .ok p ∧ listUnparsed (resultObj emb r) = .ok u ∧
      (p ++ u).Perm (r.flatMap fun (mf, d) => d.map fun (mt, _) => (.int mf, .int mt)) := by
  obtain ⟨p, u, h1, h2, h3⟩ := C56_partition _ (C56_result emb r)
  refine ⟨p, u, h1, h2, h3.trans (List.Perm.of_eq ?_)⟩
  simp [sections, resultObj, List.flatMap_map, Function.comp_def]

/-- C56: one section of each kind -/
example :
    let d : List (PKey × Obj) := [(.int 1, .dic [(.int 451, .lst []), (.int 452, .dic [])]), (.int 3, .dic [(.int 1, .dic [])])]
    (listParsed d).toOption = some [(.int 1, .int 452), (.int 3, .int 1)] ∧ (listUnparsed d).toOption = some [(.int 1, .int 451)] := by
  decide +kernel

/-! ## C54 -/

/-- the key that a text of an integer is converted to -/
def Spec.convKey : PKey → PKey
  | .int n => .int n
  | .str s => match pyInt s with
    | some n => .int n
    | none => .str s

mutual
/-- `b` results from `a` by converting exactly the keys that are texts of integers at all levels of dictionaries, keeping
the values; the order of entries may differ -/
inductive Spec.San : Obj → Obj → Prop
  | dic {d e r : List (PKey × Obj)} (h : SanD d e) (hp : r.Perm e) : San (.dic d) (.dic r)
  | other {o : Obj} (h : o.isDict = false) : San o o
inductive Spec.SanD : List (PKey × Obj) → List (PKey × Obj) → Prop
  | nil : SanD [] []
  | cons {k : PKey} {o o' : Obj} {d e : List (PKey × Obj)} (ho : San o o') (hd : SanD d e) :
      SanD ((k, o) :: d) ((convKey k, o') :: e)
end

theorem dDel_perm {k : PKey} {v : Obj} {d : List (PKey × Obj)} (h : dGet k d = some v) : d.Perm ((k, v) :: dDel k d) := by
  induction d with
  | nil => cases h
  | cons p d ih =>
    obtain ⟨k', v'⟩ := p
    rw [dGet] at h
    rw [dDel]
    by_cases e : k' = k
    · rw [if_pos e] at h ⊢; cases h; rw [e]
    · rw [if_neg e] at h ⊢
      exact ((ih h).cons _).trans (List.Perm.swap _ _ _)

theorem dSet_new {k : PKey} {v : Obj} {d : List (PKey × Obj)} (h : dGet k d = none) : dSet k v d = d ++ [(k, v)] := by
  induction d with
  | nil => rfl
  | cons p d ih =>
    obtain ⟨k', v'⟩ := p
    rw [dGet] at h
    split at h
    · cases h
    · rename_i e; rw [dSet, if_neg e, ih h, List.cons_append]

theorem dDel_append {k k2 : PKey} {v v2 : Obj} {d : List (PKey × Obj)} (h : dGet k d = some v) :
    dDel k (d ++ [(k2, v2)]) = dDel k d ++ [(k2, v2)] := by
  induction d with
  | nil => cases h
  | cons p d ih =>
    obtain ⟨k', v'⟩ := p
    rw [dGet] at h
    rw [List.cons_append, dDel, dDel]
    by_cases e : k' = k
    · rw [if_pos e, if_pos e]
    · rw [if_neg e] at h; rw [if_neg e, if_neg e, ih h, List.cons_append]

/-- what one pass does -/
theorem san_step {k : PKey} {n : Int} {c : Obj} {d : List (PKey × Obj)} (hh : dHas (PKey.int n) d = false) (hg : dGet k d = some c) :
    dDel k (dSet (.int n) c d) = dDel k d ++ [(.int n, c)] := by
  have : dGet (PKey.int n) d = none := by simpa [dHas] using hh
  rw [dSet_new this, dDel_append hg]

theorem sanKeys_perm {ks : List PKey} {d r : List (PKey × Obj)} (hd : DNodup d) (hk : ks.Nodup) (hs : ∀ k ∈ ks, k ∈ dKeys d)
    (h : sanKeys ks d = .ok r) :
    r.Perm (d.map fun p => (if p.1 ∈ ks then convKey p.1 else p.1, p.2)) ∧ ∀ k ∈ ks, ∃ s, k = .str s := by
  induction ks generalizing d with
  | nil =>
    cases h
    exact ⟨by simp, by simp⟩
  | cons k ks ih =>
    rw [sanKeys] at h
    rw [List.nodup_cons] at hk
    cases hi : keyInt k with
    | none =>
      rw [hi] at h
      obtain ⟨h1, h2⟩ := ih hd hk.2 (fun k hk => hs k (by simp [hk])) h
      have hks : ∃ s, k = .str s := by
        cases k with
        | int n => cases hi
        | str s => exact ⟨s, rfl⟩
      obtain ⟨s, rfl⟩ := hks
      refine ⟨h1.trans (List.Perm.of_eq ?_), by simpa using h2⟩
      apply List.map_congr_left
      intro p _
      by_cases e : p.1 = .str s
      · have hc : convKey (.str s) = .str s := by
          simp only [keyInt] at hi; simp [convKey, hi]
        simp [e, hc]
      · simp [e]
    | some n =>
      rw [hi] at h
      dsimp only at h
      by_cases hh : dHas (PKey.int n) d = true
      · rw [if_pos hh] at h; cases h
      · rw [if_neg hh] at h
        have hh : dHas (PKey.int n) d = false := by simpa using hh
        cases hg : dGet k d with
        | none => rw [hg] at h; cases h
        | some c =>
          rw [hg] at h
          dsimp only at h
          rw [san_step hh hg] at h
          have hnd : PKey.int n ∉ dKeys d := by rw [← dGet_none_iff]; simpa [dHas] using hh
          have hks : ∃ s, k = .str s := by
            cases k with
            | int m => cases hi; exact absurd (hs _ (by simp)) hnd
            | str s => exact ⟨s, rfl⟩
          obtain ⟨s, rfl⟩ := hks
          have hp := dDel_perm hg
          have hkp : (dKeys d).Perm (.str s :: dKeys (dDel (.str s) d)) := by
            have := hp.map Prod.fst; simpa [dKeys] using this
          have hnk : (PKey.str s :: dKeys (dDel (.str s) d)).Nodup := hkp.nodup_iff.1 hd
          rw [List.nodup_cons] at hnk
          have hnd' : PKey.int n ∉ dKeys (dDel (.str s) d) := fun hm => hnd (hkp.mem_iff.2 (by simp [hm]))
          have hd' : DNodup (dDel (.str s) d ++ [(PKey.int n, c)]) := by
            unfold DNodup
            simp only [dKeys, List.map_append, List.map_cons, List.map_nil]
            rw [List.nodup_append']
            refine ⟨hnk.2, by simp, ?_⟩
            intro a h1 h2
            simp only [List.mem_singleton] at h2
            subst h2
            exact hnd' h1
          have hs' : ∀ k ∈ ks, k ∈ dKeys (dDel (.str s) d ++ [(PKey.int n, c)]) := by
            intro k' hk'
            have := hkp.mem_iff.1 (hs k' (by simp [hk']))
            rcases List.mem_cons.1 this with rfl | this
            · exact absurd hk' hk.1
            · simp only [dKeys, List.map_append, List.mem_append]; exact .inl this
          obtain ⟨h1, h2⟩ := ih hd' hk.2 hs' h
          refine ⟨h1.trans ?_, by simpa using h2⟩
          have hnks : PKey.int n ∉ ks := fun hm => hnd (hs _ (by simp [hm]))
          have hcv : convKey (.str s) = .int n := by simp only [keyInt] at hi; simp [convKey, hi]
          refine List.Perm.trans ?_ (hp.symm.map _)
          rw [List.map_append, List.map_cons]
          refine List.perm_append_comm.trans ?_
          simp only [List.map_cons, List.map_nil, List.singleton_append, hnks, if_false, List.mem_cons, true_or, if_true, hcv]
          refine List.Perm.cons _ (List.Perm.of_eq ?_)
          apply List.map_congr_left
          intro p hpm
          have hne : p.1 ≠ .str s := by
            intro e
            exact hnk.1 (List.mem_map.2 ⟨p, hpm, e⟩)
          simp [hne]

theorem sanVals_keys {d e : List (PKey × Obj)} (h : sanVals d = .ok e) : dKeys e = dKeys d := by
  induction d generalizing e with
  | nil => cases h; rfl
  | cons p d ih =>
    obtain ⟨k, o⟩ := p
    simp only [sanVals, bind_ok, pure_ok] at h
    obtain ⟨o', _, e', h2, rfl⟩ := h
    simp only [dKeys, List.map_cons] at ih ⊢
    rw [ih h2]

mutual
theorem sanObj_san : ∀ (o r : Obj), o.Wf → sanObj o = .ok r → San o r
  | .dic d, r, hw, h => by
    simp only [sanObj, bind_ok, pure_ok] at h
    obtain ⟨e, h1, f, h2, rfl⟩ := h
    have hk := sanVals_keys h1
    have hn : DNodup e := by unfold DNodup; rw [hk]; exact hw.1
    obtain ⟨h3, h4⟩ := sanKeys_perm hn hn (fun k hk => hk) h2
    refine .dic (sanVals_san d e hw.2 h1) (h3.trans (List.Perm.of_eq ?_))
    apply List.map_congr_left
    intro p hp
    have : p.1 ∈ dKeys e := List.mem_map.2 ⟨p, hp, rfl⟩
    simp [this]
  | .none, r, _, h => by simp only [sanObj] at h; cases h; exact .other rfl
  | .num _, r, _, h => by simp only [sanObj] at h; cases h; exact .other rfl
  | .str _, r, _, h => by simp only [sanObj] at h; cases h; exact .other rfl
  | .lst _, r, _, h => by simp only [sanObj] at h; cases h; exact .other rfl
theorem sanVals_san : ∀ (d e : List (PKey × Obj)), wfD d → sanVals d = .ok e → SanD d (e.map fun p => (convKey p.1, p.2))
  | [], e, _, h => by cases h; exact .nil
  | (k, o) :: d, e, hw, h => by
    simp only [sanVals, bind_ok, pure_ok] at h
    obtain ⟨o', h1, e', h2, rfl⟩ := h
    simp only [wfD] at hw
    exact .cons (sanObj_san o o' hw.1 h1) (sanVals_san d e' hw.2 h2)
end

/-- C54, partial: if `sanitize_fieldname_types` succeeds, exactly the keys that are texts of integers were converted, at all
levels of dictionaries, and all values were kept.  Missing: it raises an exception for dictionaries that have an integer
key already (`C54_twice_fails`), doesn't enter lists (`C54_list_fails`). -/
theorem C54_partial (o r : Obj) (hw : o.Wf) (h : sanitize o = .ok r) : San o r := by
  cases o with
  | dic d => exact sanObj_san _ r hw h
  | _ => cases h

theorem sanKeys_ok {ks : List PKey} {d : List (PKey × Obj)} (hk : ks.Nodup) (hs : ∀ k ∈ ks, k ∈ dKeys d)
    (h1 : (ks.filterMap keyInt).Nodup) (h2 : ∀ n ∈ ks.filterMap keyInt, PKey.int n ∉ dKeys d) : ∃ r, sanKeys ks d = .ok r := by
  induction ks generalizing d with
  | nil => exact ⟨d, rfl⟩
  | cons k ks ih =>
    rw [List.nodup_cons] at hk
    rw [sanKeys]
    cases hi : keyInt k with
    | none =>
      simp only [List.filterMap_cons, hi] at h1 h2
      exact ih hk.2 (fun k hk => hs k (by simp [hk])) h1 h2
    | some n =>
      simp only [List.filterMap_cons, hi, List.nodup_cons, List.mem_cons, forall_eq_or_imp] at h1 h2
      have hn : dGet (PKey.int n) d = none := (dGet_none_iff _ _).2 h2.1
      have hh : dHas (PKey.int n) d = false := by simp [dHas, hn]
      dsimp only
      rw [if_neg (by simp [hh])]
      have hkd : k ∈ dKeys d := hs k (by simp)
      cases hg : dGet k d with
      | none => exact absurd hkd ((dGet_none_iff _ _).1 hg)
      | some c =>
        dsimp only
        rw [san_step hh hg]
        have hkp : (dKeys d).Perm (k :: dKeys (dDel k d)) := by
          have := (dDel_perm hg).map Prod.fst; simpa [dKeys] using this
        have mem : ∀ k', k' ∈ dKeys (dDel k d ++ [(PKey.int n, c)]) ↔ k' ∈ dKeys (dDel k d) ∨ k' = .int n := by
          intro k'; simp [dKeys]
        refine ih hk.2 (fun k' hk' => ?_) h1.2 (fun m hm => ?_)
        · rw [mem]
          rcases List.mem_cons.1 (hkp.mem_iff.1 (hs k' (by simp [hk']))) with rfl | h
          · exact absurd hk' hk.1
          · exact .inl h
        · rw [mem]
          rintro (h | h)
          · exact h2.2 m hm (hkp.mem_iff.2 (by simp [h]))
          · cases h; exact h1.1 hm

mutual
/-- all keys of dictionaries are texts, and those that are texts of integers denote different integers -/
def Spec.TextKeys : Obj → Prop
  | .dic d => (∀ k ∈ dKeys d, ∃ s, k = .str s) ∧ ((dKeys d).filterMap keyInt).Nodup ∧ textKeysD d
  | _ => True
def Spec.textKeysD : List (PKey × Obj) → Prop
  | [] => True
  | (_, o) :: d => TextKeys o ∧ textKeysD d
end

mutual
theorem sanObj_ok : ∀ o : Obj, o.Wf → TextKeys o → ∃ r, sanObj o = .ok r
  | .dic d, hw, ht => by
    simp only [TextKeys] at ht
    obtain ⟨h1, h2, h3⟩ := ht
    obtain ⟨e, he⟩ := sanVals_ok d hw.2 h3
    have hk := sanVals_keys he
    obtain ⟨r, hr⟩ := sanKeys_ok (ks := dKeys e) (d := e) (by rw [hk]; exact hw.1) (fun k h => h) (by rw [hk]; exact h2)
      (fun n _ hm => by rw [hk] at hm; obtain ⟨s, hs⟩ := h1 _ hm; cases hs)
    exact ⟨.dic r, by simp [sanObj, he, hr, bind, Except.bind, pure, Except.pure]⟩
  | .none, _, _ => ⟨_, rfl⟩
  | .num _, _, _ => ⟨_, rfl⟩
  | .str _, _, _ => ⟨_, rfl⟩
  | .lst _, _, _ => ⟨_, rfl⟩
theorem sanVals_ok : ∀ d : List (PKey × Obj), wfD d → textKeysD d → ∃ e, sanVals d = .ok e
  | [], _, _ => ⟨[], rfl⟩
  | (k, o) :: d, hw, ht => by
    simp only [wfD] at hw
    simp only [textKeysD] at ht
    obtain ⟨o', h1⟩ := sanObj_ok o hw.1 ht.1
    obtain ⟨e, h2⟩ := sanVals_ok d hw.2 ht.2
    exact ⟨(k, o') :: e, by simp [sanVals, h1, h2, bind, Except.bind, pure, Except.pure]⟩
end

/-- C54: it succeeds for dictionaries as read from JSON files: all keys are texts, and different texts of integers denote
different integers -/
theorem C54_succeeds (d : List (PKey × Obj)) (hw : (Obj.dic d).Wf) (ht : TextKeys (.dic d)) : ∃ r, sanitize (.dic d) = .ok r :=
  sanObj_ok _ hw ht

/-- **C54 fails**: applying it twice raises an IndexError -/
theorem C54_twice_fails :
    let o : Obj := .dic [(.str ['1'], .none)]
    (match sanitize o with
      | .ok (.dic [(.int 1, .none)]) => true
      | _ => false) = true ∧
    (match sanitize o >>= sanitize with
      | .error .indexError => true
      | _ => false) = true := by decide +kernel

/-- **C54 fails** for every dictionary with an integer key: the call raises an exception -/
theorem C54_int_fails (d : List (PKey × Obj)) (hw : (Obj.dic d).Wf) (n : Int) (hn : PKey.int n ∈ dKeys d) :
    ∃ e, sanitize (.dic d) = .error e := by
  cases h : sanitize (.dic d) with
  | error e => exact ⟨e, rfl⟩
  | ok r =>
    exfalso
    simp only [sanitize, sanObj, bind_ok, pure_ok] at h
    obtain ⟨e, h1, f, h2, _⟩ := h
    have hk := sanVals_keys h1
    have hne : DNodup e := by unfold DNodup; rw [hk]; exact hw.1
    obtain ⟨s, hs⟩ := (sanKeys_perm hne hne (fun k h => h) h2).2 (.int n) (by rw [hk]; exact hn)
    cases hs

/-- **C54 fails** for dictionaries in lists -/
theorem C54_list_fails :
    (match sanitize (.dic [(.str ['a'], .lst [.dic [(.str ['1'], .none)]])]) with
      | .ok (.dic [(.str ['a'], .lst [.dic [(.str ['1'], .none)]])]) => true
      | _ => false) = true := by decide +kernel

/-- C54: two levels -/
example :
    (match sanitize (.dic [(.str ['1'], .dic [(.str ['x'], .none), (.str ['4', '5'], .none)]), (.str ['a'], .none)]) with
      | .ok (.dic [(.str ['a'], .none), (.int 1, .dic [(.str ['x'], .none), (.int 45, .none)])]) => true
      | _ => false) = true := by decide +kernel

end Verif
