/-
Python dictionaries as association lists in insertion order (Python language semantics, not code of
the repository): keys are unique, assignment to an existing key keeps its position.
-/
namespace Verif

abbrev Dict (κ α : Type) := List (κ × α)

variable {κ α β : Type} [DecidableEq κ]

/-- `d.get(k)` / `d[k]` -/
def dGet (k : κ) : Dict κ α → Option α
  | [] => none
  | (k', v) :: d => if k' = k then some v else dGet k d

/-- `d[k] = v` -/
def dSet (k : κ) (v : α) : Dict κ α → Dict κ α
  | [] => [(k, v)]
  | (k', v') :: d => if k' = k then (k, v) :: d else (k', v') :: dSet k v d

/-- `del d[k]` for a key that exists, otherwise unchanged -/
def dDel (k : κ) : Dict κ α → Dict κ α
  | [] => []
  | (k', v') :: d => if k' = k then d else (k', v') :: dDel k d

/-- `k in d` -/
def dHas (k : κ) (d : Dict κ α) : Bool := (dGet k d).isSome

/-- `list(d)` -/
def dKeys (d : Dict κ α) : List κ := d.map Prod.fst

/-- every Python dictionary has distinct keys -/
def DNodup (d : Dict κ α) : Prop := (dKeys d).Nodup

theorem dGet_dSet (k k' : κ) (v : α) (d : Dict κ α) :
    dGet k' (dSet k v d) = if k = k' then some v else dGet k' d := by
  induction d with
  | nil => simp [dSet, dGet]
  | cons p d ih =>
    obtain ⟨a, b⟩ := p
    simp only [dSet]
    by_cases h : a = k
    · subst h; simp only [if_true, dGet]; split <;> rfl
    · simp only [if_neg h, dGet, ih]
      by_cases h2 : a = k'
      · subst h2; rw [if_pos rfl, if_neg (fun e => h e.symm)]; simp
      · simp [h2]

theorem dGet_dSet_self (k : κ) (v : α) (d : Dict κ α) : dGet k (dSet k v d) = some v := by
  rw [dGet_dSet, if_pos rfl]

theorem dGet_dSet_ne {k k' : κ} (h : k ≠ k') (v : α) (d : Dict κ α) : dGet k' (dSet k v d) = dGet k' d := by
  rw [dGet_dSet, if_neg h]

theorem dGet_none_iff (k : κ) (d : Dict κ α) : dGet k d = none ↔ k ∉ dKeys d := by
  induction d with
  | nil => simp [dGet, dKeys]
  | cons p d ih =>
    obtain ⟨a, b⟩ := p
    simp only [dGet, dKeys, List.map_cons, List.mem_cons]
    by_cases h : a = k
    · subst h; simp
    · simp only [if_neg h, ih, dKeys]
      constructor
      · rintro h1 (h2 | h2)
        · exact h h2.symm
        · exact h1 h2
      · intro h1 h2; exact h1 (Or.inr h2)

theorem dGet_mem {k : κ} {v : α} {d : Dict κ α} (h : dGet k d = some v) : (k, v) ∈ d := by
  induction d with
  | nil => simp [dGet] at h
  | cons p d ih =>
    obtain ⟨a, b⟩ := p
    simp only [dGet] at h
    split at h
    · rename_i e; subst e; cases h; simp
    · exact List.mem_cons_of_mem _ (ih h)

theorem dGet_of_mem {k : κ} {v : α} {d : Dict κ α} (hn : DNodup d) (h : (k, v) ∈ d) : dGet k d = some v := by
  induction d with
  | nil => cases h
  | cons p d ih =>
    obtain ⟨a, b⟩ := p
    unfold DNodup dKeys at hn
    rw [List.map_cons, List.nodup_cons] at hn
    rw [List.mem_cons] at h
    simp only [dGet]
    rcases h with h | h
    · cases h; simp
    · rw [if_neg]
      · exact ih hn.2 h
      · intro e; subst e; exact hn.1 (List.mem_map.2 ⟨_, h, rfl⟩)

theorem dKeys_dSet_mem (k k' : κ) (v : α) (d : Dict κ α) : k' ∈ dKeys (dSet k v d) ↔ k' = k ∨ k' ∈ dKeys d := by
  have h := dGet_none_iff k' (dSet k v d)
  rw [dGet_dSet] at h
  by_cases e : k = k'
  · subst e; simp at h; simp [h]
  · rw [if_neg e] at h
    have h2 := dGet_none_iff k' d
    have : k' ∈ dKeys (dSet k v d) ↔ k' ∈ dKeys d := by
      constructor
      · intro h3; exact Decidable.byContradiction fun h4 => (h.1 (h2.2 h4)) h3
      · intro h3; exact Decidable.byContradiction fun h4 => (h2.1 (h.2 h4)) h3
    rw [this]
    constructor
    · exact Or.inr
    · rintro (h | h)
      · exact absurd h.symm e
      · exact h

theorem dSet_nodup {k : κ} {v : α} {d : Dict κ α} (h : DNodup d) : DNodup (dSet k v d) := by
  induction d with
  | nil => simp [dSet, DNodup, dKeys]
  | cons p d ih =>
    obtain ⟨a, b⟩ := p
    unfold DNodup dKeys at h
    rw [List.map_cons, List.nodup_cons] at h
    simp only [dSet]
    split
    · rename_i e; subst e
      unfold DNodup dKeys; rw [List.map_cons, List.nodup_cons]; exact h
    · rename_i e
      unfold DNodup dKeys; rw [List.map_cons, List.nodup_cons]
      refine ⟨?_, ih h.2⟩
      intro hm
      rcases (dKeys_dSet_mem k a v d).1 hm with h1 | h1
      · exact e h1
      · exact h.1 h1

theorem dKeys_dSet (k : κ) (v : α) (d : Dict κ α) :
    dKeys (dSet k v d) = if k ∈ dKeys d then dKeys d else dKeys d ++ [k] := by
  induction d with
  | nil => simp [dSet, dKeys]
  | cons p d ih =>
    obtain ⟨a, b⟩ := p
    simp only [dSet]
    by_cases e : a = k
    · subst e; simp [dKeys]
    · have e' : ¬ k = a := fun h => e h.symm
      rw [if_neg e]
      simp only [dKeys, List.map_cons, List.mem_cons, e', false_or] at ih ⊢
      rw [ih]
      by_cases h : k ∈ List.map Prod.fst d <;> simp [h]

theorem dGet_dDel {k k' : κ} {d : Dict κ α} (hn : DNodup d) :
    dGet k' (dDel k d) = if k = k' then none else dGet k' d := by
  induction d with
  | nil => simp [dDel, dGet]
  | cons p d ih =>
    obtain ⟨a, b⟩ := p
    unfold DNodup dKeys at hn
    rw [List.map_cons, List.nodup_cons] at hn
    simp only [dDel]
    by_cases e : a = k
    · subst e
      rw [if_pos rfl]
      by_cases e2 : a = k'
      · subst e2; rw [if_pos rfl]; exact (dGet_none_iff _ _).2 hn.1
      · simp [dGet, e2]
    · rw [if_neg e]
      simp only [dGet, ih hn.2]
      by_cases e2 : a = k'
      · subst e2; rw [if_pos rfl, if_neg (fun h => e h.symm)]; simp
      · simp [e2]

theorem dSet_same {κ α : Type} [DecidableEq κ] {k : κ} {v : α} {d : Dict κ α} (h : dGet k d = some v) : dSet k v d = d := by
  induction d with
  | nil => simp [dGet] at h
  | cons p d ih =>
    obtain ⟨a, b⟩ := p
    by_cases hk : a = k
    · subst hk; simp [dGet] at h; subst h; simp [dSet]
    · simp only [dGet, if_neg hk] at h
      simp only [dSet, if_neg hk, ih h]

end Verif
