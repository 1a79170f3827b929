import Verif.Model.TreeUtils
import Verif.Spec.Syn
/-
C103 (look-ups in syntax trees).
-/
namespace Verif
open Spec

mutual
theorem searchName_iff (name : Str) : ∀ t : Syn, searchName name t = true ↔ ∃ s, Within s t ∧ s.name = name
  | .tok ty v => by
    rw [searchName, decide_eq_true_eq]
    constructor
    · intro h; exact ⟨_, .self _, h⟩
    · rintro ⟨s, hs, h⟩; cases hs; exact h
  | .node n cs => by
    rw [searchName]
    split
    · rename_i h
      exact ⟨fun _ => ⟨_, .self _, h⟩, fun _ => rfl⟩
    · rename_i hn
      rw [searchNames_iff name cs]
      constructor
      · rintro ⟨c, hc, s, hs, h⟩; exact ⟨s, .child hc hs, h⟩
      · rintro ⟨s, hs, h⟩
        cases hs with
        | self => exact absurd h hn
        | child hc hs => exact ⟨_, hc, s, hs, h⟩
theorem searchNames_iff (name : Str) : ∀ cs : List Syn, searchNames name cs = true ↔ ∃ c ∈ cs, ∃ s, Within s c ∧ s.name = name
  | [] => by simp [searchNames]
  | c :: cs => by
    have hcs := searchNames_iff name cs
    have hc := searchName_iff name c
    rw [searchNames]
    split
    · rename_i h
      exact ⟨fun _ => ⟨c, by simp, hc.1 h⟩, fun _ => rfl⟩
    · rename_i h
      rw [hcs]
      constructor
      · rintro ⟨d, hd, r⟩; exact ⟨d, by simp [hd], r⟩
      · rintro ⟨d, hd, r⟩
        rcases List.mem_cons.1 hd with rfl | hd
        · exact absurd (hc.2 r) h
        · exact ⟨d, hd, r⟩
end

mutual
theorem retrieve_find (name : Str) : ∀ t : Syn, retrieveValue name t = ((tokens t).find? fun p => decide (p.1 = name)).map (·.2)
  | .tok ty v => by
    by_cases h : ty = name <;> simp [retrieveValue, tokens, h]
  | .node n cs => by rw [retrieveValue, tokens]; exact retrieves_find name cs
theorem retrieves_find (name : Str) : ∀ cs : List Syn,
    retrieveValues name cs = ((tokensL cs).find? fun p => decide (p.1 = name)).map (·.2)
  | [] => rfl
  | c :: cs => by
    rw [retrieveValues, tokensL, List.find?_append, retrieve_find name c, retrieves_find name cs]
    cases (tokens c).find? fun p => decide (p.1 = name) <;> simp
end

theorem joinSpace_append {a b : List Str} (ha : a ≠ []) (hb : b ≠ []) : joinChar ' ' (a ++ b) = joinChar ' ' a ++ ' ' :: joinChar ' ' b := by
  induction a with
  | nil => exact absurd rfl ha
  | cons x a ih =>
    cases a with
    | nil =>
      cases b with
      | nil => exact absurd rfl hb
      | cons y b => rfl
    | cons z a =>
      have := ih (by simp)
      simp only [List.cons_append] at this ⊢
      rw [joinChar, this, joinChar]
      simp

mutual
theorem reconstruct_full : ∀ t : Syn, Full t → tokens t ≠ [] ∧ reconstruct t = joinChar ' ' ((tokens t).map (·.2))
  | .tok ty v => by intro _; exact ⟨by simp [tokens], rfl⟩
  | .node n cs => by
    intro h
    rw [Full] at h
    obtain ⟨h1, h2⟩ := reconstructs_full cs h.2 h.1
    rw [tokens, reconstruct, h2]
    exact ⟨h1, by simp⟩
theorem reconstructs_full : ∀ cs : List Syn, FullL cs → cs ≠ [] →
    tokensL cs ≠ [] ∧ reconstructs cs = joinChar ' ' ((tokensL cs).map (·.2)) ++ [' ']
  | [] => by intro _ h; exact absurd rfl h
  | c :: cs => by
    intro h _
    rw [FullL] at h
    obtain ⟨h1, h2⟩ := reconstruct_full c h.1
    rw [tokensL, reconstructs, h2]
    refine ⟨by simp [h1], ?_⟩
    by_cases hc : cs = []
    · subst hc; simp [tokensL, reconstructs]
    · obtain ⟨h3, h4⟩ := reconstructs_full cs h.2 hc
      rw [h4, List.map_append, joinSpace_append (by simpa using h1) (by simpa using h3)]
      simp
end

theorem childLoop_eq (name : Str) : ∀ (cs : List Syn) (i : Nat), childLoop name i cs = (cs.filter fun c => decide (c.name = name))[i]? := by
  intro cs
  induction cs with
  | nil => intro i; rfl
  | cons c cs ih =>
    intro i
    by_cases h : c.name = name
    · rw [List.filter_cons_of_pos (by simpa using h)]
      cases i with
      | zero => simp [childLoop, h]
      | succ i => simpa [childLoop, h] using ih i
    · rw [List.filter_cons_of_neg (by simpa using h), ← ih i]
      cases i <;> simp [childLoop, h]

theorem childValueLoop_iff (name v : Str) : ∀ cs : List Syn, childValueLoop name cs = some v ↔
    ∃ a b, cs = a ++ .tok name v :: b ∧ ∀ w, .tok name w ∉ a := by
  intro cs
  induction cs with
  | nil => simp [childValueLoop]
  | cons c cs ih =>
    have key : (∀ w, c ≠ .tok name w) → ((∃ a b, cs = a ++ .tok name v :: b ∧ ∀ w, .tok name w ∉ a) ↔
        ∃ a b, c :: cs = a ++ .tok name v :: b ∧ ∀ w, .tok name w ∉ a) := by
      intro hc
      constructor
      · rintro ⟨a, b, rfl, h⟩
        refine ⟨c :: a, b, rfl, fun w hw => ?_⟩
        rcases List.mem_cons.1 hw with e | hw
        · exact hc w e.symm
        · exact h w hw
      · rintro ⟨a, b, e, h⟩
        cases a with
        | nil => simp only [List.nil_append, List.cons.injEq] at e; exact absurd e.1 (hc v)
        | cons x a =>
          simp only [List.cons_append, List.cons.injEq] at e
          exact ⟨a, b, e.2, fun w hw => h w (by simp [hw])⟩
    cases c with
    | node n ds => rw [childValueLoop, ih]; exact key (fun w e => by cases e)
    | tok t u =>
      rw [childValueLoop]
      split
      · rename_i ht
        subst ht
        constructor
        · intro h; cases h; exact ⟨[], cs, rfl, by simp⟩
        · rintro ⟨a, b, e, h⟩
          cases a with
          | nil => simp only [List.nil_append, List.cons.injEq, Syn.tok.injEq, true_and] at e; rw [e.1]
          | cons x a =>
            simp only [List.cons_append, List.cons.injEq] at e
            exact absurd (by simp [e.1]) (h u)
      · rename_i ht
        rw [ih]
        exact key (fun w e => by cases e; exact ht rfl)

/-! ## C103 -/

/-- **C103** `search_name` finds a name exactly if some node of the tree has it, at any depth. -/
theorem C103_search (name : Str) (t : Syn) : searchName name t = true ↔ ∃ s, Within s t ∧ s.name = name := searchName_iff name t

/-- **C103** `retrieve_value` gives the value of the first token of this type, from left to right, and nothing exactly if there is none. -/
theorem C103_retrieve (name : Str) (t : Syn) :
    (∀ v, retrieveValue name t = some v ↔ ∃ a b, tokens t = a ++ (name, v) :: b ∧ ∀ p ∈ a, p.1 ≠ name) ∧
    (retrieveValue name t = none ↔ ∀ p ∈ tokens t, p.1 ≠ name) := by
  rw [retrieve_find]
  constructor
  · intro v
    rw [Option.map_eq_some_iff]
    constructor
    · rintro ⟨⟨ty, v'⟩, h, rfl⟩
      obtain ⟨h1, a, b, h2, h3⟩ := List.find?_eq_some_iff_append.1 h
      have h1' : ty = name := by simpa using h1
      subst h1'
      exact ⟨a, b, h2, fun p hp => by simpa using h3 p hp⟩
    · rintro ⟨a, b, h, h3⟩
      exact ⟨(name, v), List.find?_eq_some_iff_append.2 ⟨by simp, a, b, h, fun p hp => by simpa using h3 p hp⟩, rfl⟩
  · simp

/-- **C103** `get_child` gives the child with this name that is preceded by `i` others of the name, and an IndexError exactly if there are not so
many; `get_child_value` gives the value of the first token of this type among the children. -/
theorem C103_child (name n : Str) (cs : List Syn) :
    (∀ i c, getChild name i (.node n cs) = .ok c ↔ (cs.filter fun c => decide (c.name = name))[i]? = some c) ∧
    (∀ i, getChild name i (.node n cs) = .error .indexError ↔ (cs.filter fun c => decide (c.name = name)).length ≤ i) ∧
    ∀ v, getChildValue name (.node n cs) = .ok v ↔ ∃ a b, cs = a ++ .tok name v :: b ∧ ∀ w, .tok name w ∉ a := by
  refine ⟨fun i c => ?_, fun i => ?_, fun v => ?_⟩
  · rw [getChild, childLoop_eq]
    cases (cs.filter fun c => decide (c.name = name))[i]? <;> simp
  · rw [getChild, childLoop_eq, ← List.getElem?_eq_none_iff]
    cases (cs.filter fun c => decide (c.name = name))[i]? <;> simp
  · rw [← childValueLoop_iff, getChildValue]
    cases childValueLoop name cs <;> simp

/-- **C103** (partial) `reconstruct_tree_str` gives the values of all tokens from left to right with one blank in between.
Missing: trees without children, see `C103_text_fails`. -/
theorem C103_text_partial (t : Syn) (h : Full t) : reconstruct t = joinChar ' ' ((tokens t).map (·.2)) := (reconstruct_full t h).2

/-- a tree with a child that has no children -/
def exHole : Syn := .node "a".toList [.tok "T".toList "x".toList, .node "b".toList [], .tok "T".toList "y".toList]

/-- **C103 fails** for trees without children: there are two blanks -/
theorem C103_text_fails : reconstruct exHole = "x  y".toList ∧ joinChar ' ' ((tokens exHole).map (·.2)) = "x y".toList := by
  decide +kernel

/-- `[MAT, 3 / ...` as a tree -/
def exSyn : Syn := .node "head".toList [.tok "VAR".toList "MAT".toList, .node "ctrl".toList [.tok "INT".toList "3".toList, .tok "VAR".toList "MT".toList]]

example : Full exSyn ∧ reconstruct exSyn = "MAT 3 MT".toList ∧ retrieveValue "INT".toList exSyn = some "3".toList ∧
    searchName "ctrl".toList exSyn = true ∧ searchName "tab1".toList exSyn = false ∧
    getChildValue "VAR".toList exSyn = .ok "MAT".toList := by
  refine ⟨by simp [exSyn, Full, FullL], by decide +kernel, by decide +kernel, by decide +kernel, by decide +kernel, by decide +kernel⟩

end Verif
