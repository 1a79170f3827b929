import Verif.Model.Show
import Verif.Props.PathText
import Verif.Props.UserTools
/-
C102 (`show_content`).
-/
namespace Verif
open Spec

/-- the object that is reached from `o` by looking up the keys one after the other -/
def Spec.reach : List PKey → Obj → Option Obj
  | [], o => some o
  | k :: p, .dic d => (dGet k d).bind (reach p)
  | .int n :: p, .lst l => if 0 ≤ n then (l[n.toNat]?).bind (reach p) else none
  | _ :: _, _ => none

/-- dictionary or list without entries -/
def Spec.NoEntries (o : Obj) : Prop := o = .dic [] ∨ o = .lst []

/-- `p` and `v` are to be displayed down to `n` levels below the first: a value at most there, a dictionary or list right there -/
def Spec.Displayed (n : Nat) (o : Obj) (p : List PKey) (v : Obj) : Prop :=
  p ≠ [] ∧ reach p o = some v ∧ if v.isCont then p.length = n + 1 else p.length ≤ n + 1

/-- the keys in their order -/
def Spec.keysOf : Obj → List PKey
  | .dic d => dKeys d
  | .lst l => (List.range l.length).map fun n : Nat => .int n
  | _ => []

/-- the entry `p` comes before the entry `q`: where the paths part, the key in `p` comes first -/
inductive Spec.Before : Obj → List PKey → List PKey → Prop where
  | here {o : Obj} {k k' : PKey} {p q : List PKey} : k ≠ k' → [k, k'].Sublist (keysOf o) → Before o (k :: p) (k' :: q)
  | under {o c : Obj} {k : PKey} {p q : List PKey} : reach [k] o = some c → Before c p q → Before o (k :: p) (k :: q)

/-- a line: path, colon, at least one space, and the value or the note that it is not displayed -/
def Spec.LineFor (num : PyNum → Str) (pre : Str) (p : List PKey) (v : Obj) (l : Str) : Prop :=
  ∃ n, 0 < n ∧ l = pre ++ joinChar '/' (p.map PKey.text) ++ ':' :: (List.replicate n ' ' ++
    if v.isCont then "subsection or array".toList else v.text num)

/-! ## entries -/

theorem reach_cons (k : PKey) (p : List PKey) (o : Obj) : reach (k :: p) o = (reach [k] o).bind (reach p) := by
  cases o with
  | dic d => simp only [reach]; cases dGet k d <;> rfl
  | lst l =>
    cases k with
    | int n =>
      simp only [reach]
      split
      · cases l[n.toNat]? <;> rfl
      · rfl
    | str s => rfl
  | _ => cases k <;> rfl

theorem mem_items {o : Obj} (hw : o.Wf) (k : PKey) (v : Obj) : (k, v) ∈ o.items ↔ reach [k] o = some v := by
  cases o with
  | dic d =>
    unfold Obj.Wf at hw
    simp only [Obj.items, reach]
    constructor
    · intro h; rw [dGet_of_mem hw.1 h]; rfl
    · intro h
      cases hg : dGet k d with
      | none => rw [hg] at h; cases h
      | some v' => rw [hg] at h; cases h; exact dGet_mem hg
  | lst l =>
    simp only [Obj.items, List.mem_map, Prod.exists, Prod.mk.injEq, List.mem_zipIdx_iff_getElem?]
    cases k with
    | str s => simp [reach]
    | int n =>
      simp only [reach]
      constructor
      · rintro ⟨x, i, h, e1, rfl⟩
        cases e1
        simp [h, reach]
      · intro h
        split at h
        · rename_i hn
          cases hg : l[n.toNat]? with
          | none => rw [hg] at h; cases h
          | some v' =>
            rw [hg] at h
            cases h
            exact ⟨v, n.toNat, hg, by congr 1; omega, rfl⟩
        · cases h
  | _ => cases k <;> simp [Obj.items, reach]

theorem items_nodup {o : Obj} (hw : o.Wf) : (o.items.map (·.1)).Nodup := by
  cases o with
  | dic d => unfold Obj.Wf at hw; exact hw.1
  | lst l =>
    simp only [Obj.items, List.map_map]
    have : ((fun p : PKey × Obj => p.1) ∘ fun p : Obj × Nat => (PKey.int p.2, p.1)) = (fun n : Nat => PKey.int n) ∘ Prod.snd := rfl
    rw [this, ← List.map_map, List.zipIdx_map_snd]
    refine List.Nodup.map ?_ List.nodup_range'
    intro a b h
    cases h
    rfl
  | _ => simp [Obj.items]

theorem wfL_mem {l : List Obj} (h : wfL l) {o : Obj} (hm : o ∈ l) : o.Wf := by
  induction l with
  | nil => cases hm
  | cons x l ih =>
    unfold wfL at h
    rcases List.mem_cons.1 hm with rfl | hm
    · exact h.1
    · exact ih h.2 hm

theorem items_wf {o : Obj} (hw : o.Wf) {k : PKey} {v : Obj} (h : (k, v) ∈ o.items) : v.Wf := by
  cases o with
  | dic d => unfold Obj.Wf at hw; exact wfD_mem hw.2 h
  | lst l =>
    unfold Obj.Wf at hw
    simp only [Obj.items, List.mem_map, Prod.exists, Prod.mk.injEq, List.mem_zipIdx_iff_getElem?] at h
    obtain ⟨x, i, h, _, rfl⟩ := h
    exact wfL_mem hw (List.mem_of_getElem? h)
  | _ => cases h

theorem items_nil {o : Obj} (hc : o.isCont = true) : o.items = [] ↔ NoEntries o := by
  cases o <;> simp_all [Obj.items, NoEntries, Obj.isCont]

theorem le_maxLen {pre : Str} {keys : List PKey} {k : PKey} (h : k ∈ keys) : (pre ++ k.text).length ≤ maxLen pre keys := by
  induction keys with
  | nil => cases h
  | cons x keys ih =>
    rw [maxLen, List.foldr_cons]
    rcases List.mem_cons.1 h with rfl | h
    · exact le_max_left _ _
    · exact le_trans (ih h) (le_max_right _ _)

/-- the entries displayed, in the order in which they are displayed -/
def shown : Nat → Obj → List (List PKey × Obj)
  | 0, o => o.items.map fun p => ([p.1], p.2)
  | n + 1, o => o.items.flatMap fun p => if p.2.isCont then (shown n p.2).map fun q => (p.1 :: q.1, q.2) else [([p.1], p.2)]

theorem shown_ne {n : Nat} {o : Obj} {p : List PKey} {v : Obj} (h : (p, v) ∈ shown n o) : p ≠ [] := by
  cases n with
  | zero =>
    obtain ⟨q, _, e⟩ := List.mem_map.1 h
    cases e
    simp
  | succ n =>
    obtain ⟨q, _, e⟩ := List.mem_flatMap.1 h
    split at e
    · obtain ⟨q', _, e⟩ := List.mem_map.1 e
      cases e
      simp
    · cases List.mem_singleton.1 e
      simp

theorem mem_shown (n : Nat) : ∀ (o : Obj), o.Wf → ∀ p v, (p, v) ∈ shown n o ↔ Displayed n o p v := by
  induction n with
  | zero =>
    intro o hw p v
    simp only [shown, List.mem_map, Prod.exists, Prod.mk.injEq]
    constructor
    · rintro ⟨k, v', h, rfl, rfl⟩
      exact ⟨by simp, (mem_items hw _ _).1 h, by simp⟩
    · rintro ⟨h1, h2, h3⟩
      have : p.length = 1 := by
        have : p.length ≠ 0 := by simpa using h1
        split at h3 <;> omega
      obtain ⟨k, rfl⟩ := List.length_eq_one_iff.1 this
      exact ⟨k, v, (mem_items hw _ _).2 h2, rfl, rfl⟩
  | succ n ih =>
    intro o hw p v
    simp only [shown, List.mem_flatMap, Prod.exists]
    constructor
    · rintro ⟨k, c, hk, h⟩
      have hr := (mem_items hw k c).1 hk
      split at h
      · rename_i hc
        simp only [List.mem_map, Prod.exists, Prod.mk.injEq] at h
        obtain ⟨q, v', h, rfl, rfl⟩ := h
        obtain ⟨h1, h2, h3⟩ := (ih c (items_wf hw hk) q v').1 h
        refine ⟨by simp, by rw [reach_cons, hr]; exact h2, ?_⟩
        simp only [List.length_cons]
        split at h3 <;> rename_i hv <;> simp only [hv, if_true, if_false, Bool.false_eq_true] <;> omega
      · rename_i hc
        cases List.mem_singleton.1 h
        exact ⟨by simp, hr, by simp [hc]⟩
    · rintro ⟨h1, h2, h3⟩
      cases p with
      | nil => exact absurd rfl h1
      | cons k p =>
        rw [reach_cons] at h2
        cases hr : reach [k] o with
        | none => rw [hr] at h2; cases h2
        | some c =>
          rw [hr] at h2
          have h2' : reach p c = some v := h2
          refine ⟨k, c, (mem_items hw k c).2 hr, ?_⟩
          by_cases hp : p = []
          · subst hp
            cases h2'
            have hc : v.isCont = false := by
              cases hc : v.isCont with
              | false => rfl
              | true => simp [hc] at h3
            simp [hc]
          · have hc : c.isCont = true := by
              cases p with
              | nil => exact absurd rfl hp
              | cons k' p => cases c <;> first | rfl | (cases k' <;> cases h2')
            rw [if_pos hc]
            refine List.mem_map.2 ⟨(p, v), (ih c (items_wf hw ((mem_items hw k c).2 hr)) p v).2 ⟨hp, h2', ?_⟩, rfl⟩
            simp only [List.length_cons] at h3
            split at h3 <;> rename_i hv <;> simp only [hv, if_true, if_false, Bool.false_eq_true] <;> omega

theorem shown_nodup (n : Nat) : ∀ (o : Obj), o.Wf → ((shown n o).map (·.1)).Nodup := by
  induction n with
  | zero =>
    intro o hw
    have : (shown 0 o).map (·.1) = (o.items.map (·.1)).map fun k => [k] := by simp [shown]
    rw [this]
    exact (items_nodup hw).map fun a b h => by simpa using h
  | succ n ih =>
    intro o hw
    simp only [shown, List.map_flatMap]
    rw [List.nodup_flatMap]
    have hwf : ∀ p ∈ o.items, p.2.Wf := fun p hp => items_wf hw (k := p.1) hp
    constructor
    · intro p hp
      split
      · rw [List.map_map]
        have : ((fun q : List PKey × Obj => q.1) ∘ fun q : List PKey × Obj => (p.1 :: q.1, q.2)) = (fun l => p.1 :: l) ∘ Prod.fst := rfl
        rw [this, ← List.map_map]
        exact (ih p.2 (hwf p hp)).map fun a b h => by simpa using h
      · simp
    · have hn := items_nodup hw
      rw [List.Nodup, List.pairwise_map] at hn
      refine hn.imp fun {a b} hab => ?_
      have hh : ∀ (c : PKey × Obj) x, x ∈ (if c.2.isCont then (shown n c.2).map (fun q => (c.1 :: q.1, q.2)) else [([c.1], c.2)]).map (·.1) →
          x.head? = some c.1 := by
        intro c x hx
        split at hx
        · obtain ⟨y, hy, rfl⟩ := List.mem_map.1 hx
          obtain ⟨z, _, rfl⟩ := List.mem_map.1 hy
          rfl
        · simp only [List.map_cons, List.map_nil, List.mem_singleton] at hx
          rw [hx]; rfl
      intro x h1 h2
      have := (hh a x h1).symm.trans (hh b x h2)
      exact hab (by simpa using this)

theorem keysOf_items (o : Obj) : o.items.map (·.1) = keysOf o := by
  cases o with
  | dic d => rfl
  | lst l =>
    simp only [Obj.items, List.map_map, keysOf]
    have : ((fun p : PKey × Obj => p.1) ∘ fun p : Obj × Nat => (PKey.int p.2, p.1)) = (fun n : Nat => PKey.int n) ∘ Prod.snd := rfl
    rw [this, ← List.map_map, List.zipIdx_map_snd, List.range_eq_range']
  | _ => rfl

theorem items_before {o : Obj} (hw : o.Wf) : o.items.Pairwise fun a b => a.1 ≠ b.1 ∧ [a.1, b.1].Sublist (keysOf o) := by
  have hn := items_nodup hw
  rw [List.Nodup, List.pairwise_map] at hn
  rw [List.pairwise_iff_forall_sublist] at hn ⊢
  intro a b hab
  exact ⟨hn hab, by rw [← keysOf_items]; exact hab.map (·.1)⟩

theorem shown_before (n : Nat) : ∀ (o : Obj), o.Wf → (shown n o).Pairwise fun a b => Before o a.1 b.1 := by
  induction n with
  | zero =>
    intro o hw
    rw [shown, List.pairwise_map]
    exact (items_before hw).imp fun h => .here h.1 h.2
  | succ n ih =>
    intro o hw
    rw [shown, List.pairwise_flatMap]
    constructor
    · intro p hp
      split
      · rw [List.pairwise_map]
        exact (ih p.2 (items_wf hw (k := p.1) hp)).imp fun h => .under ((mem_items hw p.1 p.2).1 hp) h
      · simp
    · refine (items_before hw).imp fun {a b} hab x hx y hy => ?_
      have hh : ∀ (c : PKey × Obj) x, x ∈ (if c.2.isCont then (shown n c.2).map (fun q => (c.1 :: q.1, q.2)) else [([c.1], c.2)]) →
          ∃ r, x.1 = c.1 :: r := by
        intro c x hx
        split at hx
        · obtain ⟨z, _, rfl⟩ := List.mem_map.1 hx
          exact ⟨_, rfl⟩
        · rw [List.mem_singleton.1 hx]
          exact ⟨_, rfl⟩
      obtain ⟨r, e⟩ := hh a x hx
      obtain ⟨r', e'⟩ := hh b y hy
      rw [e, e']
      exact .here hab.1 hab.2

/-! ## lines -/

theorem row_line (num : PyNum → Str) (pre : Str) (keys : List PKey) (k : PKey) (v : Obj) (hk : k ∈ keys) :
    LineFor num pre [k] v (showRow num pre (maxLen pre keys) k v) := by
  have := le_maxLen (pre := pre) hk
  refine ⟨maxLen pre keys + 2 - (pre ++ k.text ++ [':']).length, ?_, ?_⟩
  · simp only [List.length_append, List.length_singleton] at this ⊢
    omega
  · unfold showRow ljust
    generalize (if v.isCont then "subsection or array".toList else v.text num) = z
    simp [joinChar]

theorem mapM_forall {α β : Type} {f : α → Res β} {P : α → β → Prop} : ∀ (l : List α), (∀ x ∈ l, ∃ y, f x = .ok y ∧ P x y) →
    ∃ ys, l.mapM f = .ok ys ∧ List.Forall₂ P l ys := by
  intro l
  induction l with
  | nil => intro _; exact ⟨[], rfl, .nil⟩
  | cons x l ih =>
    intro h
    obtain ⟨y, h1, h2⟩ := h x (by simp)
    obtain ⟨ys, h3, h4⟩ := ih fun x hx => h x (by simp [hx])
    exact ⟨y :: ys, by rw [List.mapM_cons, h1]; simp [bind, Except.bind, h3, pure, Except.pure], .cons h2 h4⟩

theorem flatMap_forall {α β γ : Type} {g : α → List β} {R : β → γ → Prop} : ∀ {l : List α} {ys : List (List γ)},
    List.Forall₂ (fun x y => List.Forall₂ R (g x) y) l ys → List.Forall₂ R (l.flatMap g) ys.flatten := by
  intro l ys h
  induction h with
  | nil => exact .nil
  | cons h _ ih => rw [List.flatMap_cons, List.flatten_cons]; exact List.rel_append h ih

theorem forall2_mem {β γ : Type} {R Q : β → γ → Prop} {l : List β} {m : List γ} (h : List.Forall₂ R l m) :
    (∀ e ∈ l, ∀ x, R e x → Q e x) → List.Forall₂ Q l m := by
  induction h with
  | nil => intro _; exact .nil
  | cons h _ ih => intro hq; exact .cons (hq _ (by simp) _ h) (ih fun e he => hq e (by simp [he]))

theorem showWith_cont (num : PyNum → Str) (sub : Option (Str → Obj → Res (List Str))) (pre : Str) {o : Obj} (hc : o.isCont = true)
    (hne : o.items ≠ []) : showWith num sub pre o = (do
      let ls ← o.items.mapM fun p =>
        if p.2.isCont then
          match sub with
          | some f => f (pre ++ p.1.text ++ ['/']) p.2
          | none => .ok [showRow num pre (maxLen pre (o.items.map (·.1))) p.1 p.2]
        else .ok [showRow num pre (maxLen pre (o.items.map (·.1))) p.1 p.2]
      return ls.flatten) := by
  have : o.items.isEmpty = false := by simpa using hne
  cases o with
  | dic d => simp only [showWith, this]; rfl
  | lst d => simp only [showWith, this]; rfl
  | _ => cases hc

theorem line_cons {num : PyNum → Str} {pre : Str} {k : PKey} {p : List PKey} {v : Obj} {l : Str} (hp : p ≠ [])
    (h : LineFor num (pre ++ k.text ++ ['/']) p v l) : LineFor num pre (k :: p) v l := by
  obtain ⟨n, h1, rfl⟩ := h
  refine ⟨n, h1, ?_⟩
  cases p with
  | nil => exact absurd rfl hp
  | cons k' p =>
    generalize (if v.isCont then "subsection or array".toList else v.text num) = z
    simp [joinChar]

theorem show_lines (num : PyNum → Str) (n : Nat) : ∀ (pre : Str) (o : Obj), o.Wf → o.isCont = true →
    (∀ p c, p.length ≤ n → reach p o = some c → ¬ NoEntries c) →
    ∃ out, showContent num n pre o = .ok out ∧ List.Forall₂ (fun e l => LineFor num pre e.1 e.2 l) (shown n o) out := by
  induction n with
  | zero =>
    intro pre o hw hc he
    have hne : o.items ≠ [] := fun h => he [] o (by simp) rfl ((items_nil hc).1 h)
    rw [showContent, showWith_cont num _ pre hc hne]
    obtain ⟨ys, h1, h2⟩ := mapM_forall (P := fun p y => List.Forall₂ (fun e l => LineFor num pre e.1 e.2 l) [([p.1], p.2)] y) (f := fun p : PKey × Obj =>
        if p.2.isCont then
          match (none : Option (Str → Obj → Res (List Str))) with
          | some f => f (pre ++ p.1.text ++ ['/']) p.2
          | none => .ok [showRow num pre (maxLen pre (o.items.map (·.1))) p.1 p.2]
        else .ok [showRow num pre (maxLen pre (o.items.map (·.1))) p.1 p.2]) o.items (by
      intro p hp
      exact ⟨[showRow num pre (maxLen pre (o.items.map (·.1))) p.1 p.2], by simp,
        .cons (row_line num pre _ _ _ (List.mem_map.2 ⟨p, hp, rfl⟩)) .nil⟩)
    refine ⟨ys.flatten, by rw [h1]; rfl, ?_⟩
    have := flatMap_forall h2
    rwa [← List.map_eq_flatMap] at this
  | succ n ih =>
    intro pre o hw hc he
    have hne : o.items ≠ [] := fun h => he [] o (by simp) rfl ((items_nil hc).1 h)
    rw [showContent, showWith_cont num _ pre hc hne]
    obtain ⟨ys, h1, h2⟩ := mapM_forall (P := fun p y => List.Forall₂ (fun e l => LineFor num pre e.1 e.2 l)
        (if p.2.isCont then (shown n p.2).map (fun q => (p.1 :: q.1, q.2)) else [([p.1], p.2)]) y) (f := fun p : PKey × Obj =>
        if p.2.isCont then
          match some (showContent num n) with
          | some f => f (pre ++ p.1.text ++ ['/']) p.2
          | none => .ok [showRow num pre (maxLen pre (o.items.map (·.1))) p.1 p.2]
        else .ok [showRow num pre (maxLen pre (o.items.map (·.1))) p.1 p.2]) o.items (by
      intro p hp
      by_cases hp2 : p.2.isCont = true
      · obtain ⟨out, g1, g2⟩ := ih (pre ++ p.1.text ++ ['/']) p.2 (items_wf hw (k := p.1) hp) hp2 (fun q c hq hr =>
          he (p.1 :: q) c (by simpa using hq) (by rw [reach_cons, (mem_items hw _ _).1 hp]; exact hr))
        refine ⟨out, by rw [if_pos hp2]; exact g1, ?_⟩
        rw [if_pos hp2, List.forall₂_map_left_iff]
        refine forall2_mem g2 ?_
        intro e hm l hl
        exact line_cons (shown_ne hm) hl
      · refine ⟨[showRow num pre (maxLen pre (o.items.map (·.1))) p.1 p.2], by simp [hp2], ?_⟩
        rw [if_neg hp2]
        exact .cons (row_line num pre _ _ _ (List.mem_map.2 ⟨p, hp, rfl⟩)) .nil)
    exact ⟨ys.flatten, by rw [h1]; rfl, flatMap_forall h2⟩

theorem mapM_error {α β : Type} {f : α → Res β} {e : Err} : ∀ (l : List α), (∀ x ∈ l, (∃ y, f x = .ok y) ∨ f x = .error e) →
    (∃ x ∈ l, f x = .error e) → l.mapM f = .error e := by
  intro l
  induction l with
  | nil => rintro _ ⟨x, hx, _⟩; cases hx
  | cons x l ih =>
    rintro h ⟨y, hy, he⟩
    rw [List.mapM_cons]
    rcases h x (by simp) with ⟨z, hz⟩ | hz
    · rw [hz]
      have : y ∈ l := by
        rcases List.mem_cons.1 hy with rfl | hy
        · rw [hz] at he; cases he
        · exact hy
      simp [bind, Except.bind, ih (fun x hx => h x (by simp [hx])) ⟨y, this, he⟩]
    · rw [hz]; rfl

/-- an object without entries on the way ends with a ValueError -/
theorem show_empty (num : PyNum → Str) (n : Nat) : ∀ (pre : Str) (o : Obj), o.Wf → o.isCont = true →
    (∃ p c, p.length ≤ n ∧ reach p o = some c ∧ NoEntries c) → showContent num n pre o = .error .valueError := by
  have h0 : ∀ (sub : Option (Str → Obj → Res (List Str))) (pre : Str) (o : Obj), NoEntries o → showWith num sub pre o = .error .valueError := by
    rintro sub pre o (rfl | rfl) <;> rfl
  induction n with
  | zero =>
    rintro pre o hw hc ⟨p, c, hp, hr, he⟩
    have : p = [] := by simpa using hp
    subst this
    cases hr
    exact h0 _ _ _ he
  | succ n ih =>
    rintro pre o hw hc ⟨p, c, hp, hr, he⟩
    rw [showContent]
    cases p with
    | nil => cases hr; exact h0 _ _ _ he
    | cons k p =>
      rw [reach_cons] at hr
      cases hk : reach [k] o with
      | none => rw [hk] at hr; cases hr
      | some v =>
        rw [hk] at hr
        have hr' : reach p v = some c := hr
        have hm := (mem_items hw k v).2 hk
        have hcont : ∀ (p : List PKey) (v : Obj), reach p v = some c → v.isCont = true := by
          intro p v h
          cases p with
          | nil => cases h; rcases he with rfl | rfl <;> rfl
          | cons k' p => cases v <;> first | rfl | (cases k' <;> cases h)
        rw [showWith_cont num _ pre hc (fun h => by rw [h] at hm; cases hm)]
        rw [mapM_error (e := .valueError) o.items]
        · rfl
        · intro q hq
          by_cases hq2 : q.2.isCont = true
          · by_cases hex : ∃ p c, p.length ≤ n ∧ reach p q.2 = some c ∧ NoEntries c
            · exact .inr (by rw [if_pos hq2]; exact ih _ _ (items_wf hw (k := q.1) hq) hq2 hex)
            · obtain ⟨out, g, _⟩ := show_lines num n (pre ++ q.1.text ++ ['/']) q.2 (items_wf hw (k := q.1) hq) hq2
                (fun p c h1 h2 h3 => hex ⟨p, c, h1, h2, h3⟩)
              exact .inl ⟨out, by rw [if_pos hq2]; exact g⟩
          · exact .inl ⟨_, by rw [if_neg hq2]⟩
        · exact ⟨(k, v), hm, by
            rw [if_pos (hcont p v hr')]
            exact ih _ _ (items_wf hw hm) (hcont p v hr') ⟨p, c, by simpa using hp, hr', he⟩⟩

/-! ## C102 -/

/-- **C102** (partial) `show_content` prints one line for each entry down to the depth asked for, with its path and its value or the note that it
contains further entries; no entry is missing and none is printed twice, and the lines are in the order of the keys.  Missing: dictionaries and lists without entries, see `C102_fails`. -/
theorem C102_partial (num : PyNum → Str) (n : Nat) (pre : Str) (o : Obj) (hw : o.Wf) (hc : o.isCont = true)
    (he : ∀ p c, p.length ≤ n → reach p o = some c → ¬ NoEntries c) :
    ∃ out es, showContent num n pre o = .ok out ∧ List.Forall₂ (fun e l => LineFor num pre e.1 e.2 l) es out ∧
      (es.map (·.1)).Nodup ∧ (∀ p v, (p, v) ∈ es ↔ Displayed n o p v) ∧ es.Pairwise fun a b => Before o a.1 b.1 := by
  obtain ⟨out, h1, h2⟩ := show_lines num n pre o hw hc he
  exact ⟨out, _, h1, h2, shown_nodup n o hw, mem_shown n o hw, shown_before n o hw⟩

/-- **C102** The exception: a dictionary or list is displayed exactly if there are entries in it and in all dictionaries and lists on the way down;
otherwise the function ends with a ValueError. -/
theorem C102_ends (num : PyNum → Str) (n : Nat) (pre : Str) (o : Obj) (hw : o.Wf) (hc : o.isCont = true) :
    ((∃ out, showContent num n pre o = .ok out) ↔ ∀ p c, p.length ≤ n → reach p o = some c → ¬ NoEntries c) ∧
    ((∃ e, showContent num n pre o = .error e) → showContent num n pre o = .error .valueError) := by
  by_cases h : ∃ p c, p.length ≤ n ∧ reach p o = some c ∧ NoEntries c
  · have := show_empty num n pre o hw hc h
    refine ⟨⟨fun ⟨out, ho⟩ => ?_, fun hn => ?_⟩, fun _ => this⟩
    · rw [this] at ho; cases ho
    · obtain ⟨p, c, h1, h2, h3⟩ := h
      exact absurd h3 (hn p c h1 h2)
  · have h' : ∀ p c, p.length ≤ n → reach p o = some c → ¬ NoEntries c := fun p c h1 h2 h3 => h ⟨p, c, h1, h2, h3⟩
    obtain ⟨out, g, _⟩ := show_lines num n pre o hw hc h'
    exact ⟨⟨fun _ => h', fun _ => ⟨out, g⟩⟩, fun ⟨e, h⟩ => by rw [g] at h; cases h⟩

/-- **C102 fails** for dictionaries and lists without entries: nothing is displayed of an object that contains one -/
theorem C102_fails (num : PyNum → Str) (pre : Str) :
    showContent num 0 pre (.lst []) = .error .valueError ∧
    showContent num 1 pre (.dic [(.str "a".toList, .num (.int 1)), (.str "b".toList, .lst [])]) = .error .valueError :=
  ⟨rfl, rfl⟩

/-- **C102** Numbers and texts are displayed by themselves. -/
theorem C102_value (num : PyNum → Str) (n : Nat) (pre : Str) (o : Obj) :
    (∀ k, o = .num (.int k) → showContent num n pre o = .ok [num (.int k)]) ∧
    (∀ x, o = .num (.num (.flt x)) → showContent num n pre o = .ok [num (.num (.flt x))]) ∧
    ∀ s, o = .str s → showContent num n pre o = .ok [s] := by
  cases n <;> exact ⟨by rintro k rfl; rfl, by rintro k rfl; rfl, by rintro k rfl; rfl⟩

/-- **C102 fails** for numbers that were read with `preserve_value_strings`, whatever the number: the exception says that there is a problem in the
code. -/
theorem C102_preserved_fails (num : PyNum → Str) (n : Nat) (pre : Str) (x : ℚ) (s : Str) :
    showContent num n pre (.num (.num (.endf x s))) = .error .other := by
  cases n <;> rfl

/-- key that can be given in a path: not a negative number, and a valid name -/
def Spec.PathKey : PKey → Prop
  | .int n => 0 ≤ n
  | .str s => ElOk (.name s)

/-- the element of a path for a key -/
def elOf : PKey → PEl
  | .int n => .idx n.toNat
  | .str s => .name s

/-- **C102** The path that is displayed for an entry, given to `EndfPath`, leads to the entry. -/
theorem C102_path (o : Obj) (p : List PKey) (v : Obj) (h : reach p o = some v) (hk : ∀ k ∈ p, PathKey k) :
    ∃ q, mkPath ('/' :: joinChar '/' (p.map PKey.text)) = .ok q ∧ pget q o = .ok v := by
  have ht : p.map PKey.text = (p.map elOf).map PEl.text := by
    rw [List.map_map]
    refine List.map_congr_left fun k hm => ?_
    cases k with
    | str s => rfl
    | int n =>
      have h0 : (0 : Int) ≤ n := hk _ hm
      obtain ⟨m, rfl⟩ := Int.eq_ofNat_of_zero_le h0
      rfl
  refine ⟨p.map elOf, ?_, ?_⟩
  · have h1 : mkPath ('/' :: joinChar '/' (p.map PKey.text)) = mkPath (joinChar '/' (p.map PKey.text)) := by
      unfold mkPath
      rw [splitChar, if_pos rfl]
      rfl
    rw [h1, ht]
    refine mkPath_text fun x hx => ?_
    obtain ⟨k, hm, rfl⟩ := List.mem_map.1 hx
    cases k with
    | int n => exact trivial
    | str s => exact hk _ hm
  · clear ht
    induction p generalizing o with
    | nil => cases h; rfl
    | cons k p ih =>
      have hk0 := hk k (by simp)
      rw [reach_cons] at h
      cases hr : reach [k] o with
      | none => rw [hr] at h; cases h
      | some c =>
        rw [hr] at h
        have h' : reach p c = some v := h
        have hg : getItem o (elOf k) = .ok c := by
          cases o with
          | dic d =>
            have hkey : (elOf k).key = k := by
              cases k with
              | str s => rfl
              | int n => have h0 : (0 : Int) ≤ n := hk0; simp [elOf, PEl.key, h0]
            simp only [reach] at hr
            rw [getItem, hkey]
            cases hd : dGet k d with
            | none => rw [hd] at hr; cases hr
            | some c' => rw [hd] at hr; cases hr; rfl
          | lst l =>
            cases k with
            | str s => cases hr
            | int n =>
              simp only [reach] at hr
              rw [if_pos (show (0 : Int) ≤ n from hk0)] at hr
              simp only [elOf, getItem]
              cases hd : l[n.toNat]? with
              | none => rw [hd] at hr; cases hr
              | some c' => rw [hd] at hr; cases hr; rfl
          | _ => cases k <;> cases hr
        rw [List.map_cons, pget, hg]
        exact ih c h' (fun k hm => hk k (by simp [hm]))

/-- a path into a list -/
example : ∃ q, mkPath "/xs/0".toList = .ok q ∧ pget q (.dic [(.str "xs".toList, .lst [.num (.int 7), .none])]) = .ok (.num (.int 7)) :=
  C102_path _ [.str "xs".toList, .int 0] _ rfl (by
    intro k hk
    simp only [List.mem_cons, List.not_mem_nil, or_false] at hk
    rcases hk with rfl | rfl
    · exact (validEl_iff (.name "xs".toList)).1 (by decide +kernel)
    · exact Int.le_refl 0)

/-- a section with a list and a dictionary, one level down -/
def exShow : Obj := .dic [(.str "MAT".toList, .num (.int 125)), (.str "xs".toList, .lst [.num (.int 7), .none]),
  (.str "sub".toList, .dic [(.int 1, .str "x".toList)])]

example : exShow.Wf ∧ exShow.isCont = true ∧ ∀ p c, p.length ≤ 1 → reach p exShow = some c → ¬ NoEntries c := by
  have hw : exShow.Wf := by simp [exShow, Obj.Wf, wfD, wfL, DNodup, dKeys]
  refine ⟨hw, rfl, (C102_ends (fun _ => []) 1 [] exShow hw rfl).1.1 ⟨_, rfl⟩⟩

example : showContent (fun | .int n => intStr n | _ => []) 1 ['/'] exShow = .ok
    ["/MAT: 125".toList, "/xs/0: 7".toList, "/xs/1: None".toList, "/sub/1: x".toList] := by decide +kernel

example : showContent (fun | .int n => intStr n | _ => []) 0 ['/'] exShow = .ok
    ["/MAT: 125".toList, "/xs:  subsection or array".toList, "/sub: subsection or array".toList] := by decide +kernel

end Verif
