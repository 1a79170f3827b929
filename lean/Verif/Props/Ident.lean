import Verif.Model.Ident
import Verif.Lemmas.Eval
import Mathlib.Data.List.Nodup
import Mathlib.Data.List.Perm.Subperm
import Mathlib.Data.List.Perm.Lattice
/-
C69: deep equality.
-/
namespace Verif
open Spec

/-- structural equality of the objects `x` and `y` -/
inductive Spec.Same (h : Heap) : Nat → Nat → Prop
  | none {x y : Nat} (hx : h x = .none) (hy : h y = .none) : Same h x y
  | num {x y : Nat} {a b : PyNum} (hx : h x = .num a) (hy : h y = .num b) (e : a.val = b.val) : Same h x y
  | str {x y : Nat} {s : Str} (hx : h x = .str s) (hy : h y = .str s) : Same h x y
  | seq {x y : Nat} {l m : List Nat} (hx : h x = .seq l) (hy : h y = .seq m) (hl : l.length = m.length)
      (he : ∀ p ∈ l.zip m, Same h p.1 p.2) : Same h x y
  | map {x y : Nat} {d e : List (PKey × Nat)} (hx : h x = .map d) (hy : h y = .map e)
      (hk : ∀ k, k ∈ dKeys d ↔ k ∈ dKeys e)
      (he : ∀ k a b, dGet k d = some a → dGet k e = some b → Same h a b) : Same h x y

/-- objects directly contained -/
def Spec.kids (h : Heap) (x : Nat) : List Nat :=
  match h x with
  | .seq l => l
  | .map d => d.map Prod.snd
  | _ => []

/-- `x` is nested less than `f` levels deep, in particular not cyclic -/
def Spec.Depth (h : Heap) : Nat → Nat → Prop
  | 0, _ => False
  | f + 1, x => ∀ k ∈ kids h x, Depth h f k

def HNode.isCont : HNode → Bool
  | .seq _ | .map _ => true
  | _ => false

/-- the occurrences of lists and dictionaries in `x`, nested less than `f` levels deep -/
def Spec.conts (h : Heap) : Nat → Nat → List Nat
  | 0, _ => []
  | f + 1, x => if (h x).isCont then x :: (kids h x).flatMap (conts h f) else []

/-- `b` is contained in `a`, or `a` itself -/
inductive Spec.Reach (h : Heap) : Nat → Nat → Prop
  | refl (a : Nat) : Reach h a a
  | step {a b c : Nat} (hb : b ∈ kids h a) (hc : Reach h b c) : Reach h a c

/-- dictionaries have distinct keys -/
def Spec.HeapOk (h : Heap) : Prop := ∀ x d, h x = .map d → DNodup d

/-- conditions on the comparison of `x` with `y`: floats are not of the class EndfFloat, and no list in `x` has as many
elements as a text in `y` has characters -/
structure Spec.Comparable (h : Heap) (x y : Nat) : Prop where
  noEndfX : ∀ a, Reach h x a → ∀ v s, h a ≠ .num (.num (.endf v s))
  noEndfY : ∀ b, Reach h y b → ∀ v s, h b ≠ .num (.num (.endf v s))
  noText : ∀ a b l s, Reach h x a → Reach h y b → h a = .seq l → h b = .str s → l.length ≠ s.length

theorem Spec.Comparable.kid {h : Heap} {x y a b : Nat} (c : Comparable h x y) (ha : a ∈ kids h x) (hb : b ∈ kids h y) :
    Comparable h a b where
  noEndfX := fun z hz => c.noEndfX z (.step ha hz)
  noEndfY := fun z hz => c.noEndfY z (.step hb hz)
  noText := fun z w l s hz hw => c.noText z w l s (.step ha hz) (.step hb hw)

theorem same_refl {h : Heap} (ho : HeapOk h) (f x : Nat) (hd : Depth h f x) : Same h x x := by
  induction f generalizing x with
  | zero => cases hd
  | succ f ih =>
    cases hx : h x with
    | none => exact .none hx hx
    | num a => exact .num hx hx rfl
    | str s => exact .str hx hx
    | seq l =>
      simp only [Depth, kids, hx] at hd
      refine .seq hx hx rfl fun p hp => ?_
      have : p.1 = p.2 ∧ p.1 ∈ l := by
        clear hd hx
        induction l with
        | nil => simp at hp
        | cons a l ihl =>
          simp only [List.zip_cons_cons, List.mem_cons] at hp
          rcases hp with rfl | hp
          · simp
          · obtain ⟨h1, h2⟩ := ihl hp; exact ⟨h1, by simp [h2]⟩
      rw [← this.1]
      exact ih _ (hd _ this.2)
    | map d =>
      simp only [Depth, kids, hx] at hd
      refine .map hx hx (fun k => Iff.rfl) fun k a b h1 h2 => ?_
      rw [h1] at h2; cases h2
      exact ih _ (hd _ (List.mem_map.2 ⟨_, dGet_mem h1, rfl⟩))

/-- result of a call that answers the question -/
def Good (r : Res (Bool × List Nat)) (ids new : List Nat) (P : Prop) : Prop :=
  ∃ b ids', r = .ok (b, ids') ∧ (b = true ↔ P) ∧ ∀ i ∈ ids', i ∈ ids ∨ i ∈ new

theorem good_elems {h : Heap} {f : Nat} {l m : List Nat} {ids : List Nat} (hlen : l.length = m.length)
    (hn : (l.flatMap (conts h f)).Nodup) (hdis : ∀ i ∈ ids, i ∉ l.flatMap (conts h f))
    (ih : ∀ p ∈ l.zip m, ∀ ids : List Nat, (∀ i ∈ ids, i ∉ conts h f p.1) →
      Good (eqH h f p.1 (.ref p.2) ids) ids (conts h f p.1) (Same h p.1 p.2)) :
    Good (eqElems (eqH h f) l (m.map .ref) ids) ids (l.flatMap (conts h f)) (∀ p ∈ l.zip m, Same h p.1 p.2) := by
  induction l generalizing m ids with
  | nil => exact ⟨true, ids, by simp [eqElems], by simp, fun i hi => .inl hi⟩
  | cons x l ihl =>
    cases m with
    | nil => simp at hlen
    | cons y m =>
      simp only [List.flatMap_cons] at hn hdis ⊢
      rw [List.nodup_append'] at hn
      obtain ⟨b, ids', h1, h2, h3⟩ := ih (x, y) (by simp) ids fun i hi hm => hdis i hi (by simp [hm])
      simp only [List.map_cons, eqElems, h1]
      cases b with
      | false =>
        refine ⟨false, ids', rfl, ?_, fun i hi => ?_⟩
        · simp only [Bool.false_eq_true, false_iff]
          intro hall
          have := h2.2 (hall (x, y) (by simp))
          cases this
        · rcases h3 i hi with h | h
          · exact .inl h
          · exact .inr (by simp [h])
      | true =>
        obtain ⟨b2, ids2, g1, g2, g3⟩ := ihl (m := m) (ids := ids') (by simpa using hlen) hn.2.1
          (fun i hi hm => by
            rcases h3 i hi with h | h
            · exact hdis i h (by simp [hm])
            · exact hn.2.2 h hm)
          (fun p hp => ih p (by simp [hp]))
        refine ⟨b2, ids2, g1, ?_, fun i hi => ?_⟩
        · rw [g2]
          simp only [List.zip_cons_cons, List.mem_cons, forall_eq_or_imp]
          exact ⟨fun h => ⟨h2.1 rfl, h⟩, fun h => h.2⟩
        · rcases g3 i hi with h | h
          · rcases h3 i h with h | h
            · exact .inl h
            · exact .inr (by simp [h])
          · exact .inr (by simp [h])

theorem good_entries {h : Heap} {f : Nat} {d e : List (PKey × Nat)} {ids : List Nat} (hk : ∀ k ∈ dKeys d, k ∈ dKeys e)
    (hn : ((d.map Prod.snd).flatMap (conts h f)).Nodup) (hdis : ∀ i ∈ ids, i ∉ (d.map Prod.snd).flatMap (conts h f))
    (ih : ∀ k x y, (k, x) ∈ d → dGet k e = some y → ∀ ids : List Nat, (∀ i ∈ ids, i ∉ conts h f x) →
      Good (eqH h f x (.ref y) ids) ids (conts h f x) (Same h x y)) :
    Good (eqEntries (eqH h f) e d ids) ids ((d.map Prod.snd).flatMap (conts h f))
      (∀ k x y, (k, x) ∈ d → dGet k e = some y → Same h x y) := by
  induction d generalizing ids with
  | nil => exact ⟨true, ids, by simp [eqEntries], by simp, fun i hi => .inl hi⟩
  | cons p d ihl =>
    obtain ⟨k, x⟩ := p
    simp only [List.map_cons, List.flatMap_cons] at hn hdis ⊢
    rw [List.nodup_append'] at hn
    cases hg : dGet k e with
    | none => exact absurd (hk k (by simp [dKeys])) ((dGet_none_iff _ _).1 hg)
    | some y =>
      obtain ⟨b, ids', h1, h2, h3⟩ := ih k x y (by simp) hg ids fun i hi hm => hdis i hi (by simp [hm])
      simp only [eqEntries, hg, h1]
      cases b with
      | false =>
        refine ⟨false, ids', rfl, ?_, fun i hi => ?_⟩
        · simp only [Bool.false_eq_true, false_iff]
          intro hall
          have := h2.2 (hall k x y (by simp) hg)
          cases this
        · rcases h3 i hi with h | h
          · exact .inl h
          · exact .inr (by simp [h])
      | true =>
        obtain ⟨b2, ids2, g1, g2, g3⟩ := ihl (ids := ids') (fun k hk' => hk k (by simp [dKeys] at hk' ⊢; exact .inr hk')) hn.2.1
          (fun i hi hm => by
            rcases h3 i hi with h | h
            · exact hdis i h (by simp [hm])
            · exact hn.2.2 h hm)
          (fun k x y hm => ih k x y (by simp [hm]))
        refine ⟨b2, ids2, g1, ?_, fun i hi => ?_⟩
        · rw [g2]
          constructor
          · intro hall k' x' y' hm hg'
            rcases List.mem_cons.1 hm with e | hm
            · cases e; rw [hg] at hg'; cases hg'; exact h2.1 rfl
            · exact hall k' x' y' hm hg'
          · intro hall k' x' y' hm; exact hall k' x' y' (by simp [hm])
        · rcases g3 i hi with h | h
          · rcases h3 i h with h | h
            · exact .inl h
            · exact .inr (by simp [h])
          · exact .inr (by simp [h])

theorem zip_kids {l m : List Nat} {p : Nat × Nat} (h : p ∈ l.zip m) : p.1 ∈ l ∧ p.2 ∈ m :=
  ⟨(List.of_mem_zip h).1, (List.of_mem_zip h).2⟩

theorem dHas_iff {k : PKey} {e : List (PKey × Nat)} : dHas k e = true ↔ k ∈ dKeys e := by
  cases h : dGet k e with
  | none => have := (dGet_none_iff _ _).1 h; simp [dHas, h, this]
  | some v => have : k ∈ dKeys e := List.mem_map.2 ⟨_, dGet_mem h, rfl⟩; simp [dHas, h, this]

/-- keys of two dictionaries of the same size, one being contained in the other -/
theorem keys_eq {d e : List (PKey × Nat)} (hd : DNodup d) (hlen : d.length = e.length) (hs : ∀ k ∈ dKeys d, k ∈ dKeys e) :
    ∀ k, k ∈ dKeys d ↔ k ∈ dKeys e := by
  have hsub : (dKeys d).Subperm (dKeys e) := List.Nodup.subperm hd hs
  have hp : (dKeys d).Perm (dKeys e) := hsub.perm_of_length_le (by simp [dKeys, hlen])
  exact fun k => hp.mem_iff

theorem good_other {ids new : List Nat} {b : Bool} {P : Prop} (hb : b = true ↔ P) :
    Good (.ok (b, ids)) ids new P := ⟨b, ids, rfl, hb, fun i hi => .inl hi⟩

theorem same_false {h : Heap} {x y : Nat} (hx : (h x).isCont = false) (hy : h y ≠ h x)
    (hn : ∀ a b, h x = .num a → h y = .num b → a.val ≠ b.val) : ¬ Same h x y := by
  intro hs
  cases hs with
  | none h1 h2 => exact hy (by rw [h1, h2])
  | num h1 h2 e => exact hn _ _ h1 h2 e
  | str h1 h2 => exact hy (by rw [h1, h2])
  | seq h1 h2 => rw [h1] at hx; cases hx
  | map h1 h2 => rw [h1] at hx; cases hx

theorem same_cont {h : Heap} {x y : Nat} (hs : Same h x y) : (h x).isCont = (h y).isCont := by
  cases hs with
  | none h1 h2 => rw [h1, h2]
  | num h1 h2 e => rw [h1, h2]; rfl
  | str h1 h2 => rw [h1, h2]
  | seq h1 h2 => rw [h1, h2]; rfl
  | map h1 h2 => rw [h1, h2]; rfl

theorem eqH_good {h : Heap} (ho : HeapOk h) (f x y : Nat) (hd : Depth h f x) (hc : Comparable h x y)
    (hn : (conts h f x).Nodup) (ids : List Nat) (hdis : ∀ i ∈ ids, i ∉ conts h f x) :
    Good (eqH h f x (.ref y) ids) ids (conts h f x) (Same h x y) := by
  induction f generalizing x y ids with
  | zero => cases hd
  | succ f ih =>
    rw [eqH]
    by_cases hxy : HRef.ref y = .ref x
    · rw [if_pos hxy]
      cases hxy
      exact good_other (by simp [same_refl ho (f+1) x hd])
    rw [if_neg hxy]
    simp only [HRef.node]
    have hd' : ∀ k ∈ kids h x, Depth h f k := hd
    cases hx : h x with
    | seq l =>
      have hkx : kids h x = l := by simp [kids, hx]
      have hcx : conts h (f+1) x = x :: l.flatMap (conts h f) := by simp [conts, hx, HNode.isCont, hkx]
      rw [hcx, List.nodup_cons] at hn
      rw [hcx] at hdis ⊢
      cases hy : h y with
      | seq m =>
        have hky : kids h y = m := by simp [kids, hy]
        dsimp only
        by_cases hlen : l.length = m.length
        · have hxi : x ∉ ids := fun hi => hdis x hi (by simp)
          rw [if_neg (not_not.2 hlen), if_neg hxi]
          obtain ⟨b, ids', g1, g2, g3⟩ := good_elems (h := h) (f := f) (ids := x :: ids) hlen hn.2
            (fun i hi hm => by
              rcases List.mem_cons.1 hi with rfl | hi
              · exact hn.1 hm
              · exact hdis i hi (by simp [hm]))
            (fun p hp ids hids => by
              obtain ⟨p1, p2⟩ := zip_kids hp
              refine ih p.1 p.2 (hd' _ (hkx ▸ p1)) (hc.kid (hkx ▸ p1) (hky ▸ p2)) ?_ ids hids
              exact (List.nodup_flatMap.1 hn.2).1 _ p1)
          refine ⟨b, ids', g1, ?_, fun i hi => ?_⟩
          · rw [g2]
            constructor
            · intro hall; exact .seq hx hy hlen hall
            · intro hs
              cases hs with
              | seq h1 h2 _ he => rw [hx] at h1; rw [hy] at h2; cases h1; cases h2; exact he
              | _ => simp_all
          · rcases g3 i hi with h | h
            · rcases List.mem_cons.1 h with rfl | h
              · exact .inr (by simp)
              · exact .inl h
            · exact .inr (by simp [h])
        · rw [if_pos hlen]
          refine good_other ?_
          simp only [Bool.false_eq_true, false_iff]
          intro hs
          cases hs with
          | seq h1 h2 hl => rw [hx] at h1; rw [hy] at h2; cases h1; cases h2; exact hlen hl
          | _ => simp_all
      | str s =>
        dsimp only
        rw [if_pos (hc.noText x y l s (.refl x) (.refl y) hx hy)]
        refine good_other ?_
        simp only [Bool.false_eq_true, false_iff]
        intro hs
        have := same_cont hs
        rw [hx, hy] at this; cases this
      | num b =>
        cases b with
        | num b =>
          cases b with
          | endf v s => exact absurd hy (hc.noEndfY y (.refl y) v s)
          | flt v =>
            refine good_other (b := false) ?_
            simp only [Bool.false_eq_true, false_iff]
            intro hs
            have := same_cont hs
            rw [hx, hy] at this; cases this
        | int n =>
          refine good_other (b := false) ?_
          simp only [Bool.false_eq_true, false_iff]
          intro hs
          have := same_cont hs
          rw [hx, hy] at this; cases this
      | none =>
        refine good_other (b := false) ?_
        simp only [Bool.false_eq_true, false_iff]
        intro hs
        have := same_cont hs
        rw [hx, hy] at this; cases this
      | map e =>
        refine good_other (b := false) ?_
        simp only [Bool.false_eq_true, false_iff]
        intro hs
        cases hs <;> simp_all
    | map d =>
      have hkx : kids h x = d.map Prod.snd := by simp [kids, hx]
      have hcx : conts h (f+1) x = x :: (d.map Prod.snd).flatMap (conts h f) := by simp [conts, hx, HNode.isCont, hkx]
      rw [hcx, List.nodup_cons] at hn
      rw [hcx] at hdis ⊢
      cases hy : h y with
      | map e =>
        have hky : kids h y = e.map Prod.snd := by simp [kids, hy]
        dsimp only
        have hkeys : ∀ {k a b}, (k, a) ∈ d → dGet k e = some b → a ∈ d.map Prod.snd ∧ b ∈ e.map Prod.snd :=
          fun hm hg => ⟨List.mem_map.2 ⟨_, hm, rfl⟩, List.mem_map.2 ⟨_, dGet_mem hg, rfl⟩⟩
        by_cases hlen : d.length = e.length
        · rw [if_neg (not_not.2 hlen)]
          by_cases hall : (dKeys d).all (dHas · e) = true
          · have hs : ∀ k ∈ dKeys d, k ∈ dKeys e := by
              intro k hk
              exact dHas_iff.1 (List.all_eq_true.1 hall k hk)
            have hxi : x ∉ ids := fun hi => hdis x hi (by simp)
            rw [if_neg (not_not.2 hall), if_neg hxi]
            obtain ⟨b, ids', g1, g2, g3⟩ := good_entries (h := h) (f := f) (e := e) (ids := x :: ids) hs hn.2
              (fun i hi hm => by
                rcases List.mem_cons.1 hi with rfl | hi
                · exact hn.1 hm
                · exact hdis i hi (by simp [hm]))
              (fun k a b hm hg ids hids => by
                obtain ⟨p1, p2⟩ := hkeys hm hg
                refine ih a b (hd' _ (hkx ▸ p1)) (hc.kid (hkx ▸ p1) (hky ▸ p2)) ?_ ids hids
                exact (List.nodup_flatMap.1 hn.2).1 _ p1)
            refine ⟨b, ids', g1, ?_, fun i hi => ?_⟩
            · rw [g2]
              constructor
              · intro hall
                exact .map hx hy (keys_eq (ho x d hx) hlen hs) fun k a b h1 h2 => hall k a b (dGet_mem h1) h2
              · intro hs k a b hm hg
                cases hs with
                | map h1 h2 _ he =>
                  rw [hx] at h1; rw [hy] at h2; cases h1; cases h2
                  exact he k a b (dGet_of_mem (ho x d hx) hm) hg
                | _ => simp_all
            · rcases g3 i hi with h | h
              · rcases List.mem_cons.1 h with rfl | h
                · exact .inr (by simp)
                · exact .inl h
              · exact .inr (by simp [h])
          · rw [if_pos hall]
            refine good_other ?_
            simp only [Bool.false_eq_true, false_iff]
            intro hs
            cases hs with
            | map h1 h2 hk =>
              rw [hx] at h1; rw [hy] at h2; cases h1; cases h2
              exact hall (List.all_eq_true.2 fun k hk' => dHas_iff.2 ((hk k).1 hk'))
            | _ => simp_all
        · rw [if_pos hlen]
          refine good_other ?_
          simp only [Bool.false_eq_true, false_iff]
          intro hs
          cases hs with
          | map h1 h2 hk =>
            rw [hx] at h1; rw [hy] at h2; cases h1; cases h2
            have hp : (dKeys d).Perm (dKeys e) := (List.perm_ext_iff_of_nodup (ho x d hx) (ho y e hy)).2 hk
            have := hp.length_eq
            simp only [dKeys, List.length_map] at this
            exact hlen this
          | _ => simp_all
      | num b =>
        cases b with
        | num b =>
          cases b with
          | endf v s => exact absurd hy (hc.noEndfY y (.refl y) v s)
          | flt v =>
            refine good_other (b := false) ?_
            simp only [Bool.false_eq_true, false_iff]
            intro hs
            have := same_cont hs
            rw [hx, hy] at this; cases this
        | int n =>
          refine good_other (b := false) ?_
          simp only [Bool.false_eq_true, false_iff]
          intro hs
          have := same_cont hs
          rw [hx, hy] at this; cases this
      | none =>
        refine good_other (b := false) ?_
        simp only [Bool.false_eq_true, false_iff]
        intro hs
        have := same_cont hs
        rw [hx, hy] at this; cases this
      | str s =>
        refine good_other (b := false) ?_
        simp only [Bool.false_eq_true, false_iff]
        intro hs
        have := same_cont hs
        rw [hx, hy] at this; cases this
      | seq e =>
        refine good_other (b := false) ?_
        simp only [Bool.false_eq_true, false_iff]
        intro hs
        cases hs <;> simp_all
    | str s =>
      cases hy : h y with
      | str t =>
        refine good_other ?_
        rw [decide_eq_true_iff]
        constructor
        · rintro rfl; exact .str hx hy
        · intro hs; cases hs <;> simp_all
      | num b =>
        cases b with
        | num b =>
          cases b with
          | endf v s => exact absurd hy (hc.noEndfY y (.refl y) v s)
          | flt v =>
            refine good_other (b := false) ?_
            simp only [Bool.false_eq_true, false_iff]
            intro hs; cases hs <;> simp_all
        | int n =>
          refine good_other (b := false) ?_
          simp only [Bool.false_eq_true, false_iff]
          intro hs; cases hs <;> simp_all
      | _ =>
        refine good_other (b := false) ?_
        simp only [Bool.false_eq_true, false_iff]
        intro hs; cases hs <;> simp_all
    | none =>
      cases hy : h y with
      | none =>
        refine good_other (b := true) ?_
        simp only [true_iff]
        exact .none hx hy
      | num b =>
        cases b with
        | num b =>
          cases b with
          | endf v s => exact absurd hy (hc.noEndfY y (.refl y) v s)
          | flt v =>
            refine good_other (b := false) ?_
            simp only [Bool.false_eq_true, false_iff]
            intro hs; cases hs <;> simp_all
        | int n =>
          refine good_other (b := false) ?_
          simp only [Bool.false_eq_true, false_iff]
          intro hs; cases hs <;> simp_all
      | _ =>
        refine good_other (b := false) ?_
        simp only [Bool.false_eq_true, false_iff]
        intro hs; cases hs <;> simp_all
    | num a =>
      have hnum : ∀ b, h y = .num b → (Same h x y ↔ a.val = b.val) := by
        intro b hb
        constructor
        · intro hs; cases hs <;> simp_all
        · intro e; exact .num hx hb e
      have hoth : (∀ b, h y ≠ .num b) → ¬ Same h x y := by
        intro hb hs; cases hs <;> simp_all
      have ha : ∀ v s, a ≠ .num (.endf v s) := fun v s e => hc.noEndfX x (.refl x) v s (by rw [hx, e])
      cases a with
      | num a =>
        cases a with
        | endf v s => exact absurd rfl (ha v s)
        | flt v =>
          cases hy : h y with
          | num b =>
            cases b with
            | num b =>
              cases b with
              | endf v s => exact absurd hy (hc.noEndfY y (.refl y) v s)
              | flt w => exact good_other (by rw [decide_eq_true_iff, hnum _ hy])
            | int n => exact good_other (by rw [decide_eq_true_iff, hnum _ hy])
          | _ =>
            refine good_other (b := false) ?_
            simp only [Bool.false_eq_true, false_iff]
            exact hoth (by simp [hy])
      | int n =>
        cases hy : h y with
        | num b =>
          cases b with
          | num b =>
            cases b with
            | endf v s => exact absurd hy (hc.noEndfY y (.refl y) v s)
            | flt w => exact good_other (by rw [decide_eq_true_iff, hnum _ hy])
          | int n => exact good_other (by rw [decide_eq_true_iff, hnum _ hy])
        | _ =>
          refine good_other (b := false) ?_
          simp only [Bool.false_eq_true, false_iff]
          exact hoth (by simp [hy])

/-- C69, partial: if `x` isn't cyclic and no list or dictionary occurs twice in it, the comparison succeeds and is true iff
the objects are structurally equal.  Missing: objects that share sub-objects (`C69_shared_fails`), EndfFloat objects
compared with something else than numbers (`C69_float_fails`), and lists compared with texts (`C69_text_fails`). -/
theorem C69_partial (h : Heap) (ho : HeapOk h) (f x y : Nat) (hd : Depth h f x) (hc : Comparable h x y)
    (hn : (conts h f x).Nodup) : ∃ b, eqObj h f x y = .ok b ∧ (b = true ↔ Same h x y) := by
  obtain ⟨b, ids', h1, h2, _⟩ := eqH_good ho f x y hd hc hn [] (by simp)
  exact ⟨b, by simp [eqObj, h1, bind, Except.bind, pure, Except.pure], h2⟩

/-- heap with the given objects -/
def heapOf (l : List HNode) : Heap := fun n => l.getD n .none

/-- **C69 fails**: `[a, a] == [b, b]` with `a == b` raises an IndexError that claims a cycle -/
theorem C69_shared_fails :
    let h := heapOf [.seq [2, 2], .seq [3, 3], .seq [4], .seq [4], .num (.int 1)]
    (match eqObj h 5 0 1 with | .error .indexError => true | _ => false) = true ∧
    (eqObj h 5 2 3).toOption = some true := by decide +kernel

/-- **C69 fails**: a float that keeps its text compared with None is a TypeError, and with a text it can be equal -/
theorem C69_float_fails :
    let h := heapOf [.seq [2], .seq [3], .num (.num (.endf 1 [])), .none, .seq [5], .str ['1'], .seq [7], .str ['x']]
    (match eqObj h 5 0 1 with | .error .typeError => true | _ => false) = true ∧
    (eqObj h 5 0 4).toOption = some true ∧
    (match eqObj h 5 0 6 with | .error .valueError => true | _ => false) = true := by decide +kernel

/-- **C69 fails**: `["a"] == "a"` nested in a list, but not the other way round -/
theorem C69_text_fails :
    let h := heapOf [.seq [2], .seq [3], .seq [4], .str ['a'], .str ['a']]
    (eqObj h 5 0 1).toOption = some true ∧ (eqObj h 5 1 0).toOption = some false := by decide +kernel

/-- C69: cyclic objects are refused -/
example :
    let h := heapOf [.seq [0], .seq [1]]
    (match eqObj h 5 0 1 with | .error .indexError => true | _ => false) = true := by decide +kernel

/-- C69: dictionaries with the entries in different order -/
example :
    let h := heapOf [.map [(.int 1, 2), (.int 2, 3)], .map [(.int 2, 4), (.int 1, 2)], .num (.int 1), .seq [2], .seq [2]]
    (eqObj h 5 0 1).toOption = some true := by decide +kernel

end Verif
