import Verif.Lemmas.FieldsAgain
/-
The dictionaries of a reading run beside those of a writing run, level by level.
-/
namespace Verif
open Spec

variable [Lit]

/-- the variables of `d` are in `D` with the same values (abbreviations apart) -/
def Hold (d D : DDic) : Prop :=
  ∀ n v, dGet (.var n) d = some v → (∀ e, v ≠ .abb e) → ∃ v', dGet (.var n) D = some v' ∧ Ext v v'

/-- `d` is the dictionary while reading, `w` while writing, `D` contains the data of `w` -/
structure Lev (A N : List Name) (d w D : DDic) : Prop where
  sync : ∀ n e, dGet (.var n) d = some (.abb e) ↔ dGet (.var n) w = some (.abb e)
  split : ∀ n v, dGet (.var n) w = some v → (∃ e, v = .abb e) ∨ dGet (.var n) D = some v
  sub : ∀ n v, dGet (.var n) D = some v → dGet (.var n) w = some v ∧ Clean v
  good : ∀ n e, dGet (.var n) w = some (.abb e) → n ∈ A ∧ ∀ r ∈ e.refs, r.name ∈ N
  up : dHas .up d = dHas .up w

theorem Hold.before {d d' D : DDic} (h : Hold d' D) (hg : Grow d d') : Hold d D := by
  intro n v hv ha
  obtain ⟨v1, hv1, he1⟩ := hg (.var n) v rfl ha hv
  obtain ⟨v2, hv2, he2⟩ := h n v1 hv1 (fun e h => ha e ((he1.abb_iff e).2 h))
  exact ⟨v2, hv2, he1.trans he2⟩

theorem Lev.cover {A N : List Name} {d w D : DDic} (h : Lev A N d w D) (hh : Hold d D) : Cover d w := by
  refine ⟨?_, fun n e hn => (h.sync n e).2 hn, ?_⟩
  · intro n v hv
    by_cases ha : ∃ e, v = .abb e
    · obtain ⟨e, rfl⟩ := ha; exact ⟨_, (h.sync n e).1 hv, .refl _⟩
    · obtain ⟨v', hv', he⟩ := hh n v hv (fun e h => ha ⟨e, h⟩)
      exact ⟨v', (h.sub n v' hv').1, he⟩
  · intro n v hv
    rcases h.split n v hv with ha | hd
    · exact .inr ha
    · exact .inl (h.sub n v hd).2

theorem Lev.sync' {A N : List Name} {d d' w D : DDic} (h : Lev A N d w D) (hs : SameAbb d d')
    (hu : dHas .up d' = dHas .up d) : Lev A N d' w D :=
  ⟨fun n e => (hs.1 n e).symm.trans (h.sync n e), h.split, h.sub, h.good, hu.trans h.up⟩

/-- one level -/
structure Level where
  d : DDic
  w : DDic
  D : DDic

/-- the dictionaries around the one with the data `D` -/
structure Outer (A N : List Name) (top : DDic) (D : DDic) (L : List Level) : Prop where
  nest : ∃ ch, Nested top ch D ∧ ∀ x ∈ L, x.D ∈ ch
  inner : ∀ x ∈ L, ∃ ch, Nested top ch x.D
  rel : ∀ x ∈ L, Lev A N x.d x.w x.D ∧ Hold x.d x.D
  apart : L.Pairwise fun a b => ∀ n ∈ N, dHas (.var n) a.D = true → dHas (.var n) b.D = false

/-- all that is demanded of the data -/
structure Top (A N : List Name) (top : DDic) : Prop where
  uns : Unshadowed N top
  unu : Unused A top

theorem Outer.push {A N : List Name} {top D : DDic} {L : List Level} (hT : Top A N top)
    (h : Outer A N top D L) : ∀ n ∈ N, dHas (.var n) D = true → ∀ x ∈ L, dHas (.var n) x.D = false := by
  obtain ⟨ch, h1, h2⟩ := h.nest
  intro n hn hd x hx
  exact hT.uns ch D h1 n hn hd x.D (h2 x hx)

/-! ## searching for a variable in the enclosing dictionaries -/

theorem findScope_mem {l : Bool} {n : Name} {d x : DDic} {us : List DDic} (h : findScope l n d us = some x) :
    x ∈ d :: us ∧ dHas (.var n) x = true := by
  induction us generalizing d with
  | nil =>
    simp only [findScope] at h
    split at h
    · cases h; exact ⟨by simp, by assumption⟩
    · cases h
  | cons u us ih =>
    simp only [findScope] at h
    split at h
    · cases h; exact ⟨by simp, by assumption⟩
    · split at h
      · obtain ⟨h1, h2⟩ := ih h; exact ⟨List.mem_cons_of_mem _ h1, h2⟩
      · cases h

theorem Lev.has {A N : List Name} {d w D : DDic} (h : Lev A N d w D) (hh : Hold d D) {n : Name}
    (hd : dHas (.var n) d = true) : dHas (.var n) w = true ∧ (dHas (.var n) D = true ∨ n ∈ A) := by
  obtain ⟨v, hv⟩ := dHas_some.1 hd
  by_cases ha : ∃ e, v = .abb e
  · obtain ⟨e, rfl⟩ := ha
    have := (h.sync n e).1 hv
    exact ⟨dHas_some.2 ⟨_, this⟩, .inr (h.good n e this).1⟩
  · obtain ⟨v', hv', _⟩ := hh n v hv (fun e h => ha ⟨e, h⟩)
    exact ⟨dHas_some.2 ⟨_, (h.sub n v' hv').1⟩, .inl (dHas_some.2 ⟨_, hv'⟩)⟩

theorem findScope_rel {A N : List Name} {n : Name} (hn : n ∈ N) (L : List Level) {l : Level}
    (hrel : ∀ x ∈ l :: L, Lev A N x.d x.w x.D ∧ Hold x.d x.D)
    (hap : (l :: L).Pairwise fun a b => ∀ n ∈ N, dHas (.var n) a.D = true → dHas (.var n) b.D = false)
    (hun : ∀ x ∈ l :: L, ∀ n ∈ A, dHas (.var n) x.D = false) {x y : DDic}
    (h1 : findScope true n l.d (L.map Level.d) = some x) (h2 : findScope true n l.w (L.map Level.w) = some y) :
    ∃ z ∈ l :: L, x = z.d ∧ y = z.w := by
  obtain ⟨hl, hh⟩ := hrel l (by simp)
  by_cases hd : dHas (.var n) l.d = true
  · have hw := (hl.has hh hd).1
    refine ⟨l, by simp, ?_, ?_⟩
    · cases L with
      | nil => simp only [List.map_nil, findScope, hd, if_true, Option.some.injEq] at h1; exact h1.symm
      | cons => simp only [List.map_cons, findScope, hd, if_true, Option.some.injEq] at h1; exact h1.symm
    · cases L with
      | nil => simp only [List.map_nil, findScope, hw, if_true, Option.some.injEq] at h2; exact h2.symm
      | cons => simp only [List.map_cons, findScope, hw, if_true, Option.some.injEq] at h2; exact h2.symm
  · cases L with
    | nil => rw [List.map_nil, findScope, if_neg hd] at h1; cases h1
    | cons l1 L =>
      rw [List.map_cons, findScope, if_neg hd] at h1
      split at h1
      · have hw : ¬ dHas (.var n) l.w = true := by
          intro hw
          obtain ⟨v, hv⟩ := dHas_some.1 hw
          have hD : dHas (.var n) l.D = true := by
            rcases hl.split n v hv with ⟨e, rfl⟩ | h
            · exact absurd (dHas_some.2 ⟨_, (hl.sync n e).2 hv⟩) hd
            · exact dHas_some.2 ⟨_, h⟩
          obtain ⟨g1, g2⟩ := findScope_mem h1
          have g1' : ∃ z ∈ l1 :: L, z.d = x := by
            rw [← List.map_cons (f := Level.d), List.mem_map] at g1; exact g1
          obtain ⟨z, hz, rfl⟩ := g1'
          obtain ⟨hz1, hz2⟩ := hrel z (List.mem_cons_of_mem _ hz)
          rcases (hz1.has hz2 g2).2 with h3 | h3
          · have := List.rel_of_pairwise_cons hap hz n hn hD
            rw [this] at h3; cases h3
          · rw [hun l (by simp) n h3] at hD; cases hD
        rw [List.map_cons, findScope, if_neg hw] at h2
        split at h2
        · obtain ⟨z, hz, e⟩ := findScope_rel hn L (fun x hx => hrel x (List.mem_cons_of_mem _ hx)) (List.Pairwise.of_cons hap)
            (fun x hx => hun x (List.mem_cons_of_mem _ hx)) h1 h2
          exact ⟨z, List.mem_cons_of_mem _ hz, e⟩
        · cases h2
      · cases h1

/-- what is demanded around the current level -/
structure Here (A N : List Name) (top d w D : DDic) (L : List Level) : Prop where
  all : Top A N top
  out : Outer A N top D L
  lev : Lev A N d w D
  hold : Hold d D

theorem Here.rel {A N : List Name} {top d w D : DDic} {L : List Level} (h : Here A N top d w D L) :
    ∀ x ∈ (⟨d, w, D⟩ : Level) :: L, Lev A N x.d x.w x.D ∧ Hold x.d x.D := by
  intro x hx
  rcases List.mem_cons.1 hx with rfl | hx
  · exact ⟨h.lev, h.hold⟩
  · exact h.out.rel x hx

theorem Here.nested {A N : List Name} {top d w D : DDic} {L : List Level} (h : Here A N top d w D L) :
    ∀ x ∈ (⟨d, w, D⟩ : Level) :: L, ∃ ch, Nested top ch x.D := by
  intro x hx
  rcases List.mem_cons.1 hx with rfl | hx
  · obtain ⟨ch, h1, _⟩ := h.out.nest; exact ⟨ch, h1⟩
  · exact h.out.inner x hx

theorem Here.scope {A N : List Name} {top d w D : DDic} {L : List Level} (h : Here A N top d w D L)
    {n : Name} (hn : n ∈ N) {x y : DDic}
    (h1 : findScope true n d (L.map Level.d) = some x) (h2 : findScope true n w (L.map Level.w) = some y) :
    ∃ z ∈ (⟨d, w, D⟩ : Level) :: L, x = z.d ∧ y = z.w := by
  refine findScope_rel hn L (l := ⟨d, w, D⟩) h.rel ?_ ?_ h1 h2
  · exact List.Pairwise.cons (fun x hx n hn hd => h.out.push h.all n hn hd x hx) h.out.apart
  · intro x hx n hn
    obtain ⟨ch, hch⟩ := h.nested x hx
    exact h.all.unu ch x.D hch n hn

theorem Here.value {A N : List Name} {top d w D : DDic} {L : List Level} (h : Here A N top d w D L)
    {lv : Dict Name Int} {r : VarRef} (hr : r.name ∈ N) {v v' : Val}
    (h1 : getVarval ⟨d, L.map Level.d, lv⟩ true r = .ok v) (h2 : getVarval ⟨w, L.map Level.w, lv⟩ true r = .ok v') :
    Ext v v' := by
  unfold getVarval at h1 h2
  split at h1
  · cases h1
  split at h2
  · cases h2
  cases hl : dGet r.name lv with
  | some i =>
    simp only [hl, Except.ok.injEq] at h1 h2
    rw [← h1, ← h2]; exact .refl _
  | none =>
    simp only [hl] at h1 h2
    cases hs : findScope true r.name d (L.map Level.d) with
    | none => rw [hs] at h1; cases h1
    | some x =>
      cases hs' : findScope true r.name w (L.map Level.w) with
      | none => rw [hs'] at h2; cases h2
      | some y =>
        obtain ⟨z, hz, rfl, rfl⟩ := h.scope hr hs hs'
        obtain ⟨g1, g2⟩ := h.rel z hz
        simp only [hs, hs'] at h1 h2
        cases hd : dGet (.var r.name) z.d with
        | none => rw [hd] at h1; cases h1
        | some u =>
          obtain ⟨u', hu', he⟩ := (g1.cover g2).ext _ _ hd
          rw [hd] at h1; rw [hu'] at h2
          simp only [bind_ok] at h1 h2
          obtain ⟨is, hi, h1⟩ := h1
          obtain ⟨is', hi', h2⟩ := h2
          rw [hi] at hi'; cases hi'
          obtain ⟨v2, hv2, he2⟩ := he.getArr h1
          rw [hv2] at h2; cases h2
          exact he2

theorem Here.closed {A N : List Name} {top d w D : DDic} {L : List Level} (h : Here A N top d w D L)
    {lv : Dict Name Int} {r : VarRef} {e : Expr} (he : ∀ n ∈ exprNames e, n ∈ N)
    (ho : Occ (bindOf ⟨d, L.map Level.d, lv⟩ true) r e) : r.name ∈ N := by
  induction ho with
  | direct hr => exact he _ (List.mem_map.2 ⟨_, hr, rfl⟩)
  | @via r' e e' hr hb ho ih =>
    apply ih
    intro n hn
    obtain ⟨q, hq, rfl⟩ := List.mem_map.1 hn
    unfold bindOf at hb
    split at hb <;> simp only [Binding.expr.injEq, reduceCtorEq] at hb
    subst hb
    rename_i e0 hg
    have : ∃ z ∈ (⟨d, w, D⟩ : Level) :: L, dGet (.var r'.name) z.d = some (.abb e0) := by
      unfold getVarval at hg
      split at hg
      · cases hg
      cases hl : dGet r'.name lv with
      | some i => simp only [hl] at hg; cases hg
      | none =>
        simp only [hl] at hg
        cases hs : findScope true r'.name d (L.map Level.d) with
        | none => rw [hs] at hg; cases hg
        | some x =>
          simp only [hs] at hg
          have hm : x ∈ d :: L.map Level.d := (findScope_mem hs).1
          have : ∃ z ∈ (⟨d, w, D⟩ : Level) :: L, z.d = x := by
            have h2 : x ∈ ((⟨d, w, D⟩ : Level) :: L).map Level.d := hm
            rw [List.mem_map] at h2; exact h2
          obtain ⟨z, hz, rfl⟩ := this
          cases hd : dGet (.var r'.name) z.d with
          | none => rw [hd] at hg; cases hg
          | some u =>
            rw [hd] at hg
            simp only [bind_ok] at hg
            obtain ⟨is, hi, hg⟩ := hg
            by_cases ha : ∃ e, u = .abb e
            · obtain ⟨e1, rfl⟩ := ha
              cases is with
              | nil => simp only [getArr, Except.ok.injEq] at hg; rw [hg] at hd; exact ⟨z, hz, hd⟩
              | cons i is => simp [getArr] at hg
            · obtain ⟨g1, g2⟩ := h.rel z hz
              obtain ⟨u', hu', hext⟩ := g2 _ u hd (fun e h => ha ⟨e, h⟩)
              obtain ⟨y, hy, hye⟩ := hext.getArr hg
              have := getArr_clean (g1.sub _ _ hu').2 hy
              exact absurd ((hye.abb_iff _).1 rfl) (this.not_abb _)
    obtain ⟨z, hz, hzd⟩ := this
    obtain ⟨g1, g2⟩ := h.rel z hz
    exact (g1.good _ _ ((g1.sync _ _).1 hzd)).2 q hq

/-- the value of an expression, with search in the enclosing dictionaries, while reading and while writing -/
theorem Here.known {A N : List Name} {top d w D : DDic} {L : List Level} (h : Here A N top d w D L)
    {lv : Dict Name Int} {fuel fuel' : Nat} {e : Expr} (he : ∀ n ∈ exprNames e, n ∈ N) {v v' : Val} {ci ci' : Bool}
    (h1 : evalKnown fuel ⟨d, L.map Level.d, lv⟩ true ci e = .ok v)
    (h2 : evalKnown fuel' ⟨w, L.map Level.w, lv⟩ true ci' e = .ok v') (x : PyNum) (hx : v = .num x) :
    ∃ y, v' = .num y ∧ x.val = y.val := by
  unfold evalKnown at h1 h2
  simp only [bind_ok, pure_ok] at h1 h2
  obtain ⟨l, hl, rfl⟩ := h1
  obtain ⟨l', hl', rfl⟩ := h2
  have hag := evalExpr_agree (ρ := fun _ => 0) (P := fun r => r.name ∈ N) fuel fuel' (o := ⟨true, ci, false⟩)
    (o' := ⟨true, ci', false⟩) rfl rfl
    (fun r v v' hr h1 h2 => (h.value hr h1 h2).leafRel) (fun h => by cases h) (fun h => by cases h) e
    (fun r ho => h.closed he ho) hl hl'
  have hn := evalExpr_known fuel rfl hl
  cases hag with
  | num c c' h1 h2 h3 h4 h5 =>
    rw [h1] at hx; cases hx
    refine ⟨c', h2, ?_⟩
    rw [h3]; simp [Lin.at, hn]
  | data _ h1 _ => exact absurd hx (h1 _)
  | unknown r u h1 => rw [h1] at hn; cases hn
  | other h1 => exact absurd hx (h1 _)

theorem loopBound_num {v : Val} {i : Int} (h : loopBound v = .ok i) : ∃ x, v = .num x ∧ x.val = i := by
  unfold loopBound at h
  split at h
  · rename_i x
    split at h
    · cases h
    · rename_i hx
      cases h
      exact ⟨x, rfl, by simpa using Eq.symm (not_not.1 hx)⟩
  · cases h

theorem Here.loopHead {A N : List Name} {top d w D : DDic} {L : List Level} (h : Here A N top d w D L)
    {lv : Dict Name Int} {fuel fuel' : Nat} {v : Name} {a b : Expr} (ha : ∀ n ∈ exprNames a, n ∈ N)
    (hb : ∀ n ∈ exprNames b, n ∈ N) {x y x' y' : Int}
    (h1 : loopHead fuel ⟨d, L.map Level.d, lv⟩ v a b = .ok (x, y))
    (h2 : loopHead fuel' ⟨w, L.map Level.w, lv⟩ v a b = .ok (x', y')) : x = x' ∧ y = y' := by
  unfold Verif.loopHead at h1 h2
  simp only [bind_ok] at h1 h2
  obtain ⟨v1, e1, v2, e2, i1, b1, i2, b2, h1⟩ := h1
  obtain ⟨w1, f1, w2, f2, j1, c1, j2, c2, h2⟩ := h2
  split at h1
  · cases h1
  split at h2
  · cases h2
  simp only [pure_ok, Prod.mk.injEq] at h1 h2
  obtain ⟨rfl, rfl⟩ := h1
  obtain ⟨rfl, rfl⟩ := h2
  obtain ⟨p1, rfl, q1⟩ := loopBound_num b1
  obtain ⟨p2, rfl, q2⟩ := loopBound_num b2
  obtain ⟨z1, rfl, r1⟩ := h.known ha e1 f1 p1 rfl
  obtain ⟨z2, rfl, r2⟩ := h.known hb e2 f2 p2 rfl
  obtain ⟨_, hh, s1⟩ := loopBound_num c1; cases hh
  obtain ⟨_, hh, s2⟩ := loopBound_num c2; cases hh
  constructor
  · rw [q1, s1] at r1; exact_mod_cast r1
  · rw [q2, s2] at r2; exact_mod_cast r2

theorem relHolds_same {r : Rel} {x x' : PyNum} {y y' : PyNum} (h1 : x.val = x'.val) (h2 : y.val = y'.val) :
    relHolds r (.num x) (.num y) = relHolds r (.num x') (.num y') := by
  simp only [relHolds, h1, h2]

theorem findScope_some {A N : List Name} {n : Name} (L : List Level) {l : Level}
    (hrel : ∀ x ∈ l :: L, Lev A N x.d x.w x.D ∧ Hold x.d x.D) {x : DDic}
    (h1 : findScope true n l.d (L.map Level.d) = some x) : ∃ y, findScope true n l.w (L.map Level.w) = some y := by
  obtain ⟨hl, hh⟩ := hrel l (by simp)
  by_cases hw : dHas (.var n) l.w = true
  · cases L with
    | nil => exact ⟨l.w, by rw [List.map_nil, findScope, if_pos hw]⟩
    | cons l1 L => exact ⟨l.w, by rw [List.map_cons, findScope, if_pos hw]⟩
  · have hd : ¬ dHas (.var n) l.d = true := fun hd => hw (hl.has hh hd).1
    cases L with
    | nil => rw [List.map_nil, findScope, if_neg hd] at h1; cases h1
    | cons l1 L =>
      rw [List.map_cons, findScope, if_neg hd] at h1
      rw [List.map_cons, findScope, if_neg hw]
      split at h1
      · rename_i hu
        rw [hl.up] at hu
        rw [if_pos hu]
        exact findScope_some L (fun x hx => hrel x (List.mem_cons_of_mem _ hx)) h1
      · cases h1

theorem Here.found_of {A N : List Name} {top d w D : DDic} {L : List Level} (h : Here A N top d w D L)
    {lv : Dict Name Int} {r : VarRef} (hr : r.name ∈ N) (hc : ¬ (dHas (.var r.name) w && dHas r.name lv) = true) {v : Val}
    (h1 : getVarval ⟨d, L.map Level.d, lv⟩ true r = .ok v) :
    ∃ v', getVarval ⟨w, L.map Level.w, lv⟩ true r = .ok v' ∧ Ext v v' := by
  have hv := fun v' => h.value (lv := lv) hr (v' := v') h1
  suffices ∃ v', getVarval ⟨w, L.map Level.w, lv⟩ true r = .ok v' by
    obtain ⟨v', hv'⟩ := this; exact ⟨v', hv', hv v' hv'⟩
  unfold getVarval at h1 ⊢
  rw [if_neg hc]
  split at h1
  · cases h1
  cases hl : dGet r.name lv with
  | some i => exact ⟨_, by simp only [hl]; rfl⟩
  | none =>
    simp only [hl] at h1 ⊢
    cases hs : findScope true r.name d (L.map Level.d) with
    | none => rw [hs] at h1; cases h1
    | some x =>
      obtain ⟨y, hy⟩ := findScope_some L (l := ⟨d, w, D⟩) h.rel hs
      obtain ⟨z, hz, rfl, rfl⟩ := h.scope hr hs hy
      obtain ⟨g1, g2⟩ := h.rel z hz
      simp only [hs, hy] at h1 ⊢
      cases hd : dGet (.var r.name) z.d with
      | none => rw [hd] at h1; cases h1
      | some u =>
        obtain ⟨u', hu', he⟩ := (g1.cover g2).ext _ _ hd
        rw [hd] at h1; rw [hu']
        simp only [bind_ok] at h1
        obtain ⟨is, hi, h1⟩ := h1
        obtain ⟨v2, hv2, he2⟩ := he.getArr h1
        exact ⟨v2, by simp only [hi, bind, Except.bind]; exact hv2⟩

theorem Here.found {A N : List Name} {top d w D : DDic} {L : List Level} (h : Here A N top d w D L)
    {lv : Dict Name Int} {r : VarRef} (hr : r.name ∈ N) {v : Val}
    (h1 : getVarval ⟨d, L.map Level.d, lv⟩ true r = .ok v) :
    (∃ v', getVarval ⟨w, L.map Level.w, lv⟩ true r = .ok v' ∧ Ext v v') ∨
      getVarval ⟨w, L.map Level.w, lv⟩ true r = .error .loopVariable := by
  by_cases hc : (dHas (.var r.name) w && dHas r.name lv) = true
  · right; unfold getVarval; rw [if_pos hc]
  · exact .inl (h.found_of hr hc h1)

/-- an evaluation that succeeded does not fail for a missing variable in an environment with more variables -/
theorem evalWith_found {env env' : Env} {o o' : EvalOpts} {rec rec' : Expr → Res Lin} {P : VarRef → Prop}
    (hl : o'.lookUp = o.lookUp) (ha : o.acceptMissing = false)
    (H : ∀ r v, P r → getVarval env o.lookUp r = .ok v →
      (∃ v', getVarval env' o.lookUp r = .ok v' ∧ Ext v v') ∨ getVarval env' o.lookUp r = .error .loopVariable)
    (hrec : ∀ e v x, (∀ r, Occ (bindOf env o.lookUp) r e → P r) → rec e = .ok v → rec' e = .error x → x.isMissing = false)
    (e : Expr) (hP : ∀ r, Occ (bindOf env o.lookUp) r e → P r) {v : Lin} {x : Err}
    (h : evalWith env o rec e = .ok v) (h' : evalWith env' o' rec' e = .error x) : x.isMissing = false := by
  have hvar : ∀ (r : VarRef) (e : Expr), r ∈ e.refs → (∀ r, Occ (bindOf env o.lookUp) r e → P r) → ∀ (v : Lin) (x : Err),
      evalVar env o rec r = .ok v → evalVar env' o' rec' r = .error x → x.isMissing = false := by
    intro r e0 hre hP v x h h'
    have hPr : P r := hP r (.direct hre)
    have hok : ∃ u, getVarval env o.lookUp r = .ok u := by
      rcases evalVar_cases h with ⟨e, hg, _⟩ | ⟨u, hg, _, _⟩ | ⟨ha', _⟩
      · exact ⟨_, hg⟩
      · exact ⟨_, hg⟩
      · rw [ha] at ha'; cases ha'
    obtain ⟨u, hu⟩ := hok
    rcases H r u hPr hu with ⟨u', hu', hext⟩ | hlv
    · unfold evalVar at h'
      rw [hl, hu'] at h'
      by_cases hab : ∃ e1, u' = .abb e1
      · obtain ⟨e1, rfl⟩ := hab
        have hu1 := (hext.abb_iff e1).2 rfl
        subst hu1
        have hr : rec e1 = .ok v := by
          rcases evalVar_cases h with ⟨e, hg, hr⟩ | ⟨u, hg, hn, _⟩ | ⟨ha', _⟩
          · rw [hu] at hg; cases hg; exact hr
          · rw [hu] at hg; cases hg; exact absurd rfl (hn _)
          · rw [ha] at ha'; cases ha'
        have hcl := fun x => hrec e1 v x (fun r' ho => hP r' (.via hre (bindOf_abb hu) ho)) hr
        cases hr' : rec' e1 with
        | ok v1 => simp only [hr'] at h'; cases h'
        | error y =>
          have hm := hcl y hr'
          simp only [hr'] at h'
          cases y <;> simp only [Err.isMissing] at hm <;> (try cases hm) <;>
            simp only [Except.error.injEq] at h' <;> subst h' <;> rfl
      · have hn : ∀ e, u' ≠ .abb e := fun e he => hab ⟨e, he⟩
        cases u' <;> simp only [reduceCtorEq] at h'
        exact absurd rfl (hn _)
    · unfold evalVar at h'
      rw [hl, hlv] at h'
      simp only [Except.error.injEq] at h'
      subst h'; rfl
  induction e generalizing v x with
  | num v => simp [evalWith] at h'
  | desired v => simp [evalWith] at h'
  | var r => exact hvar r (.var r) (by simp [Expr.refs]) hP _ _ h h'
  | incons r => exact hvar r (.incons r) (by simp [Expr.refs]) hP _ _ h h'
  | neg e ih =>
    simp only [evalWith, bind_error] at h'
    simp only [evalWith, bind_ok] at h
    obtain ⟨v1, h1, _⟩ := h
    rcases h' with h' | ⟨_, _, h'⟩
    · exact ih (fun r ho => hP r (ho.mono (fun _ h => h))) h1 h'
    · exact linNeg_err h'
  | add a b i1 i2 =>
    simp only [evalWith, bind_error] at h'
    simp only [evalWith, bind_ok] at h
    obtain ⟨v1, h1, v2, h2, _⟩ := h
    rcases h' with h' | ⟨_, _, h' | ⟨_, _, h'⟩⟩
    · exact i1 (fun r ho => hP r (ho.mono (fun _ h => List.mem_append_left _ h))) h1 h'
    · exact i2 (fun r ho => hP r (ho.mono (fun _ h => List.mem_append_right _ h))) h2 h'
    · exact linAddSub_err (fun _ _ _ => pAdd_err) h'
  | sub a b i1 i2 =>
    simp only [evalWith, bind_error] at h'
    simp only [evalWith, bind_ok] at h
    obtain ⟨v1, h1, v2, h2, _⟩ := h
    rcases h' with h' | ⟨_, _, h' | ⟨_, _, h'⟩⟩
    · exact i1 (fun r ho => hP r (ho.mono (fun _ h => List.mem_append_left _ h))) h1 h'
    · exact i2 (fun r ho => hP r (ho.mono (fun _ h => List.mem_append_right _ h))) h2 h'
    · exact linAddSub_err (fun _ _ _ => pSub_err) h'
  | mul a b i1 i2 =>
    simp only [evalWith, bind_error] at h'
    simp only [evalWith, bind_ok] at h
    obtain ⟨v1, h1, v2, h2, _⟩ := h
    rcases h' with h' | ⟨_, _, h' | ⟨_, _, h'⟩⟩
    · exact i1 (fun r ho => hP r (ho.mono (fun _ h => List.mem_append_left _ h))) h1 h'
    · exact i2 (fun r ho => hP r (ho.mono (fun _ h => List.mem_append_right _ h))) h2 h'
    · exact linMul_err h'
  | div a b i1 i2 =>
    simp only [evalWith, bind_error] at h'
    simp only [evalWith, bind_ok] at h
    obtain ⟨v1, h1, v2, h2, _⟩ := h
    rcases h' with h' | ⟨_, _, h' | ⟨_, _, h'⟩⟩
    · exact i1 (fun r ho => hP r (ho.mono (fun _ h => List.mem_append_left _ h))) h1 h'
    · exact i2 (fun r ho => hP r (ho.mono (fun _ h => List.mem_append_right _ h))) h2 h'
    · exact linDiv_err h'
  | mod a b i1 i2 =>
    simp only [evalWith, bind_error] at h'
    simp only [evalWith, bind_ok] at h
    obtain ⟨v1, h1, v2, h2, _⟩ := h
    rcases h' with h' | ⟨_, _, h' | ⟨_, _, h'⟩⟩
    · exact i1 (fun r ho => hP r (ho.mono (fun _ h => List.mem_append_left _ h))) h1 h'
    · exact i2 (fun r ho => hP r (ho.mono (fun _ h => List.mem_append_right _ h))) h2 h'
    · exact linMod_err h'

theorem evalExpr_found (fuel fuel' : Nat) {env env' : Env} {o o' : EvalOpts} {P : VarRef → Prop}
    (hl : o'.lookUp = o.lookUp) (ha : o.acceptMissing = false)
    (H : ∀ r v, P r → getVarval env o.lookUp r = .ok v →
      (∃ v', getVarval env' o.lookUp r = .ok v' ∧ Ext v v') ∨ getVarval env' o.lookUp r = .error .loopVariable)
    (e : Expr) (hP : ∀ r, Occ (bindOf env o.lookUp) r e → P r) {v : Lin} {x : Err}
    (h : evalExpr fuel env o e = .ok v) (h' : evalExpr fuel' env' o' e = .error x) : x.isMissing = false := by
  induction fuel generalizing fuel' e v x with
  | zero =>
    have : ∀ rec', evalWith env' o' rec' e = .error x → x.isMissing = false := by
      intro rec' h'
      exact evalWith_found (rec := fun _ => .error .recursion) (rec' := rec') hl ha H (fun _ _ _ _ h => by cases h) e hP h h'
    cases fuel' with
    | zero => exact this _ h'
    | succ n => exact this _ h'
  | succ n ih =>
    cases fuel' with
    | zero =>
      exact evalWith_found (rec := evalExpr n env o) (rec' := fun _ => .error .recursion) hl ha H
        (fun _ _ _ _ _ h => by cases h; rfl) e hP h h'
    | succ n' =>
      exact evalWith_found (rec := evalExpr n env o) (rec' := evalExpr n' env' o') hl ha H
        (fun e v x hP h h' => ih n' e hP h h') e hP h h'

theorem Here.not_missing {A N : List Name} {top d w D : DDic} {L : List Level} (h : Here A N top d w D L)
    {lv : Dict Name Int} {fuel fuel' : Nat} {e : Expr} (he : ∀ n ∈ exprNames e, n ∈ N) {v : Val} {x : Err} {ci ci' : Bool}
    (h1 : evalKnown fuel ⟨d, L.map Level.d, lv⟩ true ci e = .ok v)
    (h2 : evalKnown fuel' ⟨w, L.map Level.w, lv⟩ true ci' e = .error x) : x.isMissing = false := by
  unfold evalKnown at h1 h2
  simp only [bind_ok, pure_ok] at h1
  obtain ⟨l, hl, rfl⟩ := h1
  rw [bind_error] at h2
  rcases h2 with h2 | ⟨_, _, h2⟩
  · exact evalExpr_found (P := fun r => r.name ∈ N) fuel fuel' (o := ⟨true, ci, false⟩) (o' := ⟨true, ci', false⟩) rfl rfl
      (fun r v hr h1 => h.found hr h1) e (fun r ho => h.closed he ho) hl h2
  · cases h2

theorem relHolds_num {r : Rel} {x y : Val} {t : Bool} (h : relHolds r x y = .ok t) : ∃ a b, x = .num a ∧ y = .num b := by
  unfold relHolds at h
  split at h
  · exact ⟨_, _, rfl, rfl⟩
  · cases h

/-- a condition decided by values while reading is the same while writing -/
theorem Here.cond {A N : List Name} {top d w D : DDic} {L : List Level} (h : Here A N top d w D L)
    {lv : Dict Name Int} {fuel fuel' : Nat} {q : Cond} (hq : ∀ n ∈ condNames q, n ∈ N) {t t' : Bool}
    (hd : Decided fuel ⟨d, L.map Level.d, lv⟩ q)
    (h1 : evalCond fuel ⟨d, L.map Level.d, lv⟩ q = .ok t)
    (h2 : evalCond fuel' ⟨w, L.map Level.w, lv⟩ q = .ok t') : t = t' := by
  induction q generalizing t t' with
  | cmp r a b =>
    have ha : ∀ n ∈ exprNames a, n ∈ N := fun n hn => hq n (List.mem_append_left _ hn)
    have hb : ∀ n ∈ exprNames b, n ∈ N := fun n hn => hq n (List.mem_append_right _ hn)
    obtain ⟨x, y, hx, hy⟩ := hd
    simp only [evalCond, hx, hy, bind, Except.bind, pure, Except.pure] at h1
    obtain ⟨p, q, rfl, rfl⟩ := relHolds_num h1
    cases hx' : evalKnown fuel' ⟨w, L.map Level.w, lv⟩ true true a with
    | error z =>
      have := h.not_missing ha hx hx'
      simp only [evalCond, hx', bind, Except.bind] at h2
      cases z <;> simp only [Err.isMissing, reduceCtorEq] at this h2
    | ok x' =>
      cases hy' : evalKnown fuel' ⟨w, L.map Level.w, lv⟩ true true b with
      | error z =>
        have := h.not_missing hb hy hy'
        simp only [evalCond, hx', hy', bind, Except.bind] at h2
        cases z <;> simp only [Err.isMissing, reduceCtorEq] at this h2
      | ok y' =>
        obtain ⟨p', rfl, hp⟩ := h.known ha hx hx' p rfl
        obtain ⟨q', rfl, hq⟩ := h.known hb hy hy' q rfl
        simp only [evalCond, hx', hy', bind, Except.bind, pure, Except.pure] at h2
        rw [relHolds_same hp hq, h2] at h1
        cases h1; rfl
  | and a b i1 i2 =>
    have ha : ∀ n ∈ condNames a, n ∈ N := fun n hn => hq n (List.mem_append_left _ hn)
    have hb : ∀ n ∈ condNames b, n ∈ N := fun n hn => hq n (List.mem_append_right _ hn)
    simp only [evalCond, bind_ok] at h1 h2
    obtain ⟨t1, e1, h1⟩ := h1
    obtain ⟨t2, e2, h2⟩ := h2
    have := i1 ha hd.1 e1 e2
    subst this
    cases t1 with
    | false => simp only [if_true, pure_ok] at h1 h2; rw [← h1, ← h2]
    | true =>
      simp only [Bool.true_eq_false, if_false] at h1 h2
      exact i2 hb (hd.2 e1) h1 h2
  | or a b i1 i2 =>
    have ha : ∀ n ∈ condNames a, n ∈ N := fun n hn => hq n (List.mem_append_left _ hn)
    have hb : ∀ n ∈ condNames b, n ∈ N := fun n hn => hq n (List.mem_append_right _ hn)
    simp only [evalCond, bind_ok] at h1 h2
    obtain ⟨t1, e1, h1⟩ := h1
    obtain ⟨t2, e2, h2⟩ := h2
    have := i1 ha hd.1 e1 e2
    subst this
    cases t1 with
    | true => simp only [if_true, pure_ok] at h1 h2; rw [← h1, ← h2]
    | false =>
      simp only [Bool.false_eq_true, if_false] at h1 h2
      exact i2 hb (hd.2 e1) h1 h2

/-! ## control numbers -/

theorem matScope_mem (d : DDic) (us : List DDic) : matScope d us ∈ d :: us := by
  induction us generalizing d with
  | nil => simp [matScope]
  | cons u us ih =>
    simp only [matScope]
    split
    · exact List.mem_cons_of_mem _ (ih u)
    · simp

theorem ctrlNum_ok {d : DDic} {n : Name} {i : Int} (h : ctrlNum d n = .ok i) : dGet (.var n) d = some (.num (.int i)) := by
  unfold ctrlNum at h
  split at h
  · cases h
  · cases h; assumption
  · cases h

theorem Here.ctrl {A N : List Name} {k c : Ctrl} {top d D : DDic} {s : WSt} {L : List Level}
    (h : Here A N top d s.cur D L) (hC : CtrlAll k top) (hL : s.outer = L.map Level.w) (hc : getCtrl s = .ok c) : c = k := by
  unfold getCtrl at hc
  simp only [bind_ok, pure_ok] at hc
  obtain ⟨m1, h1, m2, h2, m3, h3, rfl⟩ := hc
  have hm := matScope_mem s.cur s.outer
  generalize matScope s.cur s.outer = x at hm h1 h2 h3
  rw [hL] at hm
  have : ∃ z ∈ (⟨d, s.cur, D⟩ : Level) :: L, z.w = x := by
    have h2 : x ∈ ((⟨d, s.cur, D⟩ : Level) :: L).map Level.w := hm
    rw [List.mem_map] at h2; exact h2
  obtain ⟨z, hz, rfl⟩ := this
  obtain ⟨g1, _⟩ := h.rel z hz
  obtain ⟨ch, hch⟩ := h.nested z hz
  have e1 := ctrlNum_ok h1
  have e2 := ctrlNum_ok h2
  have e3 := ctrlNum_ok h3
  have hD : dGet (.var "MAT") z.D = some (.num (.int m1)) := by
    rcases g1.split _ _ e1 with ⟨e, he⟩ | h
    · cases he
    · exact h
  obtain ⟨k1, k2, k3⟩ := hC ch z.D hch (dHas_some.2 ⟨_, hD⟩)
  have f1 := (g1.sub _ _ k1).1
  have f2 := (g1.sub _ _ k2).1
  have f3 := (g1.sub _ _ k3).1
  rw [e1] at f1; rw [e2] at f2; rw [e3] at f3
  cases f1; cases f2; cases f3; rfl

end Verif
