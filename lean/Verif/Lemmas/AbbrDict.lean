import Verif.Spec.Abbr
import Verif.Lemmas.ReadStep
/-
Dictionaries without their abbreviations.
-/
namespace Verif.CF
open Verif Spec

def bareKey (l : List Name) : Key → Bool
  | .var n => !l.contains n
  | _ => true

def bareVal (x : Key × Val) : Key × Val := if x.1 = .abbrevs then (.abbrevs, .names []) else x

def bareWith (l : List Name) (d : DDic) : DDic := (d.filter fun x => bareKey l x.1).map bareVal

/-- the dictionary without abbreviations -/
def bare (d : DDic) : DDic := bareWith (abbrNames d) d

theorem bareWith_cons (l : List Name) (k : Key) (v : Val) (d : DDic) :
    bareWith l ((k, v) :: d) = if bareKey l k then bareVal (k, v) :: bareWith l d else bareWith l d := by
  unfold bareWith
  rw [List.filter_cons]
  split
  · rfl
  · rfl

theorem bareVal_fst (x : Key × Val) : (bareVal x).1 = x.1 := by
  unfold bareVal; split
  · rename_i h; exact h.symm
  · rfl

theorem bareWith_get (l : List Name) {k : Key} (hk : bareKey l k = true) (ha : k ≠ .abbrevs) (d : DDic) :
    dGet k (bareWith l d) = dGet k d := by
  induction d with
  | nil => rfl
  | cons x d ih =>
    obtain ⟨k', v⟩ := x
    rw [bareWith_cons]
    by_cases h : k' = k
    · subst h
      rw [if_pos hk]
      simp only [bareVal, if_neg ha, dGet, if_pos]
    · split
      · have := bareVal_fst (k', v)
        generalize bareVal (k', v) = y at this ⊢
        obtain ⟨y1, y2⟩ := y
        simp only at this
        subst this
        simp only [dGet, if_neg h, ih]
      · simp only [dGet, if_neg h, ih]

theorem bareWith_none (l : List Name) {k : Key} (hk : bareKey l k = false) (d : DDic) : dGet k (bareWith l d) = none := by
  induction d with
  | nil => rfl
  | cons x d ih =>
    obtain ⟨k', v⟩ := x
    rw [bareWith_cons]
    split
    · rename_i h
      have hne : k' ≠ k := by rintro rfl; rw [hk] at h; cases h
      have := bareVal_fst (k', v)
      generalize bareVal (k', v) = y at this ⊢
      obtain ⟨y1, y2⟩ := y
      simp only at this
      subst this
      simp only [dGet, if_neg hne, ih]
    · exact ih

theorem bareWith_abbrevs (l : List Name) (d : DDic) : dGet .abbrevs (bareWith l d) = (dGet .abbrevs d).map fun _ => .names [] := by
  induction d with
  | nil => rfl
  | cons x d ih =>
    obtain ⟨k', v⟩ := x
    rw [bareWith_cons]
    by_cases h : k' = .abbrevs
    · subst h; simp [bareKey, bareVal, dGet]
    · split
      · have := bareVal_fst (k', v)
        generalize bareVal (k', v) = y at this ⊢
        obtain ⟨y1, y2⟩ := y
        simp only at this
        subst this
        simp only [dGet, if_neg h, ih]
      · simp only [dGet, if_neg h, ih]

theorem bare_get {d : DDic} {n : Name} (h : n ∉ abbrNames d) : dGet (.var n) (bare d) = dGet (.var n) d :=
  bareWith_get _ (by simpa [bareKey] using h) (by simp) d

theorem bare_get_abb {d : DDic} {n : Name} (h : n ∈ abbrNames d) : dGet (.var n) (bare d) = none :=
  bareWith_none _ (by simpa [bareKey] using h) d

theorem bare_up (d : DDic) : dGet .up (bare d) = dGet .up d := bareWith_get _ rfl (by simp) d

theorem bareWith_dSet (l : List Name) {k : Key} (hk : bareKey l k = true) (ha : k ≠ .abbrevs) (v : Val) (d : DDic) :
    bareWith l (dSet k v d) = dSet k v (bareWith l d) := by
  induction d with
  | nil => simp only [dSet, bareWith, List.filter_cons, hk, if_true, List.filter_nil, List.map_cons, List.map_nil, bareVal, if_neg ha]
  | cons x d ih =>
    obtain ⟨k', w⟩ := x
    rw [bareWith_cons]
    simp only [dSet]
    by_cases h : k' = k
    · subst h
      rw [if_pos rfl, bareWith_cons, if_pos hk, if_pos hk]
      simp only [bareVal, if_neg ha, dSet, if_pos]
    · rw [if_neg h, bareWith_cons, ih]
      split
      · have := bareVal_fst (k', w)
        generalize bareVal (k', w) = y at this ⊢
        obtain ⟨y1, y2⟩ := y
        simp only at this
        subst this
        simp only [dSet, if_neg h]
      · rfl

theorem abbrNames_dSet {k : Key} (h : k ≠ .abbrevs) (v : Val) (d : DDic) : abbrNames (dSet k v d) = abbrNames d := by
  unfold abbrNames; rw [dGet_dSet_ne h]

theorem bare_dSet {d : DDic} {n : Name} (h : n ∉ abbrNames d) (v : Val) : bare (dSet (.var n) v d) = dSet (.var n) v (bare d) := by
  unfold bare
  rw [abbrNames_dSet (by simp)]
  exact bareWith_dSet _ (by simpa [bareKey] using h) (by simp) v d

theorem bareWith_skip (l : List Name) {k : Key} (hk : bareKey l k = false) (v : Val) (d : DDic) : bareWith l (dSet k v d) = bareWith l d := by
  induction d with
  | nil => simp [dSet, bareWith, hk]
  | cons x d ih =>
    obtain ⟨k', w⟩ := x
    simp only [dSet]
    by_cases h : k' = k
    · subst h; rw [if_pos rfl, bareWith_cons, bareWith_cons, if_neg (by rw [hk]; simp), if_neg (by rw [hk]; simp)]
    · rw [if_neg h, bareWith_cons, bareWith_cons, ih]

theorem bareWith_names (l l' : List Name) {d : DDic} (h : dHas .abbrevs d = true) :
    bareWith l (dSet .abbrevs (.names l') d) = bareWith l d := by
  induction d with
  | nil => cases h
  | cons x d ih =>
    obtain ⟨k', w⟩ := x
    simp only [dSet]
    by_cases hk : k' = .abbrevs
    · subst hk; rw [if_pos rfl, bareWith_cons, bareWith_cons]; simp [bareKey, bareVal]
    · have : dHas .abbrevs d = true := by simpa [dHas, dGet, hk] using h
      rw [if_neg hk, bareWith_cons, bareWith_cons, ih this]

theorem bareWith_more (l : List Name) {n : Name} {d : DDic} (h : dGet (.var n) d = none) : bareWith (l ++ [n]) d = bareWith l d := by
  unfold bareWith
  congr 1
  apply List.filter_congr
  rintro ⟨k, v⟩ hm
  cases k with
  | var m =>
    have hne : m ≠ n := by
      rintro rfl
      rw [dGet_none_iff] at h
      exact h (List.mem_map.2 ⟨_, hm, rfl⟩)
    simp [bareKey, hne]
  | _ => rfl

theorem bareWith_id {d : DDic} (h : ∀ v, dGet .abbrevs d = some v → v = .names []) (hn : DNodup d) : bareWith [] d = d := by
  unfold bareWith
  rw [List.filter_eq_self.2 (by rintro ⟨k, v⟩ _; cases k <;> rfl)]
  rw [List.map_congr_left (g := id), List.map_id]
  rintro ⟨k, v⟩ hm
  simp only [bareVal, id]
  split
  · rename_i hk
    subst hk
    rw [h v (dGet_of_mem hn hm)]
  · rfl

/-- The dictionary of a section being read.  `N` are the possible abbreviations, `D` those that are there. -/
structure Bnd (a : Bool) (N : List Name) (D : List (Name × Expr)) (d : DDic) : Prop where
  lvl : Lvl a d
  names : ∀ n ∈ abbrNames d, n ∈ N
  nd : (abbrNames d).Nodup
  pres : ∀ n ∈ abbrNames d, ∃ e, dGet (.var n) d = some (.abb e)
  defd : ∀ n e, dGet n D = some e → n ∈ abbrNames d ∧ dGet (.var n) d = some (.abb e)
  work : a = true → dHas .abbrevs d = true

theorem Bnd.wider {a : Bool} {N N' : List Name} {D D' : List (Name × Expr)} {d : DDic} (h : Bnd a N D d) (hN : ∀ n ∈ N, n ∈ N')
    (hD : ∀ n e, dGet n D' = some e → dGet n D = some e) : Bnd a N' D' d :=
  ⟨h.lvl, fun n hn => hN n (h.names n hn), h.nd, h.pres, fun n e he => h.defd n e (hD n e he), h.work⟩

theorem Bnd.not {a : Bool} {N : List Name} {D : List (Name × Expr)} {d : DDic} (h : Bnd a N D d) {n : Name} (hn : n ∉ N) : n ∉ abbrNames d :=
  fun hm => hn (h.names n hm)

theorem Bnd.set {a : Bool} {N : List Name} {D : List (Name × Expr)} {d : DDic} (h : Bnd a N D d) {n : Name} (hn : n ∉ N) {v : Val} (hv : Clean v) :
    Bnd a N D (dSet (.var n) v d) := by
  have e := abbrNames_dSet (k := .var n) (by simp) v d
  have hne : ∀ m ∈ abbrNames d, Key.var n ≠ .var m := by
    intro m hm he; cases he; exact hn (h.names _ hm)
  refine ⟨h.lvl.set_var _ hv, e ▸ h.names, e ▸ h.nd, ?_, ?_, fun ha => by unfold dHas; rw [dGet_dSet_ne (by simp)]; exact h.work ha⟩
  · rw [e]; intro m hm
    obtain ⟨x, hx⟩ := h.pres m hm
    exact ⟨x, by rw [dGet_dSet_ne (hne m hm)]; exact hx⟩
  · rw [e]; intro m x hx
    obtain ⟨h1, h2⟩ := h.defd m x hx
    exact ⟨h1, by rw [dGet_dSet_ne (hne m h1)]; exact h2⟩

theorem bare_clean {d : DDic} (h : Clean (.dic d)) : bare (dSet .up .mark d) = dSet .up .mark d ∧ Bnd false [] [] (dSet .up .mark d) := by
  have hl := (Lvl.of_clean h).set_up .mark
  have hno : dGet .abbrevs (dSet .up .mark d) = none := by
    cases hx : dGet .abbrevs (dSet .up .mark d) with
    | none => rfl
    | some v => have := (hl.abbrevs v hx).1; cases this
  have hnm : abbrNames (dSet .up .mark d) = [] := by unfold abbrNames; rw [hno]
  refine ⟨?_, hl, ?_, ?_, ?_, ?_, fun h => by cases h⟩
  · unfold bare; rw [hnm]; exact bareWith_id (by rw [hno]; simp) hl.nodup
  · rw [hnm]; simp
  · rw [hnm]; simp
  · rw [hnm]; simp
  · intro n e he; cases he

theorem bare_false {d : DDic} (h : Lvl false d) : bare d = d := by
  have hno : dGet .abbrevs d = none := by
    cases hx : dGet .abbrevs d with
    | none => rfl
    | some v => have := (h.abbrevs v hx).1; cases this
  unfold bare abbrNames; rw [hno]
  exact bareWith_id (by rw [hno]; simp) h.nodup

theorem bare_init {d : DDic} (h : Lvl false d) : bare (initWork d) = initWork d ∧ Bnd true [] [] (initWork d) := by
  have hl := initWork_lvl h
  have hno : dGet .abbrevs (initWork d) = some (.names []) := by
    unfold initWork; rw [dGet_dSet_ne (by simp), dGet_dSet_self]
  have hnm : abbrNames (initWork d) = [] := by unfold abbrNames; rw [hno]
  refine ⟨?_, hl, ?_, ?_, ?_, ?_, fun _ => by unfold dHas; rw [hno]; rfl⟩
  · unfold bare; rw [hnm]; exact bareWith_id (by rw [hno]; intro v hv; cases hv; rfl) hl.nodup
  · rw [hnm]; simp
  · rw [hnm]; simp
  · rw [hnm]; simp
  · intro n e he; cases he

theorem Bnd.intro {N : List Name} {D : List (Name × Expr)} {d d' : DDic} (h : Bnd true N D d) {n : Name} {e : Expr}
    (hi : introAbbr d n e = .ok d') : bare d' = bare d ∧ Bnd true (N ++ [n]) ((n, e) :: D) d' := by
  have ha := h.work rfl
  have hl := (introAbbr_lvl h.lvl hi).1
  unfold introAbbr at hi
  dsimp only at hi
  split at hi
  · cases hi
  · rename_i hcol
    simp only [Except.ok.injEq] at hi
    generalize hl2 : (if (abbrNames d).contains n = true then abbrNames d else abbrNames d ++ [n]) = l2 at hi
    subst hi
    have eA : dGet Key.abbrevs (dSet (Key.var n) (.abb e) (dSet .abbrevs (.names l2) d)) = some (.names l2) := by
      rw [dGet_dSet_ne (by simp), dGet_dSet_self]
    have eN : abbrNames (dSet (Key.var n) (.abb e) (dSet .abbrevs (.names l2) d)) = l2 := by unfold abbrNames; rw [eA]
    have eO : ∀ m, m ≠ n → dGet (.var m) (dSet (Key.var n) (.abb e) (dSet .abbrevs (.names l2) d)) = dGet (.var m) d :=
      fun m hm => by rw [dGet_dSet_ne (by intro hc; cases hc; exact hm rfl), dGet_dSet_ne (by simp)]
    have hn2 : n ∈ l2 := by
      rw [← hl2]; split
      · rename_i hc; simpa using hc
      · simp
    have hmem : ∀ m ∈ l2, m = n ∨ m ∈ abbrNames d := by
      intro m hm; rw [← hl2] at hm
      split at hm
      · exact .inr hm
      · rcases List.mem_append.1 hm with h | h
        · exact .inr h
        · exact .inl (by simpa using h)
    have hsub : ∀ m ∈ abbrNames d, m ∈ l2 := by
      intro m hm; rw [← hl2]; split
      · exact hm
      · exact List.mem_append_left _ hm
    refine ⟨?_, ⟨hl, ?_, ?_, ?_, ?_, fun _ => ?_⟩⟩
    · unfold bare
      rw [eN, bareWith_skip _ (by simpa [bareKey] using hn2), bareWith_names _ _ ha, ← hl2]
      split
      · rfl
      · rename_i hc
        apply bareWith_more
        simp only [Bool.and_eq_true, Bool.not_eq_true', not_and] at hcol
        have := hcol (by simpa using hc)
        exact dHas_none.1 (by simpa using this)
    · rw [eN]; intro m hm
      rcases hmem m hm with rfl | h1
      · simp
      · exact List.mem_append_left _ (h.names m h1)
    · rw [eN, ← hl2]; split
      · exact h.nd
      · rename_i hc
        rw [List.nodup_append]
        refine ⟨h.nd, by simp, ?_⟩
        intro x hx y hy
        simp only [List.mem_singleton] at hy
        subst hy
        rintro rfl
        exact hc (by simpa using hx)
    · rw [eN]; intro m hm
      by_cases hmn : m = n
      · subst hmn; exact ⟨e, dGet_dSet_self _ _ _⟩
      · rw [eO m hmn]
        rcases hmem m hm with h1 | h1
        · exact absurd h1 hmn
        · exact h.pres m h1
    · rw [eN]; intro m x hx
      by_cases hmn : m = n
      · subst hmn
        simp only [dGet, if_true, Option.some.injEq] at hx
        subst hx
        exact ⟨hn2, dGet_dSet_self _ _ _⟩
      · rw [dGet, if_neg (Ne.symm hmn)] at hx
        obtain ⟨h1, h2⟩ := h.defd m x hx
        exact ⟨hsub m h1, by rw [eO m hmn]; exact h2⟩
    · unfold dHas; rw [eA]; rfl

theorem foldlM_delVar_all {l : List Name} {d : DDic} (hnd : l.Nodup) (hn : DNodup d) (h : ∀ n ∈ l, dHas (.var n) d = true) :
    ∃ d', l.foldlM delVar d = .ok d' := by
  induction l generalizing d with
  | nil => exact ⟨d, rfl⟩
  | cons n l ih =>
    rw [List.nodup_cons] at hnd
    simp only [List.foldlM_cons, delVar, h n List.mem_cons_self, if_true]
    refine ih hnd.2 (dDel_nodup hn) fun m hm => ?_
    unfold dHas
    rw [dGet_dDel hn, if_neg (by intro hc; cases hc; exact hnd.1 hm)]
    exact h m (List.mem_cons_of_mem _ hm)

theorem removeWork_total {d : DDic} (hn : DNodup d) (ha : ∃ l, dGet .abbrevs d = some (.names l)) (hnd : (abbrNames d).Nodup)
    (hp : ∀ n ∈ abbrNames d, ∃ e, dGet (.var n) d = some (.abb e)) : ∃ d', removeWork d = .ok d' := by
  obtain ⟨l, hl⟩ := ha
  have e : abbrNames d = l := by unfold abbrNames; rw [hl]
  rw [e] at hnd hp
  obtain ⟨d1, h1⟩ := foldlM_delVar_all hnd hn fun n hm => dHas_some.2 (by obtain ⟨x, hx⟩ := hp n hm; exact ⟨_, hx⟩)
  unfold removeWork
  rw [hl]
  simp only [h1, bind, Except.bind, pure, Except.pure]
  exact ⟨_, rfl⟩

theorem bareWith_mem {l : List Name} {d : DDic} {x : Key × Val} (h : x ∈ bareWith l d) : ∃ y ∈ d, bareKey l y.1 = true ∧ x = bareVal y := by
  unfold bareWith at h
  obtain ⟨y, hy, rfl⟩ := List.mem_map.1 h
  exact ⟨y, (List.mem_filter.1 hy).1, (List.mem_filter.1 hy).2, rfl⟩

theorem bareWith_keys (l : List Name) (d : DDic) : dKeys (bareWith l d) = (dKeys d).filter (bareKey l) := by
  unfold bareWith dKeys
  rw [List.map_map, List.filter_map]
  congr 1
  funext x
  exact bareVal_fst x

theorem bare_nodup {d : DDic} (h : DNodup d) : DNodup (bare d) := by
  unfold DNodup bare at *
  rw [bareWith_keys]
  exact h.filter _

theorem Bnd.bare_lvl {N : List Name} {D : List (Name × Expr)} {d : DDic} (h : Bnd true N D d) : Lvl true (bare d) := by
  refine ⟨bare_nodup h.lvl.nodup, ?_, ?_, ?_, ?_⟩
  · intro i v hv
    rw [show dGet (Key.idx i) (bare d) = dGet (.idx i) d from bareWith_get _ rfl (by simp) d] at hv
    exact h.lvl.idx i v hv
  · intro n v hv
    by_cases hn : n ∈ abbrNames d
    · rw [bare_get_abb hn] at hv; cases hv
    · rw [bare_get hn] at hv
      rcases h.lvl.var n v hv with h1 | ⟨_, _, l, hl, hm⟩
      · exact .inl h1
      · exfalso; apply hn; unfold abbrNames; rw [hl]; exact hm
  · intro v hv
    rw [show dGet Key.abbrevs (bare d) = (dGet .abbrevs d).map fun _ => Val.names [] from bareWith_abbrevs _ d] at hv
    cases hx : dGet .abbrevs d with
    | none => rw [hx] at hv; cases hv
    | some w => rw [hx] at hv; cases hv; exact ⟨rfl, [], rfl⟩
  · intro v _; rfl

theorem Bnd.remove {N : List Name} {D : List (Name × Expr)} {d : DDic} (h : Bnd true N D d) :
    ∃ d', removeWork d = .ok d' ∧ removeWork (bare d) = .ok d' ∧ Lvl false d' := by
  have ha := h.work rfl
  have hl : ∃ l, dGet .abbrevs d = some (.names l) := by
    obtain ⟨v, hv⟩ := dHas_some.1 ha
    obtain ⟨_, l, rfl⟩ := h.lvl.abbrevs v hv
    exact ⟨l, hv⟩
  obtain ⟨l, hl⟩ := hl
  have hnm : abbrNames d = l := by unfold abbrNames; rw [hl]
  have hb : dGet .abbrevs (bare d) = some (.names []) := by
    rw [show dGet Key.abbrevs (bare d) = (dGet .abbrevs d).map fun _ => Val.names [] from bareWith_abbrevs _ d, hl]; rfl
  have hbn : abbrNames (bare d) = [] := by unfold abbrNames; rw [hb]
  obtain ⟨d1, h1⟩ := removeWork_total h.lvl.nodup ⟨l, hl⟩ h.nd h.pres
  obtain ⟨d2, h2⟩ := removeWork_total (d := bare d) (bare_nodup h.lvl.nodup) ⟨[], hb⟩ (by rw [hbn]; simp) (by rw [hbn]; simp)
  have e1 := removeWork_core ⟨h.lvl, l, hl, hnm ▸ h.pres⟩ h1
  have e2 := removeWork_core ⟨h.bare_lvl, [], hb, by simp⟩ h2
  have : core (bare d) = core d := by
    unfold core
    rw [hbn]
    unfold bare bareWith
    rw [List.filter_map, List.filter_filter]
    rw [List.map_congr_left (g := id), List.map_id]
    · apply List.filter_congr
      rintro ⟨k, v⟩ _
      simp only [Function.comp, bareVal_fst]
      cases k <;> simp [coreKey, bareKey]
    · rintro ⟨k, v⟩ hm
      have := (List.mem_filter.1 hm).2
      simp only [Bool.and_eq_true, Function.comp, bareVal_fst] at this
      simp only [bareVal, id]
      split
      · rename_i hk
        subst hk
        simp [coreKey] at this
      · rfl
  refine ⟨d1, h1, ?_, (removeWork_lvl h.lvl h1).1⟩
  rw [h2, e2, e1, this]

end Verif.CF
