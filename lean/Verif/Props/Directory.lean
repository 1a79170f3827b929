import Verif.Props.Plumbing
import Verif.Props.Write
import Verif.Lemmas.Eval
import Mathlib.Data.List.Nodup
/-
C52: `update_directory`.
-/
namespace Verif

open Spec

/-- line `i` of the directory: MF, MT, NC and MOD -/
structure Spec.DirRow where
  mf : Int
  mt : Int
  nc : Int
  mod : Int
  deriving DecidableEq

/-- line `i` of the directory -/
def Spec.dirRow (s : Sec451) (i : Int) : Option DirRow :=
  match (s.mfx.getD []).find? (·.1 = i), s.mtx.find? (·.1 = i), s.ncx.find? (·.1 = i), s.mod.find? (·.1 = i) with
  | some a, some b, some c, some d => some ⟨a.2, b.2, c.2, d.2⟩
  | _, _, _, _ => none

theorem find_dGet {α : Type} (i : Int) (d : Dict Int α) : (d.find? (·.1 = i)).map Prod.snd = dGet i d := by
  induction d with
  | nil => rfl
  | cons p d ih =>
    obtain ⟨k, v⟩ := p
    simp only [List.find?_cons, dGet]
    by_cases h : k = i
    · simp [h]
    · simp [h, ih]

theorem dirRow_eq (s : Sec451) (i : Int) : dirRow s i =
    match dGet i (s.mfx.getD []), dGet i s.mtx, dGet i s.ncx, dGet i s.mod with
    | some a, some b, some c, some d => some ⟨a, b, c, d⟩
    | _, _, _, _ => none := by
  unfold dirRow
  rw [← find_dGet, ← find_dGet, ← find_dGet, ← find_dGet]
  cases (s.mfx.getD []).find? (·.1 = i) <;> cases s.mtx.find? (·.1 = i) <;> cases s.ncx.find? (·.1 = i) <;>
    cases s.mod.find? (·.1 = i) <;> rfl

/-! ## The loop over the counts -/

/-- the entries of `countdic` in order -/
def flatC (c : Dict Int (Dict Int Int)) : List (Int × Int × Int) := c.flatMap fun f => f.2.map fun e => (f.1, e.1, e.2)

theorem dSet_numberFrom {α : Type} (k : Int) (l : List α) (x : α) :
    dSet (k + l.length) x (numberFrom k l) = numberFrom k (l ++ [x]) := by
  induction l generalizing k with
  | nil => simp [numberFrom, dSet]
  | cons y l ih =>
    simp only [numberFrom, dSet, List.length_cons, List.cons_append]
    rw [if_neg (by push_cast; omega)]
    have := ih (k + 1)
    rw [show k + ((l.length + 1 : Nat) : Int) = k + 1 + (l.length : Int) by push_cast; ring, this]

/-- the state of the loop after the rows `rs` -/
def dirOf (mods : Dict (Int × Int) Int) (rs : List (Int × Int × Int)) : DirSt :=
  { i := rs.length
    mfx := numberFrom 1 (rs.map (·.1))
    mtx := numberFrom 1 (rs.map (·.2.1))
    ncx := numberFrom 1 (rs.map (·.2.2))
    mod := numberFrom 1 (rs.map fun r => (dGet (r.1, r.2.1) mods).getD 0) }

theorem dirStep_of (mods : Dict (Int × Int) Int) (rs : List (Int × Int × Int)) (mf : Int) (e : Int × Int) :
    dirStep mods mf (dirOf mods rs) e = dirOf mods (rs ++ [(mf, e.1, e.2)]) := by
  simp only [dirStep, dirOf, List.map_append, List.map_cons, List.map_nil, List.length_append, List.length_cons,
    List.length_nil]
  have h : ((rs.length : Int) + 1) = 1 + ((rs.length : Nat) : Int) := by ring
  have a1 := dSet_numberFrom 1 (rs.map (·.1)) mf
  have a2 := dSet_numberFrom 1 (rs.map (·.2.1)) e.1
  have a3 := dSet_numberFrom 1 (rs.map (·.2.2)) e.2
  have a4 := dSet_numberFrom 1 (rs.map fun r => (dGet (r.1, r.2.1) mods).getD 0) ((dGet (mf, e.1) mods).getD 0)
  rw [List.length_map, ← h] at a1 a2 a3 a4
  rw [a1, a2, a3, a4]
  push_cast
  simp

theorem dirLoop_of (mods : Dict (Int × Int) Int) (c : Dict Int (Dict Int Int)) : dirLoop mods c = dirOf mods (flatC c) := by
  have inner : ∀ (mf : Int) (es : Dict Int Int) (rs : List (Int × Int × Int)),
      es.foldl (dirStep mods mf) (dirOf mods rs) = dirOf mods (rs ++ es.map fun e => (mf, e.1, e.2)) := by
    intro mf es
    induction es with
    | nil => intro rs; simp
    | cons e es ih => intro rs; rw [List.foldl_cons, dirStep_of, ih]; simp
  have outer : ∀ (c : Dict Int (Dict Int Int)) (rs : List (Int × Int × Int)),
      c.foldl (fun s f => f.2.foldl (dirStep mods f.1) s) (dirOf mods rs) = dirOf mods (rs ++ flatC c) := by
    intro c
    induction c with
    | nil => intro rs; simp [flatC]
    | cons f c ih => intro rs; rw [List.foldl_cons, inner, ih]; simp [flatC]
  exact outer c []

/-! ## The counts -/

def cntMts (d : Dict Int (List Str)) : Dict Int Int := (d.filter (·.1 ≠ 0)).map fun e => (e.1, (e.2.length : Int))

def cntMfs (d : MfDic) : Dict Int (Dict Int Int) := (d.filter (·.1 ≠ 0)).map fun f => (f.1, cntMts f.2)

theorem dSet_fresh {κ α : Type} [DecidableEq κ] {k : κ} {v : α} {d : Dict κ α} (h : k ∉ dKeys d) :
    dSet k v d = d ++ [(k, v)] := by
  induction d with
  | nil => rfl
  | cons p d ih =>
    obtain ⟨k', v'⟩ := p
    simp only [dKeys, List.map_cons, List.mem_cons, not_or] at h
    rw [dSet, if_neg (fun e => h.1 e.symm), ih h.2, List.cons_append]

theorem countMts_eq (d : Dict Int (List Str)) (c : Dict Int Int) (n : Nat) (hn : (dKeys d).Nodup)
    (hd : ∀ k ∈ dKeys d, k ∉ dKeys c) : countMts d (c, n) = (c ++ cntMts d, n + (cntMts d).length) := by
  induction d generalizing c n with
  | nil => simp [countMts, cntMts]
  | cons p d ih =>
    obtain ⟨mt, ls⟩ := p
    simp only [dKeys, List.map_cons, List.nodup_cons, List.mem_cons, forall_eq_or_imp] at hn hd
    rw [countMts]
    by_cases h : mt = 0
    · rw [if_pos h, ih c n hn.2 hd.2]
      simp [cntMts, h]
    · rw [if_neg h, dSet_fresh hd.1, ih _ _ hn.2]
      · simp only [cntMts, ne_eq, h, not_false_eq_true, decide_true, List.filter_cons_of_pos, List.map_cons,
          List.length_cons, List.append_assoc, List.singleton_append, Prod.mk.injEq, true_and]
        omega
      · intro k hk
        simp only [dKeys, List.map_append, List.map_cons, List.map_nil, List.mem_append, List.mem_singleton, not_or]
        refine ⟨hd.2 k hk, ?_⟩
        rintro rfl
        exact hn.1 hk

theorem countMfs_eq (d : MfDic) (c : Dict Int (Dict Int Int)) (n : Nat) (hn : (dKeys d).Nodup)
    (hn2 : ∀ f ∈ d, (dKeys f.2).Nodup) (hd : ∀ k ∈ dKeys d, k ∉ dKeys c) :
    countMfs d (c, n) = (c ++ cntMfs d, n + (flatC (cntMfs d)).length) := by
  induction d generalizing c n with
  | nil => simp [countMfs, cntMfs, flatC]
  | cons p d ih =>
    obtain ⟨mf, sec⟩ := p
    simp only [dKeys, List.map_cons, List.nodup_cons, List.mem_cons, forall_eq_or_imp] at hn hd hn2
    rw [countMfs]
    by_cases h : mf = 0
    · rw [if_pos h, ih c n hn.2 hn2.2 hd.2]
      simp [cntMfs, h]
    · rw [if_neg h]
      have hg : dGet mf c = none := (dGet_none_iff _ _).2 hd.1
      simp only [hg, Option.getD_none]
      rw [countMts_eq sec [] n hn2.1 (by simp [dKeys]), dSet_fresh hd.1, ih _ _ hn.2 hn2.2]
      · simp only [cntMfs, ne_eq, h, not_false_eq_true, decide_true, List.filter_cons_of_pos, List.map_cons,
          List.nil_append, List.append_assoc, List.singleton_append, flatC, List.flatMap_cons, List.length_append,
          List.length_map, Prod.mk.injEq, true_and]
        omega
      · intro k hk
        simp only [dKeys, List.map_append, List.map_cons, List.map_nil, List.mem_append, List.mem_singleton, not_or]
        refine ⟨hd.2 k hk, ?_⟩
        rintro rfl
        exact hn.1 hk

/-- value in a dictionary of dictionaries -/
def look2 {α : Type} (c : Dict Int (Dict Int α)) (mf mt : Int) : Option α := (dGet mf c).bind (dGet mt)

theorem dGet_filter_map {α β : Type} (g : α → β) (d : Dict Int α) (k : Int) :
    dGet k ((d.filter (·.1 ≠ 0)).map fun e => (e.1, g e.2)) = if k = 0 then none else (dGet k d).map g := by
  induction d with
  | nil => simp [dGet]
  | cons p d ih =>
    obtain ⟨a, v⟩ := p
    by_cases h : a = 0
    · subst h
      simp only [ne_eq, not_true_eq_false, decide_false, Bool.false_eq_true, not_false_eq_true, List.filter_cons_of_neg,
        dGet]
      simp only [ne_eq] at ih
      rw [ih]
      by_cases hk : k = 0
      · simp [hk]
      · rw [if_neg hk, if_neg hk, if_neg (fun e => hk e.symm)]
    · simp only [ne_eq, h, not_false_eq_true, decide_true, List.filter_cons_of_pos, List.map_cons, dGet]
      simp only [ne_eq] at ih
      rw [ih]
      by_cases hk : a = k
      · subst hk; simp [h]
      · simp [hk]

theorem look2_cnt (d : MfDic) (mf mt : Int) : look2 (cntMfs d) mf mt =
    if mf = 0 ∨ mt = 0 then none else (secOf d mf mt).map fun ls => (ls.length : Int) := by
  unfold look2 cntMfs secOf
  rw [dGet_filter_map cntMts]
  by_cases h : mf = 0
  · simp [h]
  · rw [if_neg h]
    cases dGet mf d with
    | none => simp
    | some s =>
      simp only [Option.map_some, Option.bind_some, h, false_or]
      exact dGet_filter_map (fun ls : List Str => (ls.length : Int)) s mt

theorem mem_flatC {c : Dict Int (Dict Int Int)} (hn : (dKeys c).Nodup) (hn2 : ∀ f ∈ c, (dKeys f.2).Nodup)
    (r : Int × Int × Int) : r ∈ flatC c ↔ look2 c r.1 r.2.1 = some r.2.2 := by
  obtain ⟨mf, mt, nc⟩ := r
  simp only [flatC, List.mem_flatMap, List.mem_map, look2, Option.bind_eq_some_iff]
  constructor
  · rintro ⟨⟨a, f⟩, h1, ⟨b, v⟩, h2, h3⟩
    simp only [Prod.mk.injEq] at h3
    obtain ⟨rfl, rfl, rfl⟩ := h3
    exact ⟨f, dGet_of_mem hn h1, dGet_of_mem (hn2 _ h1) h2⟩
  · rintro ⟨f, h1, h2⟩
    exact ⟨(mf, f), dGet_mem h1, (mt, nc), dGet_mem h2, rfl⟩

theorem flatC_keys_nodup {c : Dict Int (Dict Int Int)} (hn : (dKeys c).Nodup) (hn2 : ∀ f ∈ c, (dKeys f.2).Nodup) :
    ((flatC c).map fun r => (r.1, r.2.1)).Nodup := by
  induction c with
  | nil => simp [flatC]
  | cons f c ih =>
    simp only [dKeys, List.map_cons, List.nodup_cons] at hn
    have h2 := ih hn.2 (fun g hg => hn2 g (by simp [hg]))
    have h1 : ((f.2.map fun e => (f.1, e.1, e.2)).map fun r : Int × Int × Int => (r.1, r.2.1)).Nodup := by
      rw [List.map_map]
      have := hn2 f (by simp)
      have e : ((fun r : Int × Int × Int => (r.1, r.2.1)) ∘ fun e : Int × Int => (f.1, e.1, e.2)) =
        (fun k => (f.1, k)) ∘ Prod.fst := by funext x; rfl
      rw [e, ← List.map_map]
      exact List.Nodup.map (fun a b h => by simpa using h) this
    simp only [flatC, List.flatMap_cons, List.map_append] at h2 ⊢
    rw [List.nodup_append']
    refine ⟨h1, h2, ?_⟩
    intro x hx hy
    simp only [List.mem_map, List.mem_flatMap] at hx hy
    obtain ⟨r, ⟨e, _, rfl⟩, rfl⟩ := hx
    obtain ⟨r', ⟨g, hg, e', _, rfl⟩, h3⟩ := hy
    simp only [Prod.mk.injEq] at h3
    exact hn.1 (List.mem_map.mpr ⟨g, hg, h3.1⟩)

/-! ## MOD -/

/-- the directory says this about MF/MT -/
def Spec.HasMod (s : Sec451) (mf mt x : Int) : Prop :=
  ∃ i, dGet i (s.mfx.getD []) = some mf ∧ dGet i s.mtx = some mt ∧ dGet i s.mod = some x

theorem dItem_ok {κ α : Type} [DecidableEq κ] {k : κ} {d : Dict κ α} {v : α} : dItem k d = .ok v ↔ dGet k d = some v := by
  unfold dItem
  cases dGet k d <;> simp

theorem oldMods_keys (s : Sec451) : oldKeys s = dKeys (s.mfx.getD []) := by
  unfold oldKeys
  cases s.mfx <;> rfl

theorem oldMods_get {s : Sec451} {m : Dict (Int × Int) Int} (h : oldMods s = .ok m) (mf mt : Int) :
    (∀ x, dGet (mf, mt) m = some x → HasMod s mf mt x) ∧ (dGet (mf, mt) m = none → ∀ x, ¬ HasMod s mf mt x) := by
  unfold oldMods at h
  rw [oldMods_keys] at h
  have key : ∀ (ks : List Int) (m0 m : Dict (Int × Int) Int),
      ks.foldlM (fun m i => do
        let mf ← dItem i (s.mfx.getD [])
        let mt ← dItem i s.mtx
        let x ← dItem i s.mod
        return dSet (mf, mt) x m) m0 = (.ok m : Res _) →
      (∀ x, dGet (mf, mt) m = some x → dGet (mf, mt) m0 = some x ∨ HasMod s mf mt x) ∧
      (dGet (mf, mt) m = none → dGet (mf, mt) m0 = none ∧
        ∀ i ∈ ks, ¬ (dGet i (s.mfx.getD []) = some mf ∧ dGet i s.mtx = some mt)) := by
    intro ks
    induction ks with
    | nil =>
      intro m0 m h
      simp only [List.foldlM_nil] at h
      cases h
      exact ⟨fun x hx => Or.inl hx, fun hx => ⟨hx, by simp⟩⟩
    | cons i ks ih =>
      intro m0 m h
      simp only [List.foldlM_cons, bind_ok, pure_ok] at h
      obtain ⟨m1, ⟨a, h1, b, h2, x, h3, rfl⟩, h4⟩ := h
      rw [dItem_ok] at h1 h2 h3
      obtain ⟨i1, i2⟩ := ih _ _ h4
      constructor
      · intro y hy
        rcases i1 y hy with h5 | h5
        · rw [dGet_dSet] at h5
          split at h5
          · rename_i e
            simp only [Prod.mk.injEq] at e
            obtain ⟨rfl, rfl⟩ := e
            cases h5
            exact Or.inr ⟨i, h1, h2, h3⟩
          · exact Or.inl h5
        · exact Or.inr h5
      · intro hy
        obtain ⟨h5, h6⟩ := i2 hy
        rw [dGet_dSet] at h5
        split at h5
        · cases h5
        · rename_i e
          refine ⟨h5, ?_⟩
          intro j hj
          rcases List.mem_cons.mp hj with rfl | hj
          · rintro ⟨h7, h8⟩
            rw [h1] at h7; rw [h2] at h8
            cases h7; cases h8
            exact e rfl
          · exact h6 j hj
  obtain ⟨k1, k2⟩ := key _ _ _ h
  constructor
  · intro x hx
    rcases k1 x hx with h1 | h1
    · simp [dGet] at h1
    · exact h1
  · rintro hx x ⟨i, h1, h2, _⟩
    refine (k2 hx).2 i ?_ ⟨h1, h2⟩
    by_contra hc
    rw [(dGet_none_iff _ _).2 hc] at h1
    cases h1

/-! ## The property -/

theorem keys2_dSet {c : Dict Int (Dict Int Int)} {k : Int} {v v' : Dict Int Int} (h : dGet k c = some v')
    (hv : dKeys v = dKeys v') : ((dSet k v c).map fun f => (f.1, dKeys f.2)) = c.map fun f => (f.1, dKeys f.2) := by
  induction c with
  | nil => simp [dGet] at h
  | cons p c ih =>
    obtain ⟨a, b⟩ := p
    rw [dGet] at h
    rw [dSet]
    split at h
    · rename_i e; subst e; cases h; simp [hv]
    · rename_i e; rw [if_neg e]; simp [ih h]

theorem flatC_keys (c : Dict Int (Dict Int Int)) : ((flatC c).map fun r => (r.1, r.2.1)) =
    (c.map fun f => (f.1, dKeys f.2)).flatMap fun g => g.2.map fun mt => (g.1, mt) := by
  induction c with
  | nil => rfl
  | cons f c ih =>
    simp only [flatC, List.flatMap_cons, List.map_append, List.map_cons] at ih ⊢
    rw [ih]
    simp [dKeys]

theorem dSet_keys {κ α : Type} [DecidableEq κ] {k : κ} {v : α} {d : Dict κ α} {w : α} (h : dGet k d = some w) :
    dKeys (dSet k v d) = dKeys d := by
  induction d with
  | nil => simp [dGet] at h
  | cons p d ih =>
    obtain ⟨a, b⟩ := p
    rw [dGet] at h
    rw [dSet]
    split at h
    · rename_i e; subst e; simp [dKeys]
    · rename_i e
      rw [if_neg e]
      have := ih h
      simp only [dKeys] at this
      simp [dKeys, this]

theorem cntMts_nodup {d : Dict Int (List Str)} (h : (dKeys d).Nodup) : (dKeys (cntMts d)).Nodup := by
  unfold cntMts dKeys
  rw [List.map_map]
  have : (Prod.fst ∘ fun e : Int × List Str => (e.1, (e.2.length : Int))) = Prod.fst := by funext x; rfl
  rw [this]
  exact h.sublist (List.Sublist.map _ List.filter_sublist)

theorem cntMfs_nodup {d : MfDic} (h : Nodup2 d) : (dKeys (cntMfs d)).Nodup ∧ ∀ f ∈ cntMfs d, (dKeys f.2).Nodup := by
  constructor
  · unfold cntMfs dKeys
    rw [List.map_map]
    have : (Prod.fst ∘ fun f : Int × Dict Int (List Str) => (f.1, cntMts f.2)) = Prod.fst := by funext x; rfl
    rw [this]
    exact h.1.sublist (List.Sublist.map _ List.filter_sublist)
  · intro f hf
    simp only [cntMfs, List.mem_map, List.mem_filter] at hf
    obtain ⟨g, ⟨hg, _⟩, rfl⟩ := hf
    exact cntMts_nodup (h.2 g.1 g.2 (dGet_of_mem h.1 hg))

/-- what the update does, in one piece -/
theorem updateDirWith_ok {d : MfDic} (hd : Nodup2 d) {s s' : Sec451} (h : updateDirWith d s = .ok s')
    (h451 : secOf d 1 451 ≠ none) :
    ∃ (rs : List (Int × Int × Int)) (mods : Dict (Int × Int) Int), oldMods s = .ok mods ∧
      s' = { s with
        mfx := some (dirOf mods rs).mfx, mtx := (dirOf mods rs).mtx, ncx := (dirOf mods rs).ncx,
        mod := (dirOf mods rs).mod, nxc := rs.length } ∧
      (rs.map fun r => (r.1, r.2.1)) = (flatC (cntMfs d)).map (fun r => (r.1, r.2.1)) ∧
      (rs.map fun r => (r.1, r.2.1)).Nodup ∧
      ∀ mf mt nc, (mf, mt, nc) ∈ rs ↔ mf ≠ 0 ∧ mt ≠ 0 ∧ ∃ ls, secOf d mf mt = some ls ∧
        nc = if mf = 1 ∧ mt = 451 then 4 + s.nwd + rs.length else (ls.length : Int) := by
  obtain ⟨hc1, hc2⟩ := cntMfs_nodup hd
  have hcount := countMfs_eq d [] 0 hd.1 (fun f hf => hd.2 f.1 f.2 (dGet_of_mem hd.1 hf)) (by simp [dKeys])
  simp only [List.nil_append, zero_add] at hcount
  simp only [updateDirWith, hcount, bind_ok, pure_ok] at h
  obtain ⟨f1, h1, mods, h2, h3⟩ := h
  rw [dItem_ok] at h1
  have hl := look2_cnt d 1 451
  rw [if_neg (by decide)] at hl
  obtain ⟨ls, hls⟩ := Option.ne_none_iff_exists'.mp h451
  rw [hls] at hl
  unfold look2 at hl
  rw [h1] at hl
  simp only [Option.bind_some, Option.map_some] at hl
  set len := 4 + s.nwd + ((flatC (cntMfs d)).length : Int) with hlen
  have hk2 := keys2_dSet (v := dSet 451 len f1) h1 (dSet_keys hl)
  have hkeys : ((flatC (dSet 1 (dSet 451 len f1) (cntMfs d))).map fun r => (r.1, r.2.1)) =
      (flatC (cntMfs d)).map (fun r => (r.1, r.2.1)) := by
    rw [flatC_keys, flatC_keys, hk2]
  have hlength : (flatC (dSet 1 (dSet 451 len f1) (cntMfs d))).length = (flatC (cntMfs d)).length := by
    have := congrArg List.length hkeys
    simpa using this
  have hn1 : (dKeys (dSet 1 (dSet 451 len f1) (cntMfs d))).Nodup := by rw [dSet_keys h1]; exact hc1
  have hn2 : ∀ f ∈ dSet 1 (dSet 451 len f1) (cntMfs d), (dKeys f.2).Nodup := by
    intro f hf
    have hg := dGet_of_mem hn1 hf
    rw [dGet_dSet] at hg
    split at hg
    · simp only [Option.some.injEq] at hg
      rw [← hg, dSet_keys hl]
      exact hc2 _ (dGet_mem h1)
    · exact hc2 _ (dGet_mem hg)
  refine ⟨flatC (dSet 1 (dSet 451 len f1) (cntMfs d)), mods, h2, ?_, hkeys, ?_, ?_⟩
  · rw [← h3, dirLoop_of, hlength]
  · exact flatC_keys_nodup hn1 hn2
  · intro mf mt nc
    rw [mem_flatC hn1 hn2, hlength, ← hlen]
    simp only [look2, dGet_dSet]
    have hlk := look2_cnt d mf mt
    unfold look2 at hlk
    by_cases hm : (1 : Int) = mf
    · subst hm
      simp only [if_true, Option.bind_some, dGet_dSet, true_and]
      by_cases ht : (451 : Int) = mt
      · subst ht
        simp only [if_true, Option.some.injEq, hls]
        constructor
        · intro e; exact ⟨by decide, by decide, ls, rfl, e.symm⟩
        · rintro ⟨_, _, _, _, e⟩; exact e.symm
      · rw [if_neg ht]
        rw [h1, Option.bind_some] at hlk
        rw [hlk]
        have ht' : ¬ mt = 451 := fun e => ht e.symm
        simp only [ht', if_false, one_ne_zero, false_or]
        by_cases h0 : mt = 0
        · simp [h0]
        · simp only [h0, if_false, Option.map_eq_some_iff, ne_eq, not_false_eq_true, true_and]
          constructor
          · rintro ⟨x, hx, e⟩; exact ⟨by decide, x, hx, e.symm⟩
          · rintro ⟨_, x, hx, e⟩; exact ⟨x, hx, e.symm⟩
    · rw [if_neg hm, hlk]
      have hm' : ¬ (mf = 1 ∧ mt = 451) := fun e => hm e.1.symm
      simp only [hm', if_false]
      by_cases h0 : mf = 0 ∨ mt = 0
      · rw [if_pos h0]
        rcases h0 with h0 | h0 <;> simp [h0]
      · rw [if_neg h0]
        push Not at h0
        simp only [Option.map_eq_some_iff]
        constructor
        · rintro ⟨x, hx, e⟩; exact ⟨h0.1, h0.2, x, hx, e.symm⟩
        · rintro ⟨_, _, x, hx, e⟩; exact ⟨x, hx, e.symm⟩

theorem dirRow_of (s : Sec451) (mods : Dict (Int × Int) Int) (rs : List (Int × Int × Int)) (i : Int) :
    dirRow { s with
        mfx := some (dirOf mods rs).mfx, mtx := (dirOf mods rs).mtx, ncx := (dirOf mods rs).ncx,
        mod := (dirOf mods rs).mod, nxc := rs.length } i =
      if 1 ≤ i then (rs[(i - 1).toNat]?).map fun r => ⟨r.1, r.2.1, r.2.2, (dGet (r.1, r.2.1) mods).getD 0⟩ else none := by
  rw [dirRow_eq]
  simp only [dirOf, Option.getD_some]
  by_cases h : 1 ≤ i
  · rw [if_pos h]
    obtain ⟨n, hn⟩ : ∃ n : Nat, i = 1 + (n : Int) := ⟨(i - 1).toNat, by omega⟩
    subst hn
    have e : (1 + (n : Int) - 1).toNat = n := by omega
    simp only [dGet_numberFrom, List.getElem?_map, e]
    cases rs[n]? <;> rfl
  · rw [if_neg h]
    have : dGet i (numberFrom 1 (rs.map (·.1))) = none := by
      rw [dGet_none_iff, dKeys_numberFrom]
      simp only [List.mem_map, not_exists, not_and]
      intro x _
      omega
    rw [this]

/-- C52, what `update_directory` makes of the sections found in the lines: the directory has the lines 1 to NXC, no
MF/MT pair twice, and lists exactly the sections with the number of their lines, except that the number for MF1/MT451
itself is computed (four lines, NWD lines of text, and the lines of the new directory). MOD is taken from the old
directory, 0 for sections that were not listed. -/
theorem C52_rows {d : MfDic} (hd : Nodup2 d) {s s' : Sec451} (h : updateDirWith d s = .ok s')
    (h451 : secOf d 1 451 ≠ none) :
    (∀ i, (dirRow s' i).isSome ↔ 1 ≤ i ∧ i ≤ s'.nxc) ∧
    (∀ i j r r', dirRow s' i = some r → dirRow s' j = some r' → r.mf = r'.mf → r.mt = r'.mt → i = j) ∧
    (∀ mf mt nc, (∃ i m, dirRow s' i = some ⟨mf, mt, nc, m⟩) ↔ mf ≠ 0 ∧ mt ≠ 0 ∧ ∃ ls, secOf d mf mt = some ls ∧
      nc = if mf = 1 ∧ mt = 451 then 4 + s.nwd + s'.nxc else (ls.length : Int)) ∧
    (∀ i r, dirRow s' i = some r → HasMod s r.mf r.mt r.mod ∨ (r.mod = 0 ∧ ∀ x, ¬ HasMod s r.mf r.mt x)) ∧
    s'.nwd = s.nwd ∧ s'.descr = s.descr := by
  obtain ⟨rs, mods, h1, h2, _, h4, h5⟩ := updateDirWith_ok hd h h451
  have hrow : ∀ i, dirRow s' i =
      if 1 ≤ i then (rs[(i - 1).toNat]?).map fun r => ⟨r.1, r.2.1, r.2.2, (dGet (r.1, r.2.1) mods).getD 0⟩ else none := by
    intro i; rw [h2]; exact dirRow_of s mods rs i
  have hnxc : s'.nxc = rs.length := by rw [h2]
  refine ⟨?_, ?_, ?_, ?_, by rw [h2], by rw [h2]⟩
  · intro i
    rw [hrow, hnxc]
    by_cases hi : 1 ≤ i
    · have hsome : (rs[(i - 1).toNat]?).isSome ↔ (i - 1).toNat < rs.length := by simp
      rw [if_pos hi, Option.isSome_map, hsome]
      omega
    · simp [hi]
  · intro i j r r' hi hj e1 e2
    rw [hrow] at hi hj
    split at hi
    · split at hj
      · simp only [Option.map_eq_some_iff] at hi hj
        obtain ⟨x, hx, rfl⟩ := hi
        obtain ⟨y, hy, rfl⟩ := hj
        simp only at e1 e2
        have hx' : (rs.map fun r => (r.1, r.2.1))[(i - 1).toNat]? = some (x.1, x.2.1) := by
          rw [List.getElem?_map, hx]; rfl
        have hy' : (rs.map fun r => (r.1, r.2.1))[(j - 1).toNat]? = some (x.1, x.2.1) := by
          rw [List.getElem?_map, hy, e1, e2]; rfl
        have := (List.getElem?_inj (List.getElem?_eq_some_iff.mp hx').1 h4).mp (hx'.trans hy'.symm)
        omega
      · cases hj
    · cases hi
  · intro mf mt nc
    rw [hnxc, ← h5 mf mt nc]
    constructor
    · rintro ⟨i, m, hi⟩
      rw [hrow] at hi
      split at hi
      · simp only [Option.map_eq_some_iff, DirRow.mk.injEq] at hi
        obtain ⟨⟨a, b, c⟩, hx, rfl, rfl, rfl, _⟩ := hi
        exact List.mem_of_getElem? hx
      · cases hi
    · intro hm
      obtain ⟨n, hn⟩ := List.mem_iff_getElem?.mp hm
      refine ⟨1 + n, (dGet (mf, mt) mods).getD 0, ?_⟩
      have e : (1 + (n : Int) - 1).toNat = n := by omega
      rw [hrow, if_pos (by omega), e, hn]
      rfl
  · intro i r hi
    rw [hrow] at hi
    split at hi
    · simp only [Option.map_eq_some_iff] at hi
      obtain ⟨⟨a, b, c⟩, hx, rfl⟩ := hi
      obtain ⟨g1, g2⟩ := oldMods_get h1 a b
      dsimp only
      cases hm : dGet (a, b) mods with
      | some x => exact Or.inl (g1 x hm)
      | none => exact Or.inr ⟨rfl, g2 hm⟩
    · cases hi

/-! ## Repeating the update -/

theorem oldMods_succeeds {s : Sec451} (h : ∀ i ∈ dKeys (s.mfx.getD []), i ∈ dKeys s.mtx ∧ i ∈ dKeys s.mod) :
    ∃ m, oldMods s = .ok m := by
  unfold oldMods
  rw [oldMods_keys]
  have hmfx : ∀ i ∈ dKeys (s.mfx.getD []), ∃ v, dGet i (s.mfx.getD []) = some v := by
    intro i hi
    cases hg : dGet i (s.mfx.getD []) with
    | some v => exact ⟨v, rfl⟩
    | none => exact absurd hi ((dGet_none_iff _ _).1 hg)
  have get : ∀ {d : Dict Int Int} {i : Int}, i ∈ dKeys d → ∃ v, dItem i d = .ok v := by
    intro d i hi
    cases hg : dGet i d with
    | some v => exact ⟨v, dItem_ok.2 hg⟩
    | none => exact absurd hi ((dGet_none_iff _ _).1 hg)
  generalize hks : dKeys (s.mfx.getD []) = ks at *
  have key : ∀ (l : List Int), (∀ i ∈ l, i ∈ ks) → ∀ m0 : Dict (Int × Int) Int, ∃ m, l.foldlM (fun m i => do
        let mf ← dItem i (s.mfx.getD [])
        let mt ← dItem i s.mtx
        let x ← dItem i s.mod
        return dSet (mf, mt) x m) m0 = (.ok m : Res _) := by
    intro l
    induction l with
    | nil => intro _ m0; exact ⟨m0, rfl⟩
    | cons i l ih =>
      intro hl m0
      have hi := hl i (by simp)
      obtain ⟨a, ha⟩ := get (hks ▸ hi : i ∈ dKeys (s.mfx.getD []))
      obtain ⟨b, hb⟩ := get (h i hi).1
      obtain ⟨c, hc⟩ := get (h i hi).2
      obtain ⟨m, hm⟩ := ih (fun j hj => hl j (by simp [hj])) (dSet (a, b) c m0)
      refine ⟨m, ?_⟩
      rw [List.foldlM_cons, ha, hb, hc]
      exact hm
  exact key ks (fun _ h => h) []

/-- the update succeeds when MF1 is among the sections and the arrays of the old directory have the same indices -/
theorem updateDirWith_succeeds {d : MfDic} (hd : Nodup2 d) {s : Sec451} (h1 : dGet 1 d ≠ none)
    (h : ∀ i ∈ dKeys (s.mfx.getD []), i ∈ dKeys s.mtx ∧ i ∈ dKeys s.mod) : ∃ s', updateDirWith d s = .ok s' := by
  have hcount := countMfs_eq d [] 0 hd.1 (fun f hf => hd.2 f.1 f.2 (dGet_of_mem hd.1 hf)) (by simp [dKeys])
  simp only [List.nil_append, zero_add] at hcount
  obtain ⟨m, hm⟩ := oldMods_succeeds h
  obtain ⟨f, hf⟩ := Option.ne_none_iff_exists'.mp h1
  have hg : dItem 1 (cntMfs d) = .ok (cntMts f) := by
    rw [dItem_ok]
    unfold cntMfs
    rw [dGet_filter_map cntMts, if_neg (by decide), hf]
    rfl
  simp only [updateDirWith, hcount, hg, hm]
  exact ⟨_, rfl⟩

theorem mem_dKeys_numberFrom {α β : Type} (l : List α) (l' : List β) (h : l.length = l'.length) (i : Int) :
    i ∈ dKeys (numberFrom 1 l) ↔ i ∈ dKeys (numberFrom 1 l') := by
  rw [dKeys_numberFrom, dKeys_numberFrom, h]

/-- C52, repeating: after an update, a second one with the sections in the same order and with the same number of
lines, except for MF1/MT451, changes nothing -/
theorem C52_repeat {d d1 : MfDic} (hd : Nodup2 d) (hd1 : Nodup2 d1) {s s1 : Sec451} (h : updateDirWith d s = .ok s1)
    (h451 : secOf d 1 451 ≠ none)
    (horder : (flatC (cntMfs d1)).map (fun r => (r.1, r.2.1)) = (flatC (cntMfs d)).map (fun r => (r.1, r.2.1)))
    (hsame : ∀ mf mt, mf ≠ 0 → mt ≠ 0 → (mf = 1 ∧ mt = 451 → secOf d1 mf mt ≠ none) ∧
      (¬ (mf = 1 ∧ mt = 451) → (secOf d1 mf mt).map List.length = (secOf d mf mt).map List.length)) :
    updateDirWith d1 s1 = .ok s1 := by
  obtain ⟨rs, mods, h1, h2, h3, h4, h5⟩ := updateDirWith_ok hd h h451
  have h451' := (hsame 1 451 (by decide) (by decide)).1 ⟨rfl, rfl⟩
  obtain ⟨s2, hs2⟩ := updateDirWith_succeeds (s := s1) hd1 (by
      intro hc; unfold secOf at h451'; rw [hc] at h451'; exact h451' rfl) (by
      intro i hi
      rw [h2] at hi ⊢
      simp only [dirOf, Option.getD_some] at hi ⊢
      rw [mem_dKeys_numberFrom _ (rs.map (·.2.1)) (by simp), ] at hi
      exact ⟨hi, (mem_dKeys_numberFrom _ _ (by simp) i).1 hi⟩)
  obtain ⟨rs1, mods1, g1, g2, g3, g4, g5⟩ := updateDirWith_ok hd1 hs2 h451'
  have hnwd : s1.nwd = s.nwd := by rw [h2]
  have hk : (rs1.map fun r => (r.1, r.2.1)) = rs.map fun r => (r.1, r.2.1) := by rw [g3, h3, horder]
  have hlen : rs1.length = rs.length := by simpa using congrArg List.length hk
  have hrs : rs1 = rs := by
    apply List.ext_getElem? 
    intro n
    have hkn := congrArg (fun l => l[n]?) hk
    simp only [List.getElem?_map] at hkn
    cases ha : rs1[n]? with
    | none =>
      rw [ha] at hkn
      cases hb : rs[n]? with
      | none => rfl
      | some b => rw [hb] at hkn; cases hkn
    | some a =>
      rw [ha] at hkn
      cases hb : rs[n]? with
      | none => rw [hb] at hkn; cases hkn
      | some b =>
        rw [hb] at hkn
        simp only [Option.map_some, Option.some.injEq, Prod.mk.injEq] at hkn
        obtain ⟨a1, a2, a3⟩ := a
        obtain ⟨b1, b2, b3⟩ := b
        simp only at hkn
        obtain ⟨rfl, rfl⟩ := hkn
        obtain ⟨n1, n2, la, hla, ea⟩ := (g5 a1 a2 a3).1 (List.mem_of_getElem? ha)
        obtain ⟨_, _, lb, hlb, eb⟩ := (h5 a1 a2 b3).1 (List.mem_of_getElem? hb)
        have : a3 = b3 := by
          by_cases hc : a1 = 1 ∧ a2 = 451
          · rw [if_pos hc] at ea eb
            rw [ea, eb, hnwd, hlen]
          · rw [if_neg hc] at ea eb
            have := (hsame a1 a2 n1 n2).2 hc
            rw [hla, hlb] at this
            simp only [Option.map_some, Option.some.injEq] at this
            rw [ea, eb, this]
        rw [this]
  subst hrs
  -- the numbers MOD
  have hmod : ∀ r ∈ rs1, (dGet (r.1, r.2.1) mods1).getD 0 = (dGet (r.1, r.2.1) mods).getD 0 := by
    intro r hr
    obtain ⟨n, hn⟩ := List.mem_iff_getElem?.mp hr
    have hrow : HasMod s1 r.1 r.2.1 ((dGet (r.1, r.2.1) mods).getD 0) := by
      refine ⟨1 + n, ?_, ?_, ?_⟩ <;> rw [h2] <;> simp only [dirOf, Option.getD_some] <;>
        rw [dGet_numberFrom, List.getElem?_map, hn] <;> rfl
    obtain ⟨m1, m2⟩ := oldMods_get g1 r.1 r.2.1
    cases hx : dGet (r.1, r.2.1) mods1 with
    | none => exact absurd hrow (m2 hx _)
    | some x =>
      obtain ⟨i, i1, i2, i3⟩ := m1 x hx
      -- the row `i` is the row `1 + n`
      rw [h2] at i1 i2 i3
      simp only [dirOf, Option.getD_some] at i1 i2 i3
      have hi : i ∈ dKeys (numberFrom 1 (rs1.map (·.1))) := by
        by_contra hc; rw [(dGet_none_iff _ _).2 hc] at i1; cases i1
      rw [dKeys_numberFrom] at hi
      obtain ⟨m, _, rfl⟩ := List.mem_map.mp hi
      rw [dGet_numberFrom, List.getElem?_map] at i1 i2 i3
      cases hm : rs1[m]? with
      | none => rw [hm] at i1; cases i1
      | some q =>
        rw [hm] at i1 i2 i3
        simp only [Option.map_some, Option.some.injEq] at i1 i2 i3
        rw [← i3, i1, i2]
        rfl
  rw [hs2, g2, h2]
  have : (rs1.map fun r => (dGet (r.1, r.2.1) mods1).getD 0) = rs1.map fun r => (dGet (r.1, r.2.1) mods).getD 0 :=
    List.map_congr_left hmod
  simp only [dirOf, this]

/-! ## The order of the sections found -/

/-- order of MF, then MT -/
def lexLt (a b : Int × Int) : Prop := a.1 < b.1 ∨ (a.1 = b.1 ∧ a.2 < b.2)

/-- the keys of the dictionary come from the lines `seen` and are in ascending order -/
structure SortInv (r : ROpts) (d : MfDic) (seen : List Str) : Prop where
  from1 : ∀ mf ∈ dKeys d, mf ≠ 0 → ∃ l ∈ seen, ∃ mat mt, (theReader r).IsData mat mf mt l
  from2 : ∀ mf s mt, dGet mf d = some s → mf ≠ 0 → mt ∈ dKeys s → ∃ l ∈ seen, ∃ mat, (theReader r).IsData mat mf mt l
  sort1 : ((dKeys d).filter (· ≠ 0)).Pairwise (· < ·)
  sort2 : ∀ mf s, dGet mf d = some s → mf ≠ 0 → (dKeys s).Pairwise (· < ·)

theorem sortInv_add {r : ROpts} {d : MfDic} {seen : List Str} {l : Str} {mat mf mt : Int} (h : SortInv r d seen)
    (hl : (theReader r).IsData mat mf mt l) (hmf : mf ≠ 0)
    (hasc : ∀ x ∈ seen, ∀ a b c, (theReader r).IsData a b c x → b < mf ∨ (b = mf ∧ c ≤ mt)) :
    SortInv r (addLine mf mt l d) (seen ++ [l]) := by
  have e : addLine mf mt l d =
      dSet mf (dSet mt ((dGet mt ((dGet mf d).getD [])).getD [] ++ [l]) ((dGet mf d).getD [])) d := rfl
  set inner := (dGet mf d).getD [] with hinner
  set ls := (dGet mt inner).getD [] ++ [l]
  rw [e]
  have hin : ∀ k ∈ dKeys inner, ∃ x ∈ seen, ∃ a, (theReader r).IsData a mf k x := by
    intro k hk
    cases hg : dGet mf d with
    | none => rw [hinner, hg] at hk; simp [dKeys] at hk
    | some s => rw [hinner, hg] at hk; exact h.from2 mf s k hg hmf hk
  have hins : (dKeys inner).Pairwise (· < ·) := by
    cases hg : dGet mf d with
    | none => rw [hinner, hg]; simp [dKeys]
    | some s => rw [hinner, hg]; exact h.sort2 mf s hg hmf
  refine ⟨?_, ?_, ?_, ?_⟩
  · intro k hk hk0
    rcases (dKeys_dSet_mem _ _ _ _).1 hk with rfl | hk
    · exact ⟨l, by simp, mat, mt, hl⟩
    · obtain ⟨x, hx, y⟩ := h.from1 k hk hk0
      exact ⟨x, by simp [hx], y⟩
  · intro k s m hg hk0 hm
    rw [dGet_dSet] at hg
    split at hg
    · rename_i ek
      subst ek
      simp only [Option.some.injEq] at hg
      subst hg
      rcases (dKeys_dSet_mem _ _ _ _).1 hm with rfl | hm
      · exact ⟨l, by simp, mat, hl⟩
      · obtain ⟨x, hx, y⟩ := hin m hm
        exact ⟨x, by simp [hx], y⟩
    · obtain ⟨x, hx, y⟩ := h.from2 k s m hg hk0 hm
      exact ⟨x, by simp [hx], y⟩
  · rw [dKeys_dSet]
    split
    · exact h.sort1
    · rename_i hn
      rw [List.filter_append, List.pairwise_append]
      refine ⟨h.sort1, List.Pairwise.sublist List.filter_sublist (by simp), ?_⟩
      intro a ha b hb
      rw [List.mem_filter] at ha hb
      simp only [List.mem_singleton, ne_eq, decide_eq_true_eq] at ha hb
      obtain ⟨rfl, _⟩ := hb
      obtain ⟨x, hx, m, c, hd⟩ := h.from1 a ha.1 ha.2
      rcases hasc x hx m a c hd with h1 | h1
      · exact h1
      · exact absurd (h1.1 ▸ ha.1) hn
  · intro k s hg hk0
    rw [dGet_dSet] at hg
    split at hg
    · rename_i ek
      subst ek
      simp only [Option.some.injEq] at hg
      subst hg
      rw [dKeys_dSet]
      split
      · exact hins
      · rename_i hn
        rw [List.pairwise_append]
        refine ⟨hins, by simp, ?_⟩
        intro a ha b hb
        rw [List.mem_singleton] at hb
        subst hb
        obtain ⟨x, hx, m, hd⟩ := hin a ha
        rcases hasc x hx m mf a hd with h1 | h1
        · omega
        · rcases lt_or_eq_of_le h1.2 with h2 | h2
          · exact h2
          · exact absurd (h2 ▸ ha) hn
    · exact h.sort2 k s hg hk0

theorem sortInv_mono {r : ROpts} {d : MfDic} {seen : List Str} (l : Str) (h : SortInv r d seen) :
    SortInv r d (seen ++ [l]) := by
  refine ⟨?_, ?_, h.sort1, h.sort2⟩
  · intro k hk hk0
    obtain ⟨x, hx, y⟩ := h.from1 k hk hk0
    exact ⟨x, by simp [hx], y⟩
  · intro k s m hg hk0 hm
    obtain ⟨x, hx, y⟩ := h.from2 k s m hg hk0 hm
    exact ⟨x, by simp [hx], y⟩

theorem splitLoop_sorted {o : SplitOpts} : ∀ (ls seen : List Str) (st st' : SplitState), splitLoop o st ls = .ok st' →
    Ascending o.fields (seen ++ ls) → SortInv o.fields st.dic seen → SortInv o.fields st'.dic (seen ++ ls)
  | [], seen, st, st', h, _, hi => by rw [splitLoop] at h; cases h; simpa using hi
  | l :: ls, seen, st, st', h, ha, hi => by
    obtain ⟨s1, h1, h2⟩ := (splitLoop_cons _ _ _ _ _).1 h
    have e : seen ++ l :: ls = (seen ++ [l]) ++ ls := by simp
    rw [e] at ha ⊢
    refine splitLoop_sorted ls (seen ++ [l]) s1 st' h2 ha ?_
    rcases splitStep_dic h1 with ⟨c, c1, c2, c3, c4, c5, e⟩ | ⟨_, e⟩
    · rw [e]
      have hd : (theReader o.fields).IsData c.mat c.mf c.mt l := ⟨c2, theReader_ctrl.2 c1, c3, c4, c5⟩
      refine sortInv_add hi hd c4 ?_
      intro x hx a b cc hxd
      have hp := (List.pairwise_append.1 (List.pairwise_append.1 ha).1).2.2 x hx l (by simp)
      exact hp a b cc c.mat c.mf c.mt hxd hd
    · rw [e]; exact sortInv_mono l hi

theorem ascending_sublist {r : ROpts} {a b : List Str} (h : Ascending r b) (hs : a.Sublist b) : Ascending r a :=
  List.Pairwise.sublist hs h

theorem splitSections_sorted {o : SplitOpts} {lines : List Str} {d : MfDic} (h : splitSections o lines = .ok d)
    (ha : Ascending o.fields lines) : ∃ seen, SortInv o.fields d seen := by
  obtain ⟨pre, l, rest, c, st, e, _, _, _, rfl, _, hcase⟩ := splitSections_ok h
  rcases hcase with ⟨_, _, hs⟩ | ⟨_, _, hs⟩
  · refine ⟨_, splitLoop_sorted (l :: rest) [] _ _ hs ?_ ⟨by simp [dKeys], by simp [dGet], by simp [dKeys], by simp [dGet]⟩⟩
    rw [e] at ha
    exact ascending_sublist ha (List.sublist_append_right _ _)
  · refine ⟨_, splitLoop_sorted rest [] _ _ hs ?_ ?_⟩
    · rw [e] at ha
      exact ascending_sublist ha ((List.sublist_cons_self _ _).trans (List.sublist_append_right _ _))
    · have e2 : addLine 0 0 (lines.headD []) [] = [(0, [(0, [lines.headD []])])] := rfl
      rw [e2]
      refine ⟨by simp [dKeys], ?_, by simp [dKeys], ?_⟩
      · intro mf s mt hg h0
        simp only [dGet] at hg
        rw [if_neg (fun e => h0 e.symm)] at hg
        cases hg
      · intro mf s hg h0
        simp only [dGet] at hg
        rw [if_neg (fun e => h0 e.symm)] at hg
        cases hg

theorem flatC_sorted {r : ROpts} {d : MfDic} {seen : List Str} (hn : Nodup2 d) (h : SortInv r d seen) :
    ((flatC (cntMfs d)).map fun r => (r.1, r.2.1)).Pairwise lexLt := by
  rw [flatC_keys, List.pairwise_flatMap]
  constructor
  · intro g hg
    simp only [cntMfs, List.map_map, List.mem_map, List.mem_filter, Function.comp] at hg
    obtain ⟨f, ⟨hf, hf0⟩, rfl⟩ := hg
    simp only [ne_eq, decide_not, Bool.not_eq_true', decide_eq_false_iff_not] at hf0
    have hs := h.sort2 f.1 f.2 (dGet_of_mem hn.1 hf) hf0
    rw [List.pairwise_map]
    have : (dKeys (cntMts f.2)).Sublist (dKeys f.2) := by
      unfold cntMts dKeys
      rw [List.map_map]
      exact List.Sublist.map _ List.filter_sublist
    exact (hs.sublist this).imp (fun hab => Or.inr ⟨rfl, hab⟩)
  · have hs := h.sort1
    have e : (dKeys d).filter (· ≠ 0) = (cntMfs d).map Prod.fst := by
      unfold cntMfs dKeys
      rw [List.map_map, List.filter_map]
      rfl
    rw [e, List.pairwise_map] at hs
    rw [List.pairwise_map]
    refine hs.imp ?_
    intro a b hab x hx y hy
    simp only [List.mem_map] at hx hy
    obtain ⟨m, _, rfl⟩ := hx
    obtain ⟨m', _, rfl⟩ := hy
    exact Or.inl hab

theorem mem_flatC_keys {d : MfDic} (hn : Nodup2 d) (mf mt : Int) :
    (mf, mt) ∈ (flatC (cntMfs d)).map (fun r => (r.1, r.2.1)) ↔ mf ≠ 0 ∧ mt ≠ 0 ∧ secOf d mf mt ≠ none := by
  obtain ⟨hc1, hc2⟩ := cntMfs_nodup hn
  simp only [List.mem_map, Prod.mk.injEq]
  constructor
  · rintro ⟨⟨a, b, c⟩, hm, rfl, rfl⟩
    rw [mem_flatC hc1 hc2, look2_cnt] at hm
    split at hm
    · cases hm
    · rename_i h0
      push Not at h0
      refine ⟨h0.1, h0.2, ?_⟩
      intro hc
      simp only at hm
      rw [hc] at hm
      cases hm
  · rintro ⟨h1, h2, h3⟩
    obtain ⟨ls, hls⟩ := Option.ne_none_iff_exists'.mp h3
    refine ⟨(mf, mt, (ls.length : Int)), ?_, rfl, rfl⟩
    rw [mem_flatC hc1 hc2, look2_cnt]
    simp [h1, h2, hls]

theorem order_unique {r1 r2 : ROpts} {d d1 : MfDic} {seen seen1 : List Str} (hn : Nodup2 d) (hn1 : Nodup2 d1)
    (h : SortInv r1 d seen) (h1 : SortInv r2 d1 seen1)
    (hs : ∀ mf mt, mf ≠ 0 → mt ≠ 0 → (secOf d1 mf mt ≠ none ↔ secOf d mf mt ≠ none)) :
    (flatC (cntMfs d1)).map (fun r => (r.1, r.2.1)) = (flatC (cntMfs d)).map (fun r => (r.1, r.2.1)) := by
  have hp := flatC_sorted hn h
  have hp1 := flatC_sorted hn1 h1
  have nd : ∀ {l : List (Int × Int)}, l.Pairwise lexLt → l.Nodup := by
    intro l hl
    refine hl.imp ?_
    rintro a b hab rfl
    unfold lexLt at hab
    omega
  have hperm : List.Perm ((flatC (cntMfs d1)).map (fun r => (r.1, r.2.1))) ((flatC (cntMfs d)).map (fun r => (r.1, r.2.1))) := by
    rw [List.perm_ext_iff_of_nodup (nd hp1) (nd hp)]
    rintro ⟨a, b⟩
    rw [mem_flatC_keys hn1, mem_flatC_keys hn]
    constructor
    · rintro ⟨x, y, z⟩; exact ⟨x, y, (hs a b x y).1 z⟩
    · rintro ⟨x, y, z⟩; exact ⟨x, y, (hs a b x y).2 z⟩
  refine hperm.eq_of_pairwise ?_ hp1 hp
  intro a b _ _ hab hba
  unfold lexLt at hab hba
  omega

/-! ## Together with writing -/

theorem splitSections_noTpid {r : ROpts} {lines : List Str} {d : MfDic} (h : splitSections { fields := r } lines = .ok d) :
    splitSections { fields := r, ignoreTpid := true } lines = .ok d := by
  have hl : splitLead { fields := r, ignoreTpid := true } lines = splitLead { fields := r } lines := by
    clear h
    induction lines with
    | nil => rfl
    | cons l ls ih => simp [splitLead]
  have hloop : ∀ st ls, splitLoop { fields := r, ignoreTpid := true } st ls = splitLoop { fields := r } st ls :=
    fun st ls => splitLoop_noTpid r ls st
  unfold splitSections at h ⊢
  rw [hl]
  cases hx : splitLead { fields := r } lines with
  | error err => rw [hx] at h; cases h
  | ok ls =>
    rw [hx] at h
    simp only [bind, Except.bind] at h ⊢
    cases ls with
    | nil => exact h
    | cons l ls =>
      simp only [hloop] at h ⊢
      cases hc : readCtrl r.width l with
      | error err => rw [hc] at h; cases h
      | ok c =>
        rw [hc] at h
        dsimp only at h ⊢
        split at h
        · simp at h
        · rename_i hz
          rw [if_neg hz]
          exact h

/-- the tape head is missing or one full line -/
def TapeHeadOk {α : Type} (e : WriteEnv α) (dic : Dict Int (Dict Int (SecVal α))) : Prop :=
  dGet 0 dic = none ∨ ∃ l v, dGet 0 dic = some [(0, v)] ∧ HeadOk e l v

theorem written_split {α : Type} (e : WriteEnv α) (hr : e.r.width = e.o.width) (hw : 9 ≤ e.o.width)
    (hsel : e.excl = none ∧ e.incl = none) (mat : Int)
    (dic : Dict Int (Dict Int (SecVal α))) (h : FilesOk e mat dic) (hh : TapeHeadOk e dic) :
    ∃ out d, writeTape e dic = .ok out ∧ splitSections { fields := e.r, ignoreTpid := true } out = .ok d ∧
      Ascending e.r out ∧
      ∀ mf mt, mf ≠ 0 → mt ≠ 0 → (secOf d mf mt).map List.length = (valOf dic mf mt).map fun v => (secText e mf mt v).length := by
  have hskip : ∀ mf mt, shouldSkip mf mt e.excl e.incl = false := by intro mf mt; rw [hsel.1, hsel.2]; rfl
  have conv : ∀ (d : MfDic), (∀ mf mt, mf ≠ 0 → mt ≠ 0 → (secOf d mf mt).map (cols e.o.width) =
        match valOf dic mf mt with
        | some v => if shouldSkip mf mt e.excl e.incl then none else some (cols e.o.width (secText e mf mt v))
        | none => none) → ∀ mf mt, mf ≠ 0 → mt ≠ 0 →
        (secOf d mf mt).map List.length = (valOf dic mf mt).map fun v => (secText e mf mt v).length := by
    intro d hc mf mt h1 h2
    have := hc mf mt h1 h2
    rw [hskip] at this
    cases hv : valOf dic mf mt with
    | none =>
      rw [hv] at this
      cases hs : secOf d mf mt with
      | none => rfl
      | some x => rw [hs] at this; cases this
    | some v =>
      rw [hv] at this
      cases hs : secOf d mf mt with
      | none => rw [hs] at this; cases this
      | some x =>
        rw [hs] at this
        simp only [Option.map_some, Bool.false_eq_true, if_false, Option.some.injEq] at this
        have := congrArg List.length this
        simp only [cols, List.length_map] at this
        simp [this]
  rcases hh with h0 | ⟨l, v, h0, hh⟩
  · obtain ⟨out, d, w1, _, w3, w4, w5⟩ := C25_no_tpid e hr hw mat dic h h0
    exact ⟨out, d, w1, w3, w4, conv d w5⟩
  · obtain ⟨out, d, w1, w2, w3, w4, _⟩ := C25_written_partial e hr hw mat dic h l v h0 hh (hskip 0 0)
    exact ⟨out, d, w1, splitSections_noTpid w2, w3, conv d w4⟩

/-- **C52** (partial) `update_directory` with a parser, for a dictionary that can be written. `sec` gives the variables
of MF1/MT451 concerned, `upd` changes them. After the update the directory has the lines 1 to NXC and lists exactly the
sections found in the lines written for the updated dictionary, each once, with the number of lines it has there;
updating again changes nothing.
Missing: the assumption `hlen` on the number of lines the recipe of MF1/MT451 produces; see `C52_recipe`. -/
theorem C52_partial {α : Type} (e : WriteEnv α) (hr : e.r.width = e.o.width) (hw : 9 ≤ e.o.width)
    (hsel : e.excl = none ∧ e.incl = none) (mat : Int) (sec : α → Sec451) (upd : Sec451 → α → α)
    (dic : Dict Int (Dict Int (SecVal α))) (f1 : Dict Int (SecVal α)) (x : α)
    (hf1 : dGet 1 dic = some f1) (hx : dGet 451 f1 = some (.data x))
    (hok : FilesOk e mat dic) (hh : TapeHeadOk e dic)
    (out : List Str) (hout : writeTape e dic = .ok out) (s1 : Sec451)
    (hup : updateDirectory { fields := e.r } out (sec x) = .ok s1)
    (hlen : ∀ ls c, e.render 1 451 (upd s1 x) = some (.ok (ls, c)) → (ls.length : Int) = 4 + s1.nwd + s1.nxc + 1)
    (dic1 : Dict Int (Dict Int (SecVal α))) (hdic1 : dic1 = dSet 1 (dSet 451 (.data (upd s1 x)) f1) dic)
    (hok1 : FilesOk e mat dic1) :
    ∃ out1 d1, writeTape e dic1 = .ok out1 ∧ splitSections { fields := e.r, ignoreTpid := true } out1 = .ok d1 ∧
      (∀ i, (dirRow s1 i).isSome ↔ 1 ≤ i ∧ i ≤ s1.nxc) ∧
      (∀ i j r r', dirRow s1 i = some r → dirRow s1 j = some r' → r.mf = r'.mf → r.mt = r'.mt → i = j) ∧
      (∀ mf mt nc, (∃ i m, dirRow s1 i = some ⟨mf, mt, nc, m⟩) ↔
        mf ≠ 0 ∧ mt ≠ 0 ∧ ∃ ls, secOf d1 mf mt = some ls ∧ nc = (ls.length : Int)) ∧
      updateDirectory { fields := e.r } out1 s1 = .ok s1 := by
  have hskip : ∀ mf mt, shouldSkip mf mt e.excl e.incl = false := by intro mf mt; rw [hsel.1, hsel.2]; rfl
  have hh1 : TapeHeadOk e dic1 := by
    have : dGet 0 dic1 = dGet 0 dic := by rw [hdic1]; exact dGet_dSet_ne (by decide) _ _
    unfold TapeHeadOk
    rw [this]
    exact hh
  obtain ⟨out', d, w1, w2, w3, w4⟩ := written_split e hr hw hsel mat dic hok hh
  rw [hout] at w1
  cases w1
  obtain ⟨out1, d1, v1, v2, v3, v4⟩ := written_split e hr hw hsel mat dic1 hok1 hh1
  have hd := splitSections_nodup w2
  have hd1 := splitSections_nodup v2
  have hval : ∀ mf mt, valOf dic1 mf mt = if mf = 1 ∧ mt = 451 then some (.data (upd s1 x)) else valOf dic mf mt := by
    intro mf mt
    unfold valOf
    rw [hdic1, dGet_dSet]
    by_cases h1 : (1 : Int) = mf
    · subst h1
      simp only [if_true, Option.bind_some, dGet_dSet, true_and, hf1]
      by_cases h2 : (451 : Int) = mt
      · simp [h2]
      · have h2' : ¬ mt = 451 := fun e => h2 e.symm
        simp [h2, h2']
    · have h1' : ¬ mf = 1 := fun e => h1 e.symm
      simp [h1, h1']
  have hval0 : valOf dic 1 451 = some (.data x) := by unfold valOf; rw [hf1, Option.bind_some, hx]
  have h451 : secOf d 1 451 ≠ none := by
    intro hc
    have := w4 1 451 (by decide) (by decide)
    rw [hc, hval0] at this
    cases this
  -- lines of MF1/MT451
  have hg1 : dGet 1 dic1 = some (dSet 451 (.data (upd s1 x)) f1) := by rw [hdic1, dGet_dSet_self]
  obtain ⟨_, _, _, body, send, hren, _⟩ := hok1.secs 1 _ 451 (.data (upd s1 x)) hg1 (dGet_dSet_self _ _ _) (by decide)
    (hskip 1 451)
  have hbody := hlen _ _ hren
  simp only [List.length_append, List.length_singleton] at hbody
  have htext : secText e 1 451 (.data (upd s1 x)) = body := by
    simp [secText, hren]
  have hsec451 : (secOf d1 1 451).map List.length = some body.length := by
    rw [v4 1 451 (by decide) (by decide), hval, if_pos ⟨rfl, rfl⟩]
    simp [htext]
  have hother : ∀ mf mt, mf ≠ 0 → mt ≠ 0 → ¬ (mf = 1 ∧ mt = 451) →
      (secOf d1 mf mt).map List.length = (secOf d mf mt).map List.length := by
    intro mf mt h1 h2 h3
    rw [v4 mf mt h1 h2, w4 mf mt h1 h2, hval, if_neg h3]
  have h451' : secOf d1 1 451 ≠ none := by intro hc; rw [hc] at hsec451; cases hsec451
  simp only [updateDirectory, w2, bind, Except.bind] at hup
  obtain ⟨r1, r2, r3, _, r5, _⟩ := C52_rows hd hup h451
  refine ⟨out1, d1, v1, v2, r1, r2, ?_, ?_⟩
  · intro mf mt nc
    rw [r3 mf mt nc]
    constructor
    · rintro ⟨h1, h2, ls, h3, h4⟩
      refine ⟨h1, h2, ?_⟩
      by_cases hc : mf = 1 ∧ mt = 451
      · rw [if_pos hc] at h4
        obtain ⟨rfl, rfl⟩ := hc
        obtain ⟨ls1, hls1⟩ := Option.ne_none_iff_exists'.mp h451'
        rw [hls1] at hsec451
        simp only [Option.map_some, Option.some.injEq] at hsec451
        refine ⟨ls1, hls1, ?_⟩
        omega
      · rw [if_neg hc] at h4
        have := hother mf mt h1 h2 hc
        rw [h3] at this
        simp only [Option.map_some, Option.map_eq_some_iff] at this
        obtain ⟨ls1, hls1, el⟩ := this
        exact ⟨ls1, hls1, by rw [h4, el]⟩
    · rintro ⟨h1, h2, ls1, h3, h4⟩
      refine ⟨h1, h2, ?_⟩
      by_cases hc : mf = 1 ∧ mt = 451
      · obtain ⟨rfl, rfl⟩ := hc
        obtain ⟨ls, hls⟩ := Option.ne_none_iff_exists'.mp h451
        rw [h3] at hsec451
        simp only [Option.map_some, Option.some.injEq] at hsec451
        refine ⟨ls, hls, ?_⟩
        rw [if_pos ⟨rfl, rfl⟩]
        omega
      · have := hother mf mt h1 h2 hc
        rw [h3] at this
        simp only [Option.map_some] at this
        obtain ⟨ls, hls, el⟩ := Option.map_eq_some_iff.mp this.symm
        exact ⟨ls, hls, by rw [if_neg hc, h4, el]⟩
  · simp only [updateDirectory, v2, bind, Except.bind]
    obtain ⟨seen, hs⟩ := splitSections_sorted w2 w3
    obtain ⟨seen1, hs1⟩ := splitSections_sorted v2 v3
    refine C52_repeat hd hd1 hup h451 (order_unique hd hd1 hs hs1 ?_) ?_
    · intro mf mt h1 h2
      by_cases hc : mf = 1 ∧ mt = 451
      · obtain ⟨rfl, rfl⟩ := hc
        exact ⟨fun _ => h451, fun _ => h451'⟩
      · have := hother mf mt h1 h2 hc
        constructor
        · intro ha hb
          rw [hb] at this
          exact ha (Option.map_eq_none_iff.mp this)
        · intro ha hb
          rw [hb] at this
          exact ha (Option.map_eq_none_iff.mp this.symm)
    · intro mf mt h1 h2
      refine ⟨?_, hother mf mt h1 h2⟩
      rintro ⟨rfl, rfl⟩
      exact h451'

end Verif
