import Verif.Model.Arrays
import Mathlib.Tactic.Linarith
import Mathlib.Data.List.Basic
import Mathlib.Data.List.Induction
/-
C41: arrays as lists are the arrays as dictionaries with indices starting at zero.
-/
namespace Verif

/-! ## Specification -/

/-- an array whose indices at each level are a range `a, a+1, …`; the levels below may begin at other indices -/
inductive Spec.ATree where
  | leaf (v : Obj)
  | arr (a : Int) (ts : List Spec.ATree)

open Spec

mutual
/-- the array as dictionary -/
def Spec.ATree.dict : ATree → Obj
  | .leaf v => v
  | .arr a ts => .dic (Spec.ATree.dicts a ts)
def Spec.ATree.dicts : Int → List ATree → List (PKey × Obj)
  | _, [] => []
  | a, t :: ts => (.int a, t.dict) :: Spec.ATree.dicts (a + 1) ts
end

mutual
/-- the array as list: the same elements with indices starting at zero at each level -/
def Spec.ATree.list : ATree → Obj
  | .leaf v => v
  | .arr _ ts => .lst (Spec.ATree.lists ts)
def Spec.ATree.lists : List ATree → List Obj
  | [] => []
  | t :: ts => t.list :: Spec.ATree.lists ts
end

/-- an assignment that visits indices in ascending order: at each level the index was visited before or is the
first or the next one -/
inductive Spec.Put : ATree → AWrite → ATree → Prop
  | first (a i v) : Put (.arr a []) ([i], v) (.arr i [.leaf v])
  | next (a ts v) : ts ≠ [] → Put (.arr a ts) ([a + ts.length], v) (.arr a (ts ++ [.leaf v]))
  | over (a ts) (n : Nat) (v) : n < ts.length → Put (.arr a ts) ([a + n], v) (.arr a (ts.set n (.leaf v)))
  | firstSub (a i is v t) : is ≠ [] → Put (.arr 0 []) (is, v) t → Put (.arr a []) (i :: is, v) (.arr i [t])
  | nextSub (a ts is v t) : ts ≠ [] → is ≠ [] → Put (.arr 0 []) (is, v) t →
      Put (.arr a ts) ((a + ts.length) :: is, v) (.arr a (ts ++ [t]))
  | inSub (a ts) (n : Nat) (is v t t') : is ≠ [] → ts[n]? = some t → Put t (is, v) t' →
      Put (.arr a ts) ((a + n) :: is, v) (.arr a (ts.set n t'))

/-- a sequence of such assignments -/
inductive Spec.Puts : ATree → List AWrite → ATree → Prop
  | nil (t) : Puts t [] t
  | cons {t w t' ws t''} : Put t w t' → Puts t' ws t'' → Puts t (w :: ws) t''

/-- the part of the array reached with given indices -/
inductive Spec.ASub : ATree → List Int → ATree → Prop
  | nil (t) : ASub t [] t
  | cons {a ts} {n : Nat} {t is u} : ts[n]? = some t → ASub t is u → ASub (.arr a ts) ((a + n) :: is) u

/-- no elements that are dictionaries and no empty level -/
inductive Spec.APlain : ATree → Prop
  | leaf {v} : (∀ d, v ≠ .dic d) → APlain (.leaf v)
  | arr {a ts} : ts ≠ [] → (∀ t ∈ ts, APlain t) → APlain (.arr a ts)

/-! ## Lemmas -/

theorem lists_eq (ts : List ATree) : ATree.lists ts = ts.map ATree.list := by
  induction ts with
  | nil => rfl
  | cons t ts ih => simp [ATree.lists, ih]

theorem dicts_append (a : Int) (ts us : List ATree) :
    ATree.dicts a (ts ++ us) = ATree.dicts a ts ++ ATree.dicts (a + ts.length) us := by
  induction ts generalizing a with
  | nil => simp [ATree.dicts]
  | cons t ts ih =>
    simp only [List.cons_append, ATree.dicts, ih, List.length_cons, List.cons.injEq, true_and]
    congr 2
    push_cast
    ring

theorem dGet_dicts (a : Int) (ts : List ATree) (n : Nat) :
    dGet (.int (a + n)) (ATree.dicts a ts) = (ts[n]?).map ATree.dict := by
  induction ts generalizing a n with
  | nil => simp [ATree.dicts, dGet]
  | cons t ts ih =>
    simp only [ATree.dicts, dGet]
    cases n with
    | zero => simp
    | succ n =>
      rw [if_neg (by simp only [PKey.int.injEq]; push_cast; omega)]
      have := ih (a + 1) n
      rw [show a + ((n + 1 : Nat) : Int) = a + 1 + (n : Int) by push_cast; ring, this]
      simp

theorem dGet_dicts_low (a : Int) (ts : List ATree) (k : Int) (h : k < a) :
    dGet (.int k) (ATree.dicts a ts) = none := by
  induction ts generalizing a with
  | nil => simp [ATree.dicts, dGet]
  | cons t ts ih =>
    simp only [ATree.dicts, dGet]
    rw [if_neg (by simp only [PKey.int.injEq]; omega)]
    exact ih (a + 1) (by omega)

theorem dSet_dicts_next (a : Int) (ts : List ATree) (o : Obj) :
    dSet (.int (a + ts.length)) o (ATree.dicts a ts) = ATree.dicts a ts ++ [(.int (a + ts.length), o)] := by
  induction ts generalizing a with
  | nil => simp [ATree.dicts, dSet]
  | cons t ts ih =>
    simp only [ATree.dicts, dSet, List.length_cons]
    rw [if_neg (by simp only [PKey.int.injEq]; push_cast; omega)]
    have := ih (a + 1)
    rw [show a + ((ts.length + 1 : Nat) : Int) = a + 1 + (ts.length : Int) by push_cast; ring, this]
    simp

theorem dSet_dicts_set (a : Int) (ts : List ATree) (n : Nat) (t : ATree) (h : n < ts.length) :
    dSet (.int (a + n)) t.dict (ATree.dicts a ts) = ATree.dicts a (ts.set n t) := by
  induction ts generalizing a n with
  | nil => simp at h
  | cons u ts ih =>
    simp only [ATree.dicts, dSet]
    cases n with
    | zero => simp [ATree.dicts]
    | succ n =>
      rw [if_neg (by simp only [PKey.int.injEq]; push_cast; omega)]
      have := ih (a + 1) n (by simpa using h)
      rw [show a + ((n + 1 : Nat) : Int) = a + 1 + (n : Int) by push_cast; ring, this]
      simp [ATree.dicts]

/-- dictionary mode -/
theorem dicSet_put {t : ATree} {w : AWrite} {t' : ATree} (h : Put t w t') :
    dicSet w.1 w.2 t.dict = .ok t'.dict := by
  induction h with
  | first a i v => simp [ATree.dict, ATree.dicts, dicSet, dSet]
  | next a ts v hne =>
    simp only [ATree.dict, dicSet, dSet_dicts_next, dicts_append, ATree.dicts]
  | over a ts n v hn =>
    have := dSet_dicts_set a ts n (.leaf v) hn
    simp only [ATree.dict, dicSet]
    simp only [ATree.dict] at this
    rw [this]
  | firstSub a i is v t hne hp ih =>
    obtain ⟨j, is, rfl⟩ := List.exists_cons_of_ne_nil hne
    simp only [ATree.dict, ATree.dicts, dicSet, dGet, Option.getD_none, dSet] at ih ⊢
    rw [ih]; rfl
  | nextSub a ts is v t hne hne2 hp ih =>
    obtain ⟨j, is, rfl⟩ := List.exists_cons_of_ne_nil hne2
    have hg := dGet_dicts a ts ts.length
    rw [List.getElem?_eq_none (le_refl _)] at hg
    simp only [ATree.dict, ATree.dicts] at ih
    simp only [ATree.dict]
    rw [dicSet]
    simp only [hg, Option.map_none, Option.getD_none]
    rw [ih]
    simp only [dicts_append, ATree.dicts]
    rw [← dSet_dicts_next]
    rfl
  | inSub a ts n is v t t' hne hg hp ih =>
    obtain ⟨j, is, rfl⟩ := List.exists_cons_of_ne_nil hne
    have hd := dGet_dicts a ts n
    rw [hg] at hd
    have hn : n < ts.length := by
      by_contra hc
      rw [List.getElem?_eq_none (by omega)] at hg
      cases hg
    simp only [ATree.dict]
    rw [dicSet]
    simp only [hd, Option.map_some, Option.getD_some]
    rw [ih, ← dSet_dicts_set a ts n t' hn]
    rfl

/-- `__startidcs` fits the array -/
inductive InfoOk : ATree → Info → Prop
  | leaf (v f) : InfoOk (.leaf v) f
  | nil (a) : InfoOk (.arr a []) Info.empty
  | cons (a : Int) (ts : List ATree) (subs : List (Int × Info)) : ts ≠ [] →
      (∀ (n : Nat) t, ts[n]? = some t → InfoOk t ((dGet (a + n) subs).getD Info.empty)) →
      (∀ k : Int, (k < a ∨ a + ts.length ≤ k) → dGet k subs = none) →
      InfoOk (.arr a ts) (.node (some a) subs)

theorem infoOk_append {a : Int} {ts : List ATree} {subs : List (Int × Info)} {t : ATree} {f : Info}
    (h1 : ∀ (n : Nat) t, ts[n]? = some t → InfoOk t ((dGet (a + n) subs).getD Info.empty))
    (h2 : ∀ k, (k < a ∨ a + ts.length ≤ k) → dGet k subs = none) (h : InfoOk t f) :
    InfoOk (.arr a (ts ++ [t])) (.node (some a) (dSet (a + ts.length) f subs)) := by
  refine .cons _ _ _ (by simp) ?_ ?_
  · intro n u hu
    rw [dGet_dSet]
    by_cases hn : n = ts.length
    · subst hn
      simp only [List.getElem?_concat_length, Option.some.injEq] at hu
      subst hu
      simpa using h
    · have hlt : n < ts.length := by
        have := (List.getElem?_eq_some_iff.mp hu).1
        simp at this; omega
      rw [List.getElem?_append_left hlt] at hu
      rw [if_neg (by omega)]
      exact h1 n u hu
  · intro k hk
    simp only [List.length_append, List.length_cons, List.length_nil] at hk
    rw [dGet_dSet, if_neg (by omega)]
    exact h2 k (by omega)

theorem infoOk_set {a : Int} {ts : List ATree} {subs : List (Int × Info)} {t : ATree} {f : Info} {n : Nat}
    (hn : n < ts.length)
    (h1 : ∀ (n : Nat) t, ts[n]? = some t → InfoOk t ((dGet (a + n) subs).getD Info.empty))
    (h2 : ∀ k, (k < a ∨ a + ts.length ≤ k) → dGet k subs = none) (h : InfoOk t f) :
    InfoOk (.arr a (ts.set n t)) (.node (some a) (dSet (a + n) f subs)) := by
  refine .cons _ _ _ ?_ ?_ ?_
  · intro hc
    have := congrArg List.length hc
    simp at this
    subst this
    simp at hn
  · intro m u hu
    rw [dGet_dSet]
    by_cases hm : n = m
    · subst hm
      rw [List.getElem?_set_self hn] at hu
      cases hu
      simpa using h
    · rw [List.getElem?_set_ne hm] at hu
      rw [if_neg (by omega)]
      exact h1 m u hu
  · intro k hk
    rw [List.length_set] at hk
    rw [dGet_dSet, if_neg (by omega)]
    exact h2 k hk

theorem setL_append {l : List Obj} {start : Option Int} {subs : List (Int × Info)} {i s : Int} {is : List Int}
    {v o : Obj} {f : Info} (hs : start.getD i = s) (hi : i - s = l.length) (hne : is ≠ [])
    (h : setL (.lst [], (dGet i subs).getD Info.empty) (is, v) = .ok (o, f)) :
    setL (.lst l, .node start subs) (i :: is, v) = .ok (.lst (l ++ [o]), .node (some s) (dSet i f subs)) := by
  obtain ⟨j, is, rfl⟩ := List.exists_cons_of_ne_nil hne
  simp only [setL, bind, Except.bind] at h ⊢
  rw [shiftIdx]
  simp only [hs, hi]
  generalize (dGet i subs).getD Info.empty = g at h ⊢
  cases g with
  | node st sb =>
    rw [shiftIdx] at h ⊢
    rw [lstSet, if_neg (by omega), if_pos (by omega)]
    simp only at h ⊢
    split at h
    · cases h
    · rename_i o' ho
      simp only [bind, Except.bind, ho]
      cases h
      rfl

theorem setL_inside {l : List Obj} {start : Option Int} {subs : List (Int × Info)} {i s : Int} {is : List Int}
    {v o u : Obj} {f : Info} {n : Nat} (hs : start.getD i = s) (hi : i - s = n) (hu : l[n]? = some u) (hne : is ≠ [])
    (h : setL (u, (dGet i subs).getD Info.empty) (is, v) = .ok (o, f)) :
    setL (.lst l, .node start subs) (i :: is, v) = .ok (.lst (l.set n o), .node (some s) (dSet i f subs)) := by
  obtain ⟨j, is, rfl⟩ := List.exists_cons_of_ne_nil hne
  have hn := (List.getElem?_eq_some_iff.mp hu).1
  simp only [setL, bind, Except.bind] at h ⊢
  rw [shiftIdx]
  simp only [hs, hi]
  generalize (dGet i subs).getD Info.empty = g at h ⊢
  cases g with
  | node st sb =>
    rw [shiftIdx] at h ⊢
    rw [lstSet, if_neg (by omega), if_neg (by omega)]
    simp only [Int.toNat_natCast, List.getD, hu, Option.getD_some] at h ⊢
    split at h
    · cases h
    · rename_i o' ho
      simp only [bind, Except.bind, ho]
      cases h
      rfl

/-- list mode -/
theorem setL_put {t : ATree} {w : AWrite} {t' : ATree} (h : Put t w t') {f : Info} (hf : InfoOk t f) :
    ∃ f', setL (t.list, f) w = .ok (t'.list, f') ∧ InfoOk t' f' := by
  induction h generalizing f with
  | first a i v =>
    cases hf with
    | nil =>
      refine ⟨.node (some i) [(i, Info.empty)], ?_, ?_⟩
      · simp only [setL, Info.empty, shiftIdx, ATree.list, ATree.lists, Option.getD_none, dGet, dSet, lstSet, sub_self]
        rfl
      · have := infoOk_append (ts := []) (a := i) (subs := []) (by simp) (by simp [dGet])
          (InfoOk.leaf v Info.empty)
        simpa [dSet] using this
    | cons _ _ _ h0 => exact absurd rfl h0
  | next a ts v hne =>
    cases hf with
    | nil => exact absurd rfl hne
    | cons _ _ subs _ h1 h2 =>
      refine ⟨.node (some a) (dSet (a + ts.length) Info.empty subs), ?_, infoOk_append h1 h2 (.leaf _ _)⟩
      have hk := h2 (a + ts.length) (Or.inr (le_refl _))
      simp only [setL, shiftIdx, ATree.list, lists_eq, hk, Option.getD_some, Option.getD_none, lstSet,
        List.length_map]
      rw [if_neg (by omega), if_pos (by omega)]
      simp [ATree.list]
  | over a ts n v hn =>
    cases hf with
    | nil => simp at hn
    | cons _ _ subs _ h1 h2 =>
      refine ⟨.node (some a) (dSet (a + n) ((dGet (a + n) subs).getD Info.empty) subs), ?_,
        infoOk_set hn h1 h2 (.leaf _ _)⟩
      simp only [setL, shiftIdx, ATree.list, lists_eq, Option.getD_some, lstSet, List.length_map]
      rw [if_neg (by omega), if_neg (by omega)]
      have : (a + (n : Int) - a).toNat = n := by omega
      simp only [this, List.map_set, ATree.list]
      rfl
  | firstSub a i is v t hne hp ih =>
    cases hf with
    | cons _ _ _ h0 => exact absurd rfl h0
    | nil =>
      obtain ⟨f', h1, h2⟩ := ih (InfoOk.nil 0)
      refine ⟨.node (some i) [(i, f')], ?_, ?_⟩
      · have := setL_append (l := []) (start := Option.none) (subs := []) (i := i) (s := i) rfl (by simp) hne h1
        simpa [dSet, ATree.list, ATree.lists, Info.empty] using this
      · have := infoOk_append (ts := []) (a := i) (subs := []) (by simp) (by simp [dGet]) h2
        simpa [dSet] using this
  | nextSub a ts is v t hne hne2 hp ih =>
    cases hf with
    | nil => exact absurd rfl hne
    | cons _ _ subs _ h1 h2 =>
      obtain ⟨f', h3, h4⟩ := ih (InfoOk.nil 0)
      refine ⟨.node (some a) (dSet (a + ts.length) f' subs), ?_, infoOk_append h1 h2 h4⟩
      have hk := h2 (a + ts.length) (Or.inr (le_refl _))
      have := setL_append (l := ts.map ATree.list) (start := some a) (subs := subs) (i := a + ts.length) (s := a)
        (is := is) (v := v) (o := t.list) (f := f') rfl (by simp) hne2 (by rw [hk]; exact h3)
      simpa [ATree.list, lists_eq] using this
  | inSub a ts n is v t t' hne hg hp ih =>
    have hn := (List.getElem?_eq_some_iff.mp hg).1
    cases hf with
    | nil => simp at hn
    | cons _ _ subs _ h1 h2 =>
      obtain ⟨f', h3, h4⟩ := ih (h1 n t hg)
      refine ⟨.node (some a) (dSet (a + n) f' subs), ?_, infoOk_set hn h1 h2 h4⟩
      have := setL_inside (l := ts.map ATree.list) (start := some a) (subs := subs) (i := a + n) (s := a)
        (is := is) (v := v) (o := t'.list) (f := f') (u := t.list) (n := n) rfl (by simp)
        (by simp [hg]) hne h3
      simpa [ATree.list, lists_eq, List.map_set] using this

theorem runD_puts {t : ATree} {ws : List AWrite} {t' : ATree} (h : Puts t ws t') : runD ws t.dict = .ok t'.dict := by
  induction h with
  | nil => rfl
  | cons hp _ ih => simp only [runD, dicSet_put hp]; exact ih

theorem runL_puts {t : ATree} {ws : List AWrite} {t' : ATree} (h : Puts t ws t') {f : Info} (hf : InfoOk t f) :
    ∃ f', runL ws (t.list, f) = .ok (t'.list, f') ∧ InfoOk t' f' := by
  induction h generalizing f with
  | nil => exact ⟨f, rfl, hf⟩
  | cons hp _ ih =>
    obtain ⟨f1, h1, h2⟩ := setL_put hp hf
    obtain ⟨f2, h3, h4⟩ := ih h2
    refine ⟨f2, ?_, h4⟩
    simp only [runL, h1]
    exact h3

theorem foldl_min (l : List Int) (a : Int) : (l.foldl min a ∈ a :: l) ∧ ∀ k ∈ a :: l, l.foldl min a ≤ k := by
  induction l generalizing a with
  | nil => simp
  | cons b l ih =>
    obtain ⟨h1, h2⟩ := ih (min a b)
    simp only [List.foldl_cons]
    refine ⟨?_, ?_⟩
    · rcases List.mem_cons.mp h1 with h | h
      · rcases min_choice a b with h' | h' <;> rw [h'] at h ⊢ <;> rw [h] <;> simp
      · simp [h]
    · intro k hk
      have h3 := h2 (min a b) (by simp)
      simp only [List.mem_cons] at hk
      rcases hk with rfl | rfl | hk
      · exact h3.trans (min_le_left _ _)
      · exact h3.trans (min_le_right _ _)
      · exact h2 k (by simp [hk])

theorem foldl_max (l : List Int) (a : Int) : (l.foldl max a ∈ a :: l) ∧ ∀ k ∈ a :: l, k ≤ l.foldl max a := by
  induction l generalizing a with
  | nil => simp
  | cons b l ih =>
    obtain ⟨h1, h2⟩ := ih (max a b)
    simp only [List.foldl_cons]
    refine ⟨?_, ?_⟩
    · rcases List.mem_cons.mp h1 with h | h
      · rcases max_choice a b with h' | h' <;> rw [h'] at h ⊢ <;> rw [h] <;> simp
      · simp [h]
    · intro k hk
      have h3 := h2 (max a b) (by simp)
      simp only [List.mem_cons] at hk
      rcases hk with rfl | rfl | hk
      · exact (le_max_left _ _).trans h3
      · exact (le_max_right _ _).trans h3
      · exact h2 k (by simp [hk])

theorem minKey_eq {ks : List Int} {a : Int} (h1 : a ∈ ks) (h2 : ∀ k ∈ ks, a ≤ k) : minKey ks = some a := by
  cases ks with
  | nil => simp at h1
  | cons b l =>
    have h := foldl_min l b
    simp only [minKey, Option.some.injEq]
    exact le_antisymm (h.2 a h1) (h2 _ h.1)

theorem maxKey_eq {ks : List Int} {a : Int} (h1 : a ∈ ks) (h2 : ∀ k ∈ ks, k ≤ a) : maxKey ks = some a := by
  cases ks with
  | nil => simp at h1
  | cons b l =>
    have h := foldl_max l b
    simp only [maxKey, Option.some.injEq]
    exact le_antisymm (h2 _ h.1) (h.2 a h1)

/-- the dictionary of lists inside, after the conversion of the values -/
def midD : Int → List ATree → List (PKey × Obj)
  | _, [] => []
  | a, t :: ts => (.int a, t.list) :: midD (a + 1) ts

theorem midD_keys (a : Int) (ts : List ATree) :
    (dKeys (midD a ts)).mapM PKey.int? = some ((List.range ts.length).map fun i : Nat => a + (i : Int)) := by
  induction ts generalizing a with
  | nil => rfl
  | cons t ts ih =>
    have := ih (a + 1)
    simp only [dKeys] at this
    simp only [midD, dKeys, List.map_cons, List.mapM_cons, PKey.int?, this, List.length_cons,
      List.range_succ_eq_map, List.map_map]
    simp only [Option.pure_def, Option.bind_eq_bind, Option.bind_some, Nat.cast_zero, add_zero, Option.some.injEq,
      List.cons.injEq, true_and]
    apply List.map_congr_left
    intro i _
    simp only [Function.comp]
    push_cast
    ring

theorem midD_get (a : Int) (ts : List ATree) (n : Nat) :
    dGet (.int (a + n)) (midD a ts) = (ts[n]?).map ATree.list := by
  induction ts generalizing a n with
  | nil => simp [midD, dGet]
  | cons t ts ih =>
    simp only [midD, dGet]
    cases n with
    | zero => simp
    | succ n =>
      rw [if_neg (by simp only [PKey.int.injEq]; push_cast; omega)]
      have := ih (a + 1) n
      rw [show a + ((n + 1 : Nat) : Int) = a + 1 + (n : Int) by push_cast; ring, this]
      simp

theorem idxList_midD (a : Int) (ts : List ATree) (h : ts ≠ []) :
    idxList (midD a ts) ((List.range ts.length).map fun i : Nat => a + (i : Int)) = .ok (ts.map ATree.list) := by
  have hl : 0 < ts.length := List.length_pos_iff.mpr h
  have h1 : minKey ((List.range ts.length).map fun i : Nat => a + (i : Int)) = some a :=
    minKey_eq (List.mem_map.mpr ⟨0, List.mem_range.mpr hl, by simp⟩)
      (by intro k hk; obtain ⟨i, _, rfl⟩ := List.mem_map.mp hk; omega)
  have h2 : maxKey ((List.range ts.length).map fun i : Nat => a + (i : Int)) = some (a + (ts.length - 1 : Nat)) :=
    maxKey_eq (List.mem_map.mpr ⟨ts.length - 1, List.mem_range.mpr (by omega), rfl⟩)
      (by intro k hk; obtain ⟨i, hi, rfl⟩ := List.mem_map.mp hk; have := List.mem_range.mp hi; omega)
  simp only [idxList, h1, h2, Except.ok.injEq]
  have h3 : (a + ((ts.length - 1 : Nat) : Int) + 1 - a).toNat = ts.length := by omega
  rw [h3]
  apply List.ext_getElem?
  intro n
  by_cases hn : n < ts.length
  · simp [midD_get, hn]
  · simp [hn, List.getElem?_eq_none (not_lt.mp hn)]

mutual
theorem adlO_tree (t : ATree) (h : APlain t) : adlO t.dict = .ok t.list := by
  match t with
  | .leaf v =>
    cases h with
    | leaf h => cases v <;> first | rfl | exact absurd rfl (h _)
  | .arr a ts =>
    cases h with
    | arr hne h =>
      simp only [ATree.dict, adlO, adlD_trees a ts h, bind, Except.bind]
      rw [midD_keys]
      simp only [idxList_midD a ts hne, ATree.list, lists_eq]
      rfl
theorem adlD_trees (a : Int) (ts : List ATree) (h : ∀ t ∈ ts, APlain t) : adlD (ATree.dicts a ts) = .ok (midD a ts) := by
  match ts with
  | [] => rfl
  | t :: ts =>
    simp only [ATree.dicts, adlD, adlO_tree t (h t (by simp)), bind, Except.bind,
      adlD_trees (a + 1) ts (fun u hu => h u (by simp [hu])), midD]
    rfl
end

theorem dicGet_sub {t : ATree} {is : List Int} {u : ATree} (h : ASub t is u) : dicGet is t.dict = .ok u.dict := by
  induction h with
  | nil => rfl
  | cons hg _ ih =>
    simp only [ATree.dict, dicGet, dGet_dicts, hg, Option.map_some]
    exact ih

theorem getL_sub {t : ATree} {is : List Int} {u : ATree} (h : ASub t is u) {f : Info} (hf : InfoOk t f) :
    (getL (t.list, f) is).1 = .ok u.list := by
  induction h generalizing f with
  | nil => rfl
  | @cons a ts n t is u hg _ ih =>
    have hn := (List.getElem?_eq_some_iff.mp hg).1
    cases hf with
    | nil => simp at hn
    | cons _ _ subs _ h1 h2 =>
      have := ih (h1 n t hg)
      simp only [getL] at this
      simp only [getL, shiftIdx, Option.getD_some, ATree.list, lists_eq, lstGet, List.length_map]
      rw [if_pos (by omega)]
      have e : (a + (n : Int) - a).toNat = n := by omega
      rw [e]
      simpa [List.getD, hg] using this

/-! ## The property -/

/-- C41: Let the elements of an array be assigned in an order in which indices ascend at each level: each index was
visited before or is the first or the next one of its range. Then reading with `array_type="dict"` gives some array
`t`, with `array_type="list_slow"` (first part of the second line) and with `array_type="list"` (second part) the
lists of the same elements with indices starting at zero at each level, and looking elements up with the indices
of the recipe during the run gives the same elements.
Not covered: arrays with sections inside together with a run of the interpreter. -/
theorem C41_partial {ws : List AWrite} {t : ATree} (h : Puts (.arr 0 []) ws t) :
    runD ws (.dic []) = .ok t.dict ∧
    (∃ f, runL ws (.lst [], Info.empty) = .ok (t.list, f) ∧
      ∀ is u, ASub t is u → dicGet is t.dict = .ok u.dict ∧ (getL (t.list, f) is).1 = .ok u.list) ∧
    (APlain t → adlO t.dict = .ok t.list) := by
  obtain ⟨f, h1, h2⟩ := runL_puts h (InfoOk.nil 0)
  exact ⟨runD_puts h, ⟨f, h1, fun is u hs => ⟨dicGet_sub hs, getL_sub hs h2⟩⟩, adlO_tree t⟩

/-- gaps: for a dictionary with integer keys and plain values, the list of `array_type="list"` has an element for each
index between the smallest and the largest, `None` where the dictionary has none -/
theorem C41_gaps {d : Dict PKey Obj} {ks : List Int} (hk : dKeys d = ks.map PKey.int) (hp : ∀ x ∈ d, ∀ e, x.2 ≠ .dic e)
    {a b : Int} (ha : a ∈ ks) (hb : b ∈ ks) (hr : ∀ k ∈ ks, a ≤ k ∧ k ≤ b) :
    ∃ l, adlO (.dic d) = .ok (.lst l) ∧ (l.length : Int) = b - a + 1 ∧
      ∀ k, a ≤ k → k ≤ b → l[(k - a).toNat]? = some ((dGet (.int k) d).getD .none) := by
  have h1 : adlD d = .ok d := by
    clear hk
    induction d with
    | nil => rfl
    | cons x d ih =>
      obtain ⟨k, o⟩ := x
      have ho : adlO o = .ok o := by
        have := hp (k, o) (by simp)
        cases o <;> first | rfl | exact absurd rfl (this _)
      simp only [adlD, ho, bind, Except.bind, ih (fun x hx => hp x (by simp [hx]))]
      rfl
  have h2 : (dKeys d).mapM PKey.int? = some ks := by
    rw [hk]
    clear hk ha hb hr
    induction ks with
    | nil => rfl
    | cons k ks ih => simp [List.map_cons, List.mapM_cons, PKey.int?, ih]
  have h3 := minKey_eq ha (fun k hk => (hr k hk).1)
  have h4 := maxKey_eq hb (fun k hk => (hr k hk).2)
  have hab := (hr a ha).2
  refine ⟨(List.range (b + 1 - a).toNat).map fun i : Nat => ((dGet (.int (a + (i : Int))) d).getD .none), ?_, ?_, ?_⟩
  · simp only [adlO, h1, bind, Except.bind, h2, idxList, h3, h4]
    rfl
  · rw [List.length_map, List.length_range]
    omega
  · intro k h5 h6
    rw [List.getElem?_map, List.getElem?_range (by omega)]
    have : a + ((k - a).toNat : Int) = k := by omega
    simp only [Option.map_some, this]

/-- a nested array read row by row with rows starting at different indices -/
example : Puts (.arr 0 []) [([1, 0], .num (.int 7)), ([1, 1], .num (.int 8)), ([2, 3], .num (.int 9)), ([1, 2], .none)]
    (.arr 1 [.arr 0 [.leaf (.num (.int 7)), .leaf (.num (.int 8)), .leaf .none], .arr 3 [.leaf (.num (.int 9))]]) := by
  refine .cons (.firstSub _ _ _ _ _ (by simp) (.first _ _ _)) ?_
  refine .cons (.inSub 1 _ 0 _ _ _ _ (by simp) rfl (.next 0 [.leaf (.num (.int 7))] _ (by simp))) ?_
  refine .cons (.nextSub 1 [_] _ _ _ (by simp) (by simp) (.first _ _ _)) ?_
  refine .cons (.inSub 1 _ 0 _ _ _ _ (by simp) rfl
    (.next 0 [.leaf (.num (.int 7)), .leaf (.num (.int 8))] _ (by simp))) ?_
  exact .nil _

/-- a dictionary with a gap -/
example : ∃ (d : Dict PKey Obj) (ks : List Int), dKeys d = ks.map PKey.int ∧ (∀ x ∈ d, ∀ e, x.2 ≠ .dic e) ∧
    (4 : Int) ∈ ks ∧ (6 : Int) ∈ ks ∧ ∀ k ∈ ks, (4 : Int) ≤ k ∧ k ≤ 6 :=
  ⟨[(.int 6, .num (.int 1)), (.int 4, .num (.int 2))], [6, 4], rfl, by simp, by simp, by simp, by simp⟩

/-- C41 fails for a section without variables, e.g. one with a loop that is not entered: with `array_type="list"`
the whole section cannot be read (ValueError), with `"dict"` it can -/
theorem C41_empty_fails : adlD [(.str ['s'], .dic []), (.str ['N'], .num (.int 0))] = .error .valueError := rfl

/-- the assumption on the order is needed: indices visited in descending order give an array with `"dict"` and an
IndexError with `"list_slow"` -/
theorem C41_descending :
    (match runD [([2], .none), ([1], .none)] (.dic []) with | .ok _ => true | .error _ => false) = true ∧
    (match runL [([2], .none), ([1], .none)] (.lst [], Info.empty) with | .ok _ => true | .error _ => false) = false :=
  ⟨rfl, rfl⟩

end Verif
