import Verif.Spec.Lines
import Verif.Spec.CppWriteOk
import Verif.Props.CppVec
import Verif.Props.CppTapeWrite
/-
Lines written by the generated functions: texts in the columns.
-/
namespace Verif
open Verif.Spec

/-! ### columns -/

theorem slice_get? {s : Str} {a b k : Nat} : (slice s a b)[k]? = if a + k < b then s[a + k]? else none := by
  unfold slice
  rw [List.getElem?_drop]
  split
  · rename_i h; rw [List.getElem?_take_of_lt h]
  · rename_i h; rw [List.getElem?_eq_none (by simp; omega)]

theorem putField_get? {l f : Str} {j : Nat} (hf : f.length = 11) (hj : j < 6) (hl : 66 ≤ l.length) (n : Nat) :
    (putField l j f)[n]? = if n < 11 * j then l[n]? else if n < 11 * j + 11 then f[n - 11 * j]? else l[n]? := by
  unfold putField
  have ht : (l.take (11 * j)).length = 11 * j := by rw [List.length_take]; omega
  rw [List.append_assoc, List.getElem?_append, ht]
  split
  · rename_i h; rw [List.getElem?_take_of_lt h]
  · rename_i h
    rw [List.getElem?_append, hf]
    by_cases h2 : n < 11 * j + 11
    · rw [if_pos (by omega), if_pos h2]
    · rw [if_neg (by omega), if_neg h2, List.getElem?_drop]
      congr 1; omega

theorem putField_slice {l f : Str} {j : Nat} (hf : f.length = 11) (hj : j < 6) (hl : 66 ≤ l.length) {i : Nat} :
    slice (putField l j f) (11 * i) (11 * i + 11) = if i = j then f else slice l (11 * i) (11 * i + 11) := by
  apply List.ext_getElem?
  intro k
  rw [slice_get?, putField_get? hf hj hl]
  by_cases hij : i = j
  · rw [if_pos hij]
    subst hij
    by_cases hk : 11 * i + k < 11 * i + 11
    · rw [if_pos hk, if_neg (by omega), if_pos hk]
      congr 1; omega
    · rw [if_neg hk, List.getElem?_eq_none (by omega)]
  · rw [if_neg hij, slice_get?]
    by_cases hk : 11 * i + k < 11 * i + 11
    · rw [if_pos hk, if_pos hk]
      by_cases h1 : 11 * i + k < 11 * j
      · rw [if_pos h1]
      · rw [if_neg h1, if_neg (by omega)]
    · rw [if_neg hk, if_neg hk]

theorem slice_of_drop {l l' : Str} (h : l'.drop 66 = l.drop 66) : slice l' 66 75 = slice l 66 75 := by
  unfold slice
  rw [List.drop_take, List.drop_take, h]

/-- a blank field -/
def blank11 : Str := blanks 11

theorem prepare_form {c : Ctrl} (hc : FitsCtrl c.mat c.mf c.mt) (num : Bool) (k : Int) :
    ∃ t, (cppPrepareLine num c k).1 = List.replicate 66 ' ' ++ (writeCtrl c ++ t) := by
  have f1 : (intStr c.mat).length ≤ 4 := by
    rw [C02_fits_iff c.mat 2]
    have := hc.1; norm_num; omega
  have f2 : (intStr c.mf).length ≤ 2 := by
    rw [C02_fits_iff c.mf 0]
    have := hc.2.1; norm_num; omega
  have f3 : (intStr c.mt).length ≤ 3 := by
    rw [C02_fits_iff c.mt 1]
    have := hc.2.2; norm_num; omega
  have l1 : (rjust (intStr c.mat) 4).length = 4 := rjust_length_le f1
  have l2 : (rjust (intStr c.mf) 2).length = 2 := rjust_length_le f2
  have l3 : (rjust (intStr c.mt) 3).length = 3 := rjust_length_le f3
  have key : ∀ M, 75 ≤ M → cppIntField (cppIntField (cppIntField (List.replicate M ' ') 66 4 c.mat) 70 2 c.mf) 72 3 c.mt =
      (List.replicate 66 ' ' ++ writeCtrl c) ++ List.replicate (M - 75) ' ' := by
    intro M hM
    have e0 : List.replicate M ' ' = List.replicate 66 ' ' ++ (List.replicate 4 ' ' ++ (List.replicate 2 ' ' ++ (List.replicate 3 ' ' ++ List.replicate (M - 75) ' '))) := by
      rw [List.replicate_append_replicate, List.replicate_append_replicate, List.replicate_append_replicate, List.replicate_append_replicate]
      congr 1; omega
    rw [e0, intField_mid (by simp) (by simp), ← List.append_assoc, intField_mid (by simp [l1]) (by simp), ← List.append_assoc,
      intField_mid (by simp [l1, l2]) (by simp)]
    unfold writeCtrl
    simp only [List.append_assoc]
  have hlen : (List.replicate 66 ' ' ++ writeCtrl c).length = 75 := by
    rw [List.length_append, (writeCtrl_length_iff c).2 hc]; simp
  unfold cppPrepareLine
  dsimp only
  cases num with
  | false =>
    simp only [Bool.false_eq_true, if_false]
    rw [key 75 (by omega)]
    exact ⟨_, by rw [List.append_assoc]⟩
  | true =>
    simp only [if_true]
    rw [key 80 (by omega)]
    unfold cppIntField
    rw [List.take_left' hlen, List.drop_of_length_le (by rw [List.length_append, hlen]; simp)]
    exact ⟨rjust (intStr (Int.tmod k 99999 + 1)) 5, by simp only [List.append_assoc, List.append_nil]⟩

/-- a prepared line: blank fields and the control numbers -/
theorem prepare_slices {c : Ctrl} (hc : FitsCtrl c.mat c.mf c.mt) (num : Bool) (k : Int) :
    75 ≤ (cppPrepareLine num c k).1.length ∧ slice (cppPrepareLine num c k).1 66 75 = writeCtrl c ∧
    ∀ i < 6, slice (cppPrepareLine num c k).1 (11 * i) (11 * i + 11) = blank11 := by
  obtain ⟨t, ht⟩ := prepare_form hc num k
  have h9 := (writeCtrl_length_iff c).2 hc
  rw [ht]
  refine ⟨by simp [h9], ?_, fun i hi => ?_⟩
  · rw [← List.append_assoc]
    exact slice_mid _ _ _ _ _ (by simp) (by simp [h9])
  · have : List.replicate 66 ' ' = (List.replicate 6 blank11).flatten := by decide
    rw [this]
    have := slice_fields 11 (List.replicate 6 blank11) (by intro f hf; rw [List.eq_of_mem_replicate hf]; rfl) (writeCtrl c ++ t) i blank11
      (by rw [List.getElem?_replicate, if_pos hi])
    rwa [Nat.mul_comm i 11] at this

/-! ### fields of the first line -/

theorem putAll_slices (o : WOpts) (pres : Bool) (fs : Dict Nat Val) (js : List Nat) : ∀ l : Str, (∀ j ∈ js, j < 6) → js.Nodup →
    (∀ j ∈ js, ∀ v, dGet j fs = some v → ∃ t, fieldText o pres j v = some t ∧ t.length = 11) → 75 ≤ l.length →
    ∃ l', putAll o pres fs js l = some l' ∧ l'.drop 66 = l.drop 66 ∧ 75 ≤ l'.length ∧
      (∀ i, i ∉ js → slice l' (11 * i) (11 * i + 11) = slice l (11 * i) (11 * i + 11)) ∧
      (∀ i ∈ js, dGet i fs = none → slice l' (11 * i) (11 * i + 11) = slice l (11 * i) (11 * i + 11)) ∧
      ∀ i ∈ js, ∀ v, dGet i fs = some v → fieldText o pres i v = some (slice l' (11 * i) (11 * i + 11)) := by
  induction js with
  | nil => intro l _ _ _ hl; exact ⟨l, rfl, rfl, hl, fun _ _ => rfl, fun i hi => absurd hi (by simp), fun i hi => absurd hi (by simp)⟩
  | cons j js ih =>
    intro l h6 hnd ht hl
    have hj6 : j < 6 := h6 j (by simp)
    rw [List.nodup_cons] at hnd
    cases hg : dGet j fs with
    | none =>
      obtain ⟨l', a1, a2, a3, a4, a5, a6⟩ := ih l (fun i hi => h6 i (by simp [hi])) hnd.2 (fun i hi => ht i (by simp [hi])) hl
      refine ⟨l', by rw [putAll, hg]; exact a1, a2, a3, fun i hi => a4 i (fun hc => hi (by simp [hc])), fun i hi hn => ?_, fun i hi v hv => ?_⟩
      · rcases List.mem_cons.1 hi with rfl | hi
        · exact a4 _ hnd.1
        · exact a5 i hi hn
      · rcases List.mem_cons.1 hi with rfl | hi
        · rw [hg] at hv; cases hv
        · exact a6 i hi v hv
    | some v =>
      obtain ⟨t, ht1, ht2⟩ := ht j (by simp) v hg
      have hlen := putField_length ht2 hj6 hl
      obtain ⟨l', a1, a2, a3, a4, a5, a6⟩ := ih (putField l j t) (fun i hi => h6 i (by simp [hi])) hnd.2 (fun i hi => ht i (by simp [hi])) (by omega)
      have hsl : ∀ i, i ≠ j → slice (putField l j t) (11 * i) (11 * i + 11) = slice l (11 * i) (11 * i + 11) := by
        intro i hij
        rw [putField_slice ht2 hj6 (by omega), if_neg hij]
      refine ⟨l', by rw [putAll, hg]; dsimp only; rw [ht1]; exact a1, by rw [a2, putField_drop ht2 hj6 hl], a3,
        fun i hi => ?_, fun i hi hn => ?_, fun i hi w hw => ?_⟩
      · rw [a4 i (fun hc => hi (by simp [hc])), hsl i (by rintro rfl; exact hi (by simp))]
      · rcases List.mem_cons.1 hi with rfl | hi
        · rw [hg] at hn; cases hn
        · rw [a5 i hi hn, hsl i (fun e => hnd.1 (e ▸ hi))]
      · rcases List.mem_cons.1 hi with rfl | hi
        · rw [hg] at hw; cases hw
          rw [a4 _ hnd.1, putField_slice ht2 hj6 (by omega), if_pos rfl, ht1]
        · exact a6 i hi w hw

/-- the first line of a record -/
theorem headLine_slices (o : WOpts) (pres : Bool) {c : Ctrl} (hc : FitsCtrl c.mat c.mf c.mt) (fs : Dict Nat Val) (ln : Int)
    (ht : ∀ j < 6, ∀ v, dGet j fs = some v → ∃ t, fieldText o pres j v = some t ∧ t.length = 11) :
    ∃ l ln', headLine o pres c fs ln = some (l, ln') ∧ slice l 66 75 = writeCtrl c ∧
      (∀ i < 6, dGet i fs = none → slice l (11 * i) (11 * i + 11) = blank11) ∧
      ∀ i < 6, ∀ v, dGet i fs = some v → fieldText o pres i v = some (slice l (11 * i) (11 * i + 11)) := by
  obtain ⟨p1, p2, p3⟩ := prepare_slices hc o.includeLinenum ln
  have hm : ∀ i, i < 6 → i ∈ [0, 1, 2, 3, 4, 5] := by intro i hi; interval_cases i <;> simp
  have hm' : ∀ i ∈ [0, 1, 2, 3, 4, 5], i < 6 := by intro i hi; simp at hi; omega
  obtain ⟨l', a1, a2, a3, a4, a5, a6⟩ := putAll_slices o pres fs [0, 1, 2, 3, 4, 5] (cppPrepareLine o.includeLinenum c ln).1
    hm' (by decide) (fun j hj => ht j (hm' j hj)) p1
  refine ⟨l', (cppPrepareLine o.includeLinenum c ln).2, ?_, by rw [slice_of_drop a2, p2], fun i hi hn => by rw [a5 i (hm i hi) hn, p3 i hi],
    fun i hi v hv => a6 i (hm i hi) v hv⟩
  unfold headLine
  dsimp only
  rw [a1]
  rfl

/-! ### bodies -/

/-- a line with these texts in its fields; the others are blank -/
def Shows (c : Ctrl) (ts : List Str) (l : Str) : Prop :=
  slice l 66 75 = writeCtrl c ∧ ∀ i < 6, slice l (11 * i) (11 * i + 11) = (ts[i]?).getD blank11

theorem fillLoop_shows (num : Bool) {c : Ctrl} (hc : FitsCtrl c.mat c.mf c.mt) (fs : List Str) : ∀ (j : Nat) (cur : Str) (ln : Int),
    (∀ f ∈ fs, f.length = 11) → fs ≠ [] → j < 6 → 75 ≤ cur.length → ∃ l0 ls ln', cppFillLoop num c fs j cur ln = (l0 :: ls, ln') ∧
      l0.drop 66 = cur.drop 66 ∧
      (∀ i < 6, slice l0 (11 * i) (11 * i + 11) = if i < j then slice cur (11 * i) (11 * i + 11) else
        (fs[i - j]?).getD (slice cur (11 * i) (11 * i + 11))) ∧
      List.Forall₂ (Shows c) (chunks6 (fs.drop (6 - j))) ls := by
  induction fs with
  | nil => intro j cur ln _ h; exact absurd rfl h
  | cons f fs ih =>
    intro j cur ln hf _ hj hcur
    have hfl : f.length = 11 := hf f (by simp)
    have q3 := putField_drop hfl hj hcur
    have q4 := putField_length hfl hj hcur
    have qs : ∀ i, slice (putField cur j f) (11 * i) (11 * i + 11) = if i = j then f else slice cur (11 * i) (11 * i + 11) :=
      fun i => putField_slice hfl hj (by omega)
    rw [cppFillLoop]
    dsimp only
    by_cases hne : fs = []
    · subst hne
      rw [if_neg (by simp), cppFillLoop]
      refine ⟨_, [], ln, rfl, q3, fun i hi => ?_, ?_⟩
      · rw [qs]
        by_cases hij : i = j
        · subst hij; rw [if_pos rfl, if_neg (by omega), Nat.sub_self]; rfl
        · rw [if_neg hij]
          split
          · rfl
          · rw [List.getElem?_eq_none (by simp; omega)]; rfl
      · rw [List.drop_of_length_le (by simp; omega), chunks6_nil]; exact .nil
    · by_cases hj5 : j = 5
      · subst hj5
        rw [if_pos ⟨by omega, hne⟩]
        obtain ⟨p1, p2, p3⟩ := prepare_slices hc num ln
        obtain ⟨l1, ls1, ln1, e1, e2, e3, e4⟩ := ih 0 (cppPrepareLine num c ln).1 (cppPrepareLine num c ln).2 (fun g hg => hf g (by simp [hg]))
          hne (by omega) p1
        refine ⟨_, l1 :: ls1, ln1, by rw [e1], q3, fun i hi => ?_, ?_⟩
        · rw [qs]
          by_cases hij : i = 5
          · subst hij; rfl
          · rw [if_neg hij, if_pos (by omega)]
        · rw [show (f :: fs).drop (6 - 5) = fs from rfl, chunks6_ne hne]
          refine .cons ⟨by rw [slice_of_drop e2, p2], fun i hi => ?_⟩ (by simpa using e4)
          rw [e3 i hi, if_neg (by omega), p3 i hi, List.getElem?_take_of_lt hi]
          rfl
      · rw [if_neg (by omega)]
        obtain ⟨l0, ls, ln', e1, e2, e3, e4⟩ := ih (j + 1) (putField cur j f) ln (fun g hg => hf g (by simp [hg])) hne (by omega) (by omega)
        refine ⟨l0, ls, ln', e1, by rw [e2, q3], fun i hi => ?_, ?_⟩
        · rw [e3 i hi]
          by_cases h1 : i < j
          · rw [if_pos (by omega), if_pos h1, qs, if_neg (by omega)]
          · rw [if_neg h1]
            by_cases h2 : i = j
            · subst h2; rw [if_pos (by omega), qs, if_pos rfl, Nat.sub_self]; rfl
            · rw [if_neg (by omega), qs, if_neg h2, show i - j = (i - (j + 1)) + 1 by omega, List.getElem?_cons_succ]
        · rw [show 6 - j = (6 - (j + 1)) + 1 by omega, List.drop_succ_cons]
          exact e4

theorem fill_shows (num : Bool) {c : Ctrl} (hc : FitsCtrl c.mat c.mf c.mt) {fs : List Str} (hf : ∀ f ∈ fs, f.length = 11) (hne : fs ≠ [])
    (ln : Int) : List.Forall₂ (Shows c) (chunks6 fs) (cppFill num c fs ln).1 := by
  obtain ⟨p1, p2, p3⟩ := prepare_slices hc num ln
  obtain ⟨l0, ls, ln', e1, e2, e3, e4⟩ := fillLoop_shows num hc fs 0 (cppPrepareLine num c ln).1 (cppPrepareLine num c ln).2 hf hne (by omega) p1
  unfold cppFill
  dsimp only
  rw [e1, chunks6_ne hne]
  refine .cons ⟨by rw [slice_of_drop e2, p2], fun i hi => ?_⟩ (by simpa using e4)
  rw [e3 i hi, if_neg (by omega), p3 i hi, List.getElem?_take_of_lt hi]
  rfl

/-! ### bodies of the interpreter -/

theorem padLast_map (w : Nat) : ∀ ls : List Str, ls ≠ [] → (∀ l ∈ ls.dropLast, l.length = w) → padLast w ls = .ok (ls.map (ljust · w)) := by
  intro ls
  induction ls with
  | nil => intro h; exact absurd rfl h
  | cons a l ih =>
    intro _ h
    cases l with
    | nil => rfl
    | cons b l =>
      have ha : a.length = w := h a (by simp [List.dropLast])
      rw [padLast, ih (by simp) (fun y hy => h y (by rw [List.dropLast_cons_of_ne_nil (by simp)]; simp [hy])), List.map_cons]
      · have : ljust a w = a := by unfold ljust; rw [ha]; simp
        rw [List.map_cons, List.map_cons, this]; rfl
      · simp

theorem ljust_fields {ts : List Str} (h : ∀ t ∈ ts, t.length = 11) (hl : ts.length ≤ 6) :
    ljust ts.flatten 66 = (ts ++ List.replicate (6 - ts.length) blank11).flatten := by
  unfold ljust
  rw [flatten_length ts h, List.flatten_append]
  congr 1
  generalize hn : 6 - ts.length = n
  have : 66 - ts.length * 11 = n * 11 := by omega
  rw [this]
  clear hn this
  induction n with
  | zero => rfl
  | succ n ih =>
    rw [List.replicate_succ, List.flatten_cons, ← ih, show (n + 1) * 11 = 11 + n * 11 by ring, ← List.replicate_append_replicate]
    rfl

/-- the lines made of texts by the interpreter -/
theorem body_shows {c : Ctrl} (hc : FitsCtrl c.mat c.mf c.mt) {fs : List Str} (hf : ∀ f ∈ fs, f.length = 11) {ls : List Str}
    (h : padLast 66 ((chunks6 fs).map List.flatten) = .ok ls) : fs ≠ [] ∧ List.Forall₂ (Shows c) (chunks6 fs) (ls.map (· ++ writeCtrl c)) := by
  have hne : fs ≠ [] := by
    rintro rfl
    rw [chunks6_nil] at h
    cases h
  refine ⟨hne, ?_⟩
  have hb := chunks6_bounds fs
  rw [padLast_map 66 _ (by rw [chunks6_ne hne]; simp)] at h
  · cases h
    rw [List.map_map, List.map_map, List.forall₂_map_right_iff, List.forall₂_same]
    intro ts hts
    have h1 : ∀ t ∈ ts, t.length = 11 := fun t ht => hf t ((hb.2 ts hts).2 t ht)
    have h2 : ts.length ≤ 6 := (hb.2 ts hts).1
    simp only [Function.comp]
    rw [ljust_fields h1 h2]
    have h3 : ∀ t ∈ ts ++ List.replicate (6 - ts.length) blank11, t.length = 11 := by
      intro t ht
      rcases List.mem_append.1 ht with h | h
      · exact h1 t h
      · rw [List.eq_of_mem_replicate h]; rfl
    have hlen : (ts ++ List.replicate (6 - ts.length) blank11).flatten.length = 66 := by
      rw [flatten_length _ h3]; simp; omega
    refine ⟨?_, fun i hi => ?_⟩
    · have := slice_mid (ts ++ List.replicate (6 - ts.length) blank11).flatten (writeCtrl c) [] 66 75 hlen.symm
        (by rw [hlen, (writeCtrl_length_iff c).2 hc])
      rwa [List.append_nil] at this
    · have := slice_fields 11 _ h3 (writeCtrl c) i ((ts[i]?).getD blank11) (by
        by_cases h4 : i < ts.length
        · rw [List.getElem?_append_left h4, List.getElem?_eq_getElem h4]; rfl
        · rw [List.getElem?_append_right (by omega), List.getElem?_replicate, if_pos (by omega), List.getElem?_eq_none (by omega)]; rfl)
      rwa [Nat.mul_comm i 11] at this
  · intro l hl
    rw [← List.map_dropLast, List.mem_map] at hl
    obtain ⟨ts, hts, rfl⟩ := hl
    rw [flatten_length ts (fun t ht => hf t ((hb.2 ts (List.mem_of_mem_dropLast hts)).2 t ht)), hb.1 ts hts]

end Verif
