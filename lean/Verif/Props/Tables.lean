import Verif.Props.Records
/-
Property theorems C17, C18, C20, C11, C71: tables, line numbers, column layout, data types.
-/
namespace Verif
open Spec

/-- block of integers written by `writeInts`, read by `readNumbers` and converted -/
theorem intBlock_roundtrip (o : WOpts) (r : ROpts) (hr : r.width = o.width) (vs : List Int) (hne : vs ≠ [])
    (hv : ∀ v ∈ vs, FitsInt o.width v) :
    ∃ ls ys, writeInts o vs = .ok ls ∧ ls.length = (vs.length + 5) / 6 ∧
      (∀ l ∈ ls, l.length = 6 * o.width) ∧ toInts ys = vs ∧
      ∀ lines ofs (suffix : Str), StandsAt lines ofs (ls.map (· ++ suffix)) →
        readNumbers r lines vs.length ofs = .ok (ys, ofs + (vs.length + 5) / 6) := by
  obtain ⟨ys, h1, h2⟩ := intFields hr vs hv
  set fs := vs.map fun v => rjust (intStr v) o.width with hfs
  have hfl : fs.length = vs.length := by rw [hfs, List.length_map]
  have hlen : ∀ f ∈ fs, f.length = o.width := by
    intro f hf
    rw [hfs, List.mem_map] at hf
    obtain ⟨v, hv', rfl⟩ := hf
    exact rjust_length_le (hv v hv')
  have hfne : fs ≠ [] := by intro e; rw [e] at hfl; simp at hfl; exact hne (List.length_eq_zero_iff.1 hfl.symm)
  obtain ⟨ls, g1, g2, g3, g4⟩ := padLast_fields o.width fs hfne hlen
  refine ⟨ls, ys, by rw [writeInts_fields]; exact g1, by rw [g3, hfl], ?_, h2, ?_⟩
  · intro l hl; rw [g4 l hl, Nat.mul_comm]
  · intro lines ofs suf hst
    rw [← hfl]
    have := readNumbers_written (r := r) (ofs := ofs) (ys := ys) (by rw [hr]; exact hlen) g2 hst h1
    rw [this, g3]

/-! ## C18 TAB2 records -/

/-- C18, for at least one interpolation region.  Missing: zero regions, where writing fails
(`C18_fails`). -/
theorem C18_partial (o : WOpts) (r : ROpts) (hr : r.width = o.width) (c1 c2 y1 y2 : Num)
    (h1 : Field o r c1 y1) (h2 : Field o r c2 y2) (l1 l2 n2 : Int) (n1 : Slot) (hl1 : FitsInt o.width l1)
    (hl2 : FitsInt o.width l2) (hn2 : FitsInt o.width n2) (c : Ctrl) (hc : FitsCtrl c.mat c.mf c.mt)
    (nbt int : List Int) (hne : nbt ≠ []) (hlen : nbt.length = int.length) (hn1 : FitsInt o.width nbt.length)
    (hb : ∀ v ∈ nbt, FitsInt o.width v) (hi : ∀ v ∈ int, FitsInt o.width v) :
    ∃ recs, writeTab2 o ⟨⟨c1, c2, .int l1, .int l2, n1, .int n2, c⟩, nbt, int⟩ = .ok recs ∧
      recs.length = 1 + (2 * nbt.length + 5) / 6 ∧ (∀ l ∈ recs, l.length = 6 * o.width + 9) ∧
      ∀ lines ofs, StandsAt lines ofs recs →
        readTab2 r lines ofs =
          .ok (⟨⟨y1, y2, .int l1, .int l2, .int nbt.length, .int n2, c⟩, nbt, int⟩, ofs + recs.length) := by
  obtain ⟨hline, a1, a2, a3⟩ := C12_cont_fields o r hr c1 c2 y1 y2 h1 h2 l1 l2 nbt.length n2 hl1 hl2 hn1 hn2 c hc
  have hil := interleave_length nbt int hlen
  have hine : interleave nbt int ≠ [] := by
    intro e; rw [e] at hil; simp at hil; exact hne hil
  obtain ⟨ls, ys, b1, b2, b3, b4, b5⟩ := intBlock_roundtrip o r hr (interleave nbt int) hine (by
    intro v hv
    rcases interleave_mem _ _ hv with h | h
    · exact hb v h
    · exact hi v h)
  rw [hil] at b2 b5
  refine ⟨[hline] ++ ls.map (· ++ writeCtrl c), ?_, ?_, ?_, ?_⟩
  · unfold writeTab2
    simp only [hlen, ne_eq, not_true_eq_false, if_false, bind, Except.bind]
    rw [← hlen]
    simp only [a1, b1]
    rfl
  · rw [List.length_append, List.length_map, b2, List.length_singleton]
  · intro l hl
    rw [List.mem_append, List.mem_singleton, List.mem_map] at hl
    rcases hl with rfl | ⟨l', hl', rfl⟩
    · exact a2
    · rw [List.length_append, b3 l' hl', (writeCtrl_length_iff c).2 hc]
  · intro lines ofs hst
    have s1 := a3 lines ofs (StandsAt.append hst).1
    have s2 := b5 lines (ofs + 1) (writeCtrl c) (by simpa using (StandsAt.append hst).2)
    unfold readTab2
    simp only [s1, bind, Except.bind, slotVal]
    have e1 : (2 * (nbt.length : Int)).toNat = 2 * nbt.length := by omega
    have e2 : ofs + ([hline] ++ ls.map (· ++ writeCtrl c)).length = ofs + 1 + (2 * nbt.length + 5) / 6 := by
      rw [List.length_append, List.length_map, b2, List.length_singleton]; omega
    simp only [e1, s2, b4, interleave_evens _ _ hlen, interleave_odds _ _ hlen, e2]
    rfl

/-- C18 fails for zero regions: such a record can be read, but writing raises IndexError
(unless the header already fails). -/
theorem C18_fails : (∀ (o : WOpts) (h : ContRec) recs, writeTab2 o ⟨h, [], []⟩ ≠ .ok recs) ∧
    ∃ (x : Tab2Rec) (lines : List Str), readTab2 {} lines 0 = .ok (x, 1) ∧ writeTab2 {} x = .error .indexError := by
  constructor
  · intro o h recs
    unfold writeTab2
    simp only [ne_eq, not_true_eq_false, if_false, bind, Except.bind, interleave]
    split
    · simp
    · rw [(C19_empty_fails o).2.1]; simp
  · refine ⟨⟨⟨.flt 0, .flt 0, .int 0, .int 0, .int 0, .int 3, ⟨125, 5, 18⟩⟩, [], []⟩,
      [" 0.000000+0 0.000000+0          0          0          0          3 125 5 18".toList], ?_, ?_⟩ <;>
    decide +kernel

example : (writeTab2 {} ⟨⟨.flt 1, .flt 2, .int 0, .int 0, .int 99, .int 5, ⟨125, 4, 2⟩⟩, [2, 5], [1, 2]⟩).bind
    (fun ls => readTab2 {} (ls ++ ["x".toList]) 0) =
    .ok (⟨⟨.flt 1, .flt 2, .int 0, .int 0, .int 2, .int 5, ⟨125, 4, 2⟩⟩, [2, 5], [1, 2]⟩, 2) := by decide +kernel

/-! ## C17 TAB1 records -/

/-- C17, for at least one region and one point.  Missing: zero regions or points, where writing fails
(`C17_fails`). -/
theorem C17_partial (o : WOpts) (r : ROpts) (hr : r.width = o.width) (c1 c2 y1 y2 : Num)
    (h1 : Field o r c1 y1) (h2 : Field o r c2 y2) (l1 l2 : Int) (n1 n2 : Slot) (hl1 : FitsInt o.width l1)
    (hl2 : FitsInt o.width l2) (c : Ctrl) (hc : FitsCtrl c.mat c.mf c.mt)
    (nbt int : List Int) (hne : nbt ≠ []) (hlen : nbt.length = int.length) (hn1 : FitsInt o.width nbt.length)
    (hb : ∀ v ∈ nbt, FitsInt o.width v) (hi : ∀ v ∈ int, FitsInt o.width v)
    (xs ys xs' ys' : List Num) (hxne : xs ≠ []) (hxy : xs.length = ys.length) (hn2 : FitsInt o.width xs.length)
    (hx : List.Forall₂ (Field o r) xs xs') (hy : List.Forall₂ (Field o r) ys ys') :
    ∃ recs, writeTab1 o ⟨⟨c1, c2, .int l1, .int l2, n1, n2, c⟩, nbt, int, xs, ys⟩ = .ok recs ∧
      recs.length = 1 + (2 * nbt.length + 5) / 6 + (2 * xs.length + 5) / 6 ∧
      (∀ l ∈ recs, l.length = 6 * o.width + 9) ∧
      ∀ lines ofs, StandsAt lines ofs recs →
        readTab1 r lines ofs =
          .ok (⟨⟨y1, y2, .int l1, .int l2, .int nbt.length, .int xs.length, c⟩, nbt, int, xs', ys'⟩,
            ofs + recs.length) := by
  obtain ⟨hline, a1, a2, a3⟩ := C12_cont_fields o r hr c1 c2 y1 y2 h1 h2 l1 l2 nbt.length xs.length hl1 hl2 hn1 hn2 c hc
  have hil := interleave_length nbt int hlen
  have hxl := interleave_length xs ys hxy
  have hine : interleave nbt int ≠ [] := by
    intro e; rw [e] at hil; simp at hil; exact hne hil
  have hxine : interleave xs ys ≠ [] := by
    intro e; rw [e] at hxl; simp at hxl; exact hxne hxl
  obtain ⟨ls, iv, b1, b2, b3, b4, b5⟩ := intBlock_roundtrip o r hr (interleave nbt int) hine (by
    intro v hv
    rcases interleave_mem _ _ hv with h | h
    · exact hb v h
    · exact hi v h)
  obtain ⟨ms, d1, d2, d3, d4⟩ := C19_block_roundtrip o r hr _ _ hxine (interleave_forall₂ hx hy)
  rw [hil] at b2 b5
  rw [hxl] at d2 d4
  have hxy' : xs'.length = ys'.length := by rw [← hx.length_eq, hxy, hy.length_eq]
  refine ⟨[hline] ++ (ls ++ ms).map (· ++ writeCtrl c), ?_, ?_, ?_, ?_⟩
  · unfold writeTab1
    simp only [a1, bind, Except.bind, b1, d1]
    rw [if_neg (by rintro (h | h) <;> omega)]
    rfl
  · rw [List.length_append, List.length_map, List.length_append, b2, d2, List.length_singleton]; omega
  · intro l hl
    rw [List.mem_append, List.mem_singleton, List.mem_map] at hl
    rcases hl with rfl | ⟨l', hl', rfl⟩
    · exact a2
    · have : l'.length = 6 * o.width := by
        rcases List.mem_append.1 hl' with h | h
        · exact b3 l' h
        · exact d3 l' h
      rw [List.length_append, this, (writeCtrl_length_iff c).2 hc]
  · intro lines ofs hst
    have s1 := a3 lines ofs (StandsAt.append hst).1
    have st2 := (StandsAt.append hst).2
    rw [List.map_append] at st2
    have s2 := b5 lines (ofs + 1) (writeCtrl c) (by simpa using (StandsAt.append st2).1)
    have s3 := d4 lines (ofs + 1 + (2 * nbt.length + 5) / 6) (writeCtrl c) (by
      have := (StandsAt.append st2).2
      rw [List.length_map, b2] at this
      simpa using this)
    unfold readTab1
    simp only [s1, bind, Except.bind, slotVal]
    have e1 : (2 * (nbt.length : Int)).toNat = 2 * nbt.length := by omega
    have e1' : (2 * (xs.length : Int)).toNat = 2 * xs.length := by omega
    have e2 : ofs + ([hline] ++ (ls ++ ms).map (· ++ writeCtrl c)).length =
        ofs + 1 + (2 * nbt.length + 5) / 6 + (2 * xs.length + 5) / 6 := by
      rw [List.length_append, List.length_map, List.length_append, b2, d2, List.length_singleton]; omega
    simp only [e1, e1', s2, s3, b4, interleave_evens _ _ hlen, interleave_odds _ _ hlen,
      interleave_evens _ _ hxy', interleave_odds _ _ hxy', e2]
    rfl

/-- C17 for plain numbers in range: the hypotheses of `C17_partial` on the fields are always met. -/
theorem C17_inRange_partial (o : WOpts) (hw : 9 ≤ o.width) (r : ROpts) (hr : r.width = o.width) (v1 v2 : ℚ)
    (hv1 : InRange v1) (hv2 : InRange v2) (l1 l2 : Int) (n1 n2 : Slot) (hl1 : FitsInt o.width l1)
    (hl2 : FitsInt o.width l2) (c : Ctrl) (hc : FitsCtrl c.mat c.mf c.mt)
    (nbt int : List Int) (hne : nbt ≠ []) (hlen : nbt.length = int.length) (hn1 : FitsInt o.width nbt.length)
    (hb : ∀ v ∈ nbt, FitsInt o.width v) (hi : ∀ v ∈ int, FitsInt o.width v)
    (xs ys : List ℚ) (hxne : xs ≠ []) (hxy : xs.length = ys.length) (hn2 : FitsInt o.width xs.length)
    (hx : ∀ v ∈ xs, InRange v) (hy : ∀ v ∈ ys, InRange v) :
    ∃ recs y1 y2 xs' ys', writeTab1 o ⟨⟨.flt v1, .flt v2, .int l1, .int l2, n1, n2, c⟩, nbt, int,
        xs.map .flt, ys.map .flt⟩ = .ok recs ∧
      Field o r (.flt v1) y1 ∧ Field o r (.flt v2) y2 ∧ List.Forall₂ (Field o r) (xs.map .flt) xs' ∧
      List.Forall₂ (Field o r) (ys.map .flt) ys' ∧
      ∀ lines ofs, StandsAt lines ofs recs →
        readTab1 r lines ofs =
          .ok (⟨⟨y1, y2, .int l1, .int l2, .int nbt.length, .int xs.length, c⟩, nbt, int, xs', ys'⟩,
            ofs + recs.length) := by
  obtain ⟨y1, h1⟩ := Field.of_inRange hw hr hv1
  obtain ⟨y2, h2⟩ := Field.of_inRange hw hr hv2
  obtain ⟨xs', h3⟩ := Field.list_of_inRange hw hr xs hx
  obtain ⟨ys', h4⟩ := Field.list_of_inRange hw hr ys hy
  obtain ⟨recs, a, _, _, b⟩ := C17_partial o r hr _ _ y1 y2 h1 h2 l1 l2 n1 n2 hl1 hl2 c hc nbt int hne hlen hn1 hb hi
    _ _ xs' ys' (by simpa using hxne) (by simpa using hxy) (by simpa using hn2) h3 h4
  simp only [List.length_map] at b
  exact ⟨recs, y1, y2, xs', ys', a, h1, h2, h3, h4, b⟩

/-- C17 fails for zero regions or zero points: the record can be read, but never be written. -/
theorem C17_fails :
    (∀ (o : WOpts) (h : ContRec) nbt int xs ys recs, nbt = [] ∨ xs = [] →
      writeTab1 o ⟨h, nbt, int, xs, ys⟩ ≠ .ok recs) ∧
    ∃ (x : Tab1Rec) (lines : List Str), readTab1 {} lines 0 = .ok (x, 2) ∧ x.xs = [] ∧
      writeTab1 {} x = .error .indexError := by
  constructor
  · intro o h nbt int xs ys recs hcase
    unfold writeTab1
    simp only [bind, Except.bind]
    split
    · simp
    · split
      · simp
      · rename_i hl
        push Not at hl
        rcases hcase with rfl | rfl
        · have : int = [] := List.length_eq_zero_iff.1 hl.1.symm
          subst this
          simp only [interleave, (C19_empty_fails o).2.1]
          simp
        · have : ys = [] := List.length_eq_zero_iff.1 hl.2.symm
          subst this
          simp only [interleave, (C19_empty_fails o).1]
          split <;> simp
  · refine ⟨⟨⟨.flt 0, .flt 0, .int 0, .int 0, .int 1, .int 0, ⟨125, 3, 18⟩⟩, [0], [2], [], []⟩,
      [" 0.000000+0 0.000000+0          0          0          1          0 125 3 18".toList,
       "          0          2                                             125 3 18".toList], ?_, rfl, ?_⟩ <;>
    decide +kernel

example : (writeTab1 {} ⟨⟨.flt 1, .flt 2, .int 0, .int 0, .int 99, .int 5, ⟨125, 3, 2⟩⟩, [4], [2],
      [.flt 1, .flt 2, .flt 3, .flt 4], [.flt 5, .flt 6, .flt 7, .flt 8]⟩).bind
    (fun ls => readTab1 {} (ls ++ ["x".toList]) 0) =
    .ok (⟨⟨.flt 1, .flt 2, .int 0, .int 0, .int 1, .int 4, ⟨125, 3, 2⟩⟩, [4], [2],
      [.flt 1, .flt 2, .flt 3, .flt 4], [.flt 5, .flt 6, .flt 7, .flt 8]⟩, 4) := by decide +kernel

/-! ## C20 line numbers -/

/-- C20: the line with index `i` of a section (MF ≠ 0) keeps its first 75 (`6 * width + 9`) columns and gets
the number `i mod 99999 + 1`, right adjusted in five columns. -/
theorem C20_linenumbers (o : WOpts) (ho : o.includeLinenum = true) (lines : List Str) (c : Ctrl) (l0 : Str)
    (h0 : lines[0]? = some l0) (hc : readCtrl o.width l0 = .ok c) (hmf : c.mf ≠ 0) :
    ∃ out, addLinenumbers o lines = .ok out ∧ out.length = lines.length ∧
      ∀ i l, lines[i]? = some l → ∃ num, out[i]? = some (l.take (6 * o.width + 9) ++ num) ∧ num.length = 5 ∧
        pyInt num = some ((i % 99999 + 1 : Nat) : Int) := by
  have hl0 : lineAt lines 0 = .ok l0 := by unfold lineAt; rw [h0]
  refine ⟨(lines.map (·.take (o.width * 6 + 9))).mapIdx
    fun i l => l ++ rjust (natStr (i % (10 ^ 5 - 1) + 1)) 5, ?_, ?_, ?_⟩
  · unfold addLinenumbers
    simp only [hl0, hc, bind, Except.bind, ho, Bool.not_true, if_neg Bool.false_ne_true, hmf, ne_eq,
      not_false_eq_true, if_true]
    rfl
  · simp
  · intro i l hl
    refine ⟨rjust (natStr (i % (10^5 - 1) + 1)) 5, ?_, ?_, ?_⟩
    · rw [List.getElem?_mapIdx, List.getElem?_map, hl, Nat.mul_comm]; rfl
    · apply rjust_length_le
      apply (natStr_length_le 4 _).2
      have : i % 99999 < 99999 := Nat.mod_lt _ (by norm_num)
      norm_num; omega
    · have := pyInt_intStr_rjust ((i % (10^5 - 1) + 1 : Nat) : Int) 5
      exact this

/-- C20: without line numbers exactly the first 75 columns remain; a tape head (MF = 0) is numbered from 0. -/
theorem C20_no_linenumbers (o : WOpts) (lines : List Str) (c : Ctrl) (l0 : Str)
    (h0 : lines[0]? = some l0) (hc : readCtrl o.width l0 = .ok c) :
    (o.includeLinenum = false → addLinenumbers o lines = .ok (lines.map (·.take (6 * o.width + 9)))) ∧
    (o.includeLinenum = true → c.mf = 0 → lines = [l0] →
      addLinenumbers o lines = .ok [l0.take (6 * o.width + 9) ++ "    0".toList]) := by
  have hl0 : lineAt lines 0 = .ok l0 := by unfold lineAt; rw [h0]
  constructor
  · intro ho
    unfold addLinenumbers
    simp only [hl0, hc, bind, Except.bind, ho, Bool.not_false, if_true, Nat.mul_comm]
    rfl
  · intro ho hmf hs
    subst hs
    unfold addLinenumbers
    simp only [hl0, hc, bind, Except.bind, ho, Bool.not_true, if_neg Bool.false_ne_true, hmf, ne_eq,
      not_true_eq_false, if_false, Nat.mul_comm]
    rfl

example : addLinenumbers {} (List.replicate 3 (blanks 66 ++ "2631 3102  old number".toList)) =
    .ok [blanks 66 ++ "2631 3102    1".toList, blanks 66 ++ "2631 3102    2".toList,
      blanks 66 ++ "2631 3102    3".toList] := by decide +kernel

/-! ## C11 column layout -/

/-- C11: all record writers, applied to contents that fit their fields, produce lines of exactly
66 + 9 (`6 * width + 9`) columns; `C12_end_records` covers the end records, and `C11_numbered` the lines
after numbering. -/
theorem C11_columns (o : WOpts) (hw : 11 ≤ o.width) (c : Ctrl) (hc : FitsCtrl c.mat c.mf c.mt) (l : Str) :
    -- TEXT
    (∀ hl : Str, hl.length ≤ 6 * o.width → l ∈ writeText o ⟨hl, c⟩ → l.length = 6 * o.width + 9) ∧
    -- DIR
    (∀ l1 l2 n1 n2, FitsInt o.width l1 → FitsInt o.width l2 → FitsInt o.width n1 → FitsInt o.width n2 →
      l ∈ writeDir o ⟨l1, l2, n1, n2, c⟩ → l.length = 6 * o.width + 9) ∧
    -- INTG, with the number of elements that the format allows
    (∀ (nd : Nat) ii jj kij, 2 ≤ nd → nd ≤ 6 → FitsInt 5 ii → FitsInt 5 jj → kij.length ≤ intgSlots nd →
      (∀ k ∈ kij, FitsInt (nd + 1) k) → l ∈ writeIntg o nd ⟨ii, jj, kij, c⟩ → l.length = 6 * o.width + 9) ∧
    -- CONT
    (∀ v1 v2 l1 l2 n1 n2 ls, InRange v1 → InRange v2 → FitsInt o.width l1 → FitsInt o.width l2 →
      FitsInt o.width n1 → FitsInt o.width n2 →
      writeCont o ⟨.flt v1, .flt v2, .int l1, .int l2, .int n1, .int n2, c⟩ = .ok ls → l ∈ ls →
      l.length = 6 * o.width + 9) ∧
    -- LIST
    (∀ v1 v2 l1 l2 n2 ls (vs : List ℚ), InRange v1 → InRange v2 → FitsInt o.width l1 → FitsInt o.width l2 →
      FitsInt o.width n2 → FitsInt o.width vs.length → (∀ v ∈ vs, InRange v) →
      writeList o ⟨⟨.flt v1, .flt v2, .int l1, .int l2, .int vs.length, .int n2, c⟩, vs.map .flt⟩ = .ok ls → l ∈ ls →
      l.length = 6 * o.width + 9) ∧
    -- TAB2
    (∀ v1 v2 l1 l2 n1 n2 nbt int ls, InRange v1 → InRange v2 → FitsInt o.width l1 → FitsInt o.width l2 →
      FitsInt o.width n2 → FitsInt o.width (nbt.length : Nat) → (∀ v ∈ nbt, FitsInt o.width v) →
      (∀ v ∈ int, FitsInt o.width v) →
      writeTab2 o ⟨⟨.flt v1, .flt v2, .int l1, .int l2, n1, .int n2, c⟩, nbt, int⟩ = .ok ls → l ∈ ls →
      l.length = 6 * o.width + 9) ∧
    -- TAB1
    (∀ v1 v2 l1 l2 n1 n2 nbt int (xs ys : List ℚ) ls, InRange v1 → InRange v2 → FitsInt o.width l1 →
      FitsInt o.width l2 → FitsInt o.width (nbt.length : Nat) → (∀ v ∈ nbt, FitsInt o.width v) →
      (∀ v ∈ int, FitsInt o.width v) → FitsInt o.width (xs.length : Nat) → (∀ v ∈ xs, InRange v) →
      (∀ v ∈ ys, InRange v) →
      writeTab1 o ⟨⟨.flt v1, .flt v2, .int l1, .int l2, n1, n2, c⟩, nbt, int, xs.map .flt, ys.map .flt⟩ = .ok ls →
      l ∈ ls → l.length = 6 * o.width + 9) := by
  have hw9 : 9 ≤ o.width := by omega
  let r : ROpts := { width := o.width }
  have hr : r.width = o.width := rfl
  refine ⟨?_, ?_, ?_, ?_, ?_, ?_, ?_⟩
  · intro hl h hm
    obtain ⟨line, e, h2, _⟩ := C13_text_roundtrip o r hr hl h c hc
    rw [e, List.mem_singleton] at hm; rw [hm]; exact h2
  · intro l1 l2 n1 n2 g1 g2 g3 g4 hm
    obtain ⟨line, e, h2, _⟩ := C14_dir_roundtrip o r hr l1 l2 n1 n2 g1 g2 g3 g4 c hc
    rw [e, List.mem_singleton] at hm; rw [hm]; exact h2
  · intro nd ii jj kij a1 a2 g1 g2 hk hf hm
    unfold writeIntg at hm
    rw [List.mem_singleton] at hm
    have hnat : ((nd : Int) + 1).toNat = nd + 1 := by omega
    have e1 := rjust_length_le g1
    have e2 := rjust_length_le g2
    have hfl := flatten_length (w := nd + 1) (kij.map fun k => rjust (intStr k) (nd + 1)) (by
      intro f hfm
      rw [List.mem_map] at hfm
      obtain ⟨k, hk, rfl⟩ := hfm
      exact rjust_length_le (hf k hk))
    rw [List.length_map] at hfl
    rw [hm, List.length_append, (writeCtrl_length_iff c).2 hc, ljust_length]
    simp only [hnat, List.length_append, e1, e2]
    rw [hfl]
    have hb : (if (nd : Int) = 6 then ([] : Str) else [' ']).length + kij.length * (nd + 1) ≤ 56 := by
      have hmul := Nat.mul_le_mul_right (nd + 1) hk
      have : nd = 2 ∨ nd = 3 ∨ nd = 4 ∨ nd = 5 ∨ nd = 6 := by omega
      rcases this with rfl | rfl | rfl | rfl | rfl <;> simp [intgSlots] at hmul ⊢ <;> omega
    omega
  · intro v1 v2 l1 l2 n1 n2 ls g1 g2 g3 g4 g5 g6 hls hm
    obtain ⟨y1, h1⟩ := Field.of_inRange hw9 hr g1
    obtain ⟨y2, h2⟩ := Field.of_inRange hw9 hr g2
    obtain ⟨line, e, h3, _⟩ := C12_cont_fields o r hr _ _ y1 y2 h1 h2 l1 l2 n1 n2 g3 g4 g5 g6 c hc
    rw [e] at hls; cases hls
    rw [List.mem_singleton] at hm; rw [hm]; exact h3
  · intro v1 v2 l1 l2 n2 ls vs g1 g2 g3 g4 g5 g6 g7 hls hm
    obtain ⟨y1, h1⟩ := Field.of_inRange hw9 hr g1
    obtain ⟨y2, h2⟩ := Field.of_inRange hw9 hr g2
    obtain ⟨ys, h3⟩ := Field.list_of_inRange hw9 hr vs g7
    obtain ⟨recs, e, _, h4, _⟩ := C16_list_fields o hw9 r hr _ _ y1 y2 h1 h2 l1 l2 n2 g3 g4 g5 c hc (vs.map .flt) ys
      (by simpa using g6) h3
    rw [List.length_map] at e
    rw [e] at hls; cases hls
    exact h4 l hm
  · intro v1 v2 l1 l2 n1 n2 nbt int ls g1 g2 g3 g4 g5 g6 g7 g8 hls hm
    obtain ⟨y1, h1⟩ := Field.of_inRange hw9 hr g1
    obtain ⟨y2, h2⟩ := Field.of_inRange hw9 hr g2
    have hle : nbt.length = int.length := by
      by_contra hc'
      unfold writeTab2 at hls
      rw [if_pos hc'] at hls; cases hls
    have hne : nbt ≠ [] := by
      intro hn
      subst hn
      have : int = [] := List.length_eq_zero_iff.1 hle.symm
      subst this
      exact C18_fails.1 o _ _ hls
    obtain ⟨recs, e, _, h4, _⟩ := C18_partial o r hr _ _ y1 y2 h1 h2 l1 l2 n2 n1 g3 g4 g5 c hc nbt int hne hle g6 g7 g8
    rw [e] at hls; cases hls
    exact h4 l hm
  · intro v1 v2 l1 l2 n1 n2 nbt int xs ys ls g1 g2 g3 g4 g5 g6 g7 g8 g9 g10 hls hm
    obtain ⟨y1, h1⟩ := Field.of_inRange hw9 hr g1
    obtain ⟨y2, h2⟩ := Field.of_inRange hw9 hr g2
    obtain ⟨xs', h3⟩ := Field.list_of_inRange hw9 hr xs g9
    obtain ⟨ys', h5⟩ := Field.list_of_inRange hw9 hr ys g10
    have hle : nbt.length = int.length ∧ xs.length = ys.length := by
      by_contra hc'
      unfold writeTab1 at hls
      simp only [bind, Except.bind] at hls
      split at hls
      · cases hls
      · rw [if_pos (by simp only [List.length_map]; omega)] at hls; cases hls
    have hne : nbt ≠ [] := fun hn => C17_fails.1 o _ _ _ _ _ _ (Or.inl hn) hls
    have hxne : xs.map Num.flt ≠ [] := fun hn => C17_fails.1 o _ _ _ _ _ _ (Or.inr hn) hls
    obtain ⟨recs, e, _, h4, _⟩ := C17_partial o r hr _ _ y1 y2 h1 h2 l1 l2 n1 n2 g3 g4 c hc nbt int hne hle.1 g5 g6 g7
      _ _ xs' ys' hxne (by simpa using hle.2) (by simpa using g8) h3 h5
    rw [e] at hls; cases hls
    exact h4 l hm

/-- C11: lines of at least 75 columns have exactly 80 columns after numbering (75 without numbers). -/
theorem C11_numbered (o : WOpts) (lines : List Str) (c : Ctrl) (l0 : Str) (h0 : lines[0]? = some l0)
    (hc : readCtrl o.width l0 = .ok c) (hmf : c.mf ≠ 0) (hlen : ∀ l ∈ lines, 6 * o.width + 9 ≤ l.length)
    (out : List Str) (hout : addLinenumbers o lines = .ok out) (l : Str) (hl : l ∈ out) :
    l.length = 6 * o.width + 9 + (if o.includeLinenum then 5 else 0) := by
  cases ho : o.includeLinenum with
  | false =>
    rw [(C20_no_linenumbers o lines c l0 h0 hc).1 ho] at hout
    cases hout
    rw [List.mem_map] at hl
    obtain ⟨k, hk, rfl⟩ := hl
    rw [List.length_take]
    have := hlen k hk
    simp; omega
  | true =>
    obtain ⟨out', e, hl', h2⟩ := C20_linenumbers o ho lines c l0 h0 hc hmf
    rw [e] at hout; cases hout
    obtain ⟨i, hi, rfl⟩ := List.getElem_of_mem hl
    obtain ⟨num, g1, g2, _⟩ := h2 i (lines[i]'(by omega)) (List.getElem?_eq_getElem _)
    rw [List.getElem?_eq_getElem hi] at g1
    rw [Option.some.inj g1, List.length_append, List.length_take, g2]
    have := hlen (lines[i]'(by omega)) (List.getElem_mem _)
    simp; omega

/-! ## C71 strict_datatypes -/

/-- C71: with `strict_datatypes` a non-integer object in any of the four integer slots makes the CONT writer
fail; without it an integral number is written like the integer and any other number is refused. -/
theorem C71_strict_datatypes (o : WOpts) (v : ℚ) :
    (o.strictDatatypes = true → slotInt o (.flt v) = .error .invalidInteger) ∧
    (o.strictDatatypes = false → (∀ n : Int, v = n → slotInt o (.flt v) = slotInt o (.int n)) ∧
      ((¬ ∃ n : Int, v = n) → slotInt o (.flt v) = .error .invalidInteger)) := by
  refine ⟨?_, ?_⟩
  · intro h; unfold slotInt; dsimp only; rw [if_pos (Or.inr h)]
  · intro h
    refine ⟨?_, ?_⟩
    · rintro n rfl
      unfold slotInt
      simp [truncRat_int, h]
    · intro hn
      unfold slotInt
      dsimp only
      rw [if_pos]
      left
      intro e
      exact hn ⟨truncRat v, e.symm⟩

/-- C71: consequence for the whole record, in each slot. -/
theorem C71_cont_rejects (o : WOpts) (ho : o.strictDatatypes = true) (x : ContRec) (v : ℚ)
    (h : x.l1 = .flt v ∨ x.l2 = .flt v ∨ x.n1 = .flt v ∨ x.n2 = .flt v) :
    writeCont o x = .error .invalidInteger := by
  have hs : ∀ s : Slot, (∃ n, slotInt o s = .ok n ∧ s = .int n) ∨ slotInt o s = .error .invalidInteger := by
    intro s
    cases s with
    | int n => exact Or.inl ⟨n, rfl, rfl⟩
    | flt v => exact Or.inr ((C71_strict_datatypes o v).1 ho)
  unfold writeCont
  simp only [bind, Except.bind]
  rcases hs x.l1 with ⟨a, e1, f1⟩ | e1
  · rcases hs x.l2 with ⟨b, e2, f2⟩ | e2
    · rcases hs x.n1 with ⟨c, e3, f3⟩ | e3
      · rcases hs x.n2 with ⟨d, e4, f4⟩ | e4
        · rw [f1, f2, f3, f4] at h; simp at h
        · simp only [e1, e2, e3, e4]
      · simp only [e1, e2, e3]
    · simp only [e1, e2]
  · simp only [e1]

example : slotInt { strictDatatypes := false } (.flt 3) = .ok 3 ∧
    slotInt { strictDatatypes := false } (.flt (1/2)) = .error .invalidInteger := by decide +kernel

end Verif
