import Verif.Lemmas.Records
/-
Property theorems C10 - C20: records.
Specification vocabulary: `Spec.StandsAt` (texts standing in consecutive lines of a file),
`Spec.FitsInt`, `Spec.FitsCtrl`, and `Field o r x y` ("a reader makes `y` of the field written for
`x`", characterised by C05-C09).
-/
namespace Verif
open Spec

/-! ## C10 control numbers -/

/-- C10: control numbers in range are read back behind every 66 column body (`6 * w` columns),
whatever follows in the line. -/
theorem C10_ctrl_roundtrip (w : Nat) (body : Str) (hb : body.length = 6 * w) (mat mf mt : Int)
    (hc : FitsCtrl mat mf mt) (tail : Str) :
    readCtrl w (body ++ writeCtrl ⟨mat, mf, mt⟩ ++ tail) = .ok ⟨mat, mf, mt⟩ :=
  readCtrl_writeCtrl w body hb ⟨mat, mf, mt⟩ hc tail

/-- C10: nine columns are written iff the numbers are in range; otherwise more. -/
theorem C10_ctrl_width (mat mf mt : Int) :
    ((writeCtrl ⟨mat, mf, mt⟩).length = 9 ↔ FitsCtrl mat mf mt) ∧
    (¬ FitsCtrl mat mf mt → 9 < (writeCtrl ⟨mat, mf, mt⟩).length) := by
  have h1 := writeCtrl_length_iff ⟨mat, mf, mt⟩
  have h2 := writeCtrl_length_le ⟨mat, mf, mt⟩
  refine ⟨h1, fun hn => ?_⟩
  rcases Nat.lt_or_ge 9 (writeCtrl ⟨mat, mf, mt⟩).length with h | h
  · exact h
  · exact absurd (h1.1 (by omega)) hn

/-- C10: a control field is blank (value zero) or holds a number -/
def CtrlField (k : Nat) (s : Str) (n : Int) : Prop :=
  s.length = k ∧ ((n = 0 ∧ ∀ c ∈ s, isWs c = true) ∨ (FitsInt k n ∧ s = rjust (intStr n) k))

theorem readCtrlNum_field {k : Nat} {s : Str} {n : Int} (h : CtrlField k s n) : readCtrlNum s = .ok n := by
  rcases h with ⟨_, ⟨rfl, h⟩ | ⟨_, rfl⟩⟩
  · unfold readCtrlNum
    rw [(strip_eq_nil_iff s).2 h]
    simp
  · unfold readCtrlNum
    have h1 : strip (rjust (intStr n) k) = intStr n := strip_rjust (intStr_noWs n) k
    have h2 : intStr n ≠ [] := intStr_ne_nil n
    have h3 : pyInt (intStr n) = some n := by simpa [rjust] using pyInt_intStr_rjust n 0
    simp [h1, h2, h3]

/-- C10: blank control fields count as zero, independently for MAT, MF and MT, whatever stands in the other columns. -/
theorem C10_blank_is_zero (w : Nat) (body a b c tail : Str) (hb : body.length = 6 * w) (mat mf mt : Int)
    (h1 : CtrlField 4 a mat) (h2 : CtrlField 2 b mf) (h3 : CtrlField 3 c mt) :
    readCtrl w (body ++ a ++ b ++ c ++ tail) = .ok ⟨mat, mf, mt⟩ := by
  have l1 := h1.1
  have l2 := h2.1
  have l3 := h3.1
  have e1 : slice (body ++ a ++ b ++ c ++ tail) (6*w) (6*w+4) = a := by
    have := slice_mid body a (b ++ c ++ tail) (6*w) (6*w+4) (by omega) (by omega)
    simpa only [List.append_assoc] using this
  have e2 : slice (body ++ a ++ b ++ c ++ tail) (6*w+4) (6*w+6) = b := by
    have := slice_mid (body ++ a) b (c ++ tail) (6*w+4) (6*w+6) (by simp; omega) (by simp; omega)
    simpa only [List.append_assoc] using this
  have e3 : slice (body ++ a ++ b ++ c ++ tail) (6*w+6) (6*w+9) = c := by
    have := slice_mid (body ++ a ++ b) c tail (6*w+6) (6*w+9) (by simp; omega) (by simp; omega)
    simpa only [List.append_assoc] using this
  unfold readCtrl
  simp only [e1, e2, e3, readCtrlNum_field h1, readCtrlNum_field h2, readCtrlNum_field h3, bind, Except.bind]
  rfl

/-- C10: a line without control columns has the control numbers zero. -/
theorem C10_short_is_zero (w : Nat) (l : Str) (h : l.length ≤ 6 * w) : readCtrl w l = .ok ⟨0, 0, 0⟩ := by
  have e : ∀ i j, 6 * w ≤ i → slice l i j = [] := by
    intro i j hi
    unfold slice
    rw [List.drop_eq_nil_iff, List.length_take]
    omega
  unfold readCtrl
  simp only [e _ _ (le_refl _), e (6*w+4) _ (by omega), e (6*w+6) _ (by omega)]
  rfl

example : CtrlField 4 (blanks 4) 0 ∧ CtrlField 2 " 3".toList 3 ∧ CtrlField 3 "102".toList 102 :=
  ⟨⟨by decide, Or.inl ⟨rfl, by decide⟩⟩, ⟨by decide, Or.inr ⟨by unfold FitsInt; decide, by decide +kernel⟩⟩,
    ⟨by decide, Or.inr ⟨by unfold FitsInt; decide, by decide +kernel⟩⟩⟩

example : FitsCtrl (-1) 3 102 := by unfold FitsCtrl; omega
/-- out of range: MAT = 12345 is not read back -/
example : readCtrl 11 (blanks 66 ++ writeCtrl ⟨12345, 3, 102⟩) = .ok ⟨1234, 5, 310⟩ := by decide +kernel
example : readCtrl 11 (blanks 66 ++ writeCtrl ⟨12345, 13, 102⟩) = .ok ⟨1234, 51, 310⟩ := by decide +kernel

/-! ## C12 CONT records -/

/-- C12 (general form): integers unchanged, floats as their fields are read. -/
theorem C12_cont_fields (o : WOpts) (r : ROpts) (hr : r.width = o.width) (c1 c2 y1 y2 : Num)
    (h1 : Field o r c1 y1) (h2 : Field o r c2 y2) (l1 l2 n1 n2 : Int) (hl1 : FitsInt o.width l1)
    (hl2 : FitsInt o.width l2) (hn1 : FitsInt o.width n1) (hn2 : FitsInt o.width n2) (c : Ctrl)
    (hc : FitsCtrl c.mat c.mf c.mt) :
    ∃ line, writeCont o ⟨c1, c2, .int l1, .int l2, .int n1, .int n2, c⟩ = .ok [line] ∧
      line.length = 6 * o.width + 9 ∧
      ∀ lines ofs, StandsAt lines ofs [line] →
        readCont r lines ofs = .ok (⟨y1, y2, .int l1, .int l2, .int n1, .int n2, c⟩, ofs + 1) := by
  obtain ⟨s1, a1, b1, d1⟩ := h1
  obtain ⟨s2, a2, b2, d2⟩ := h2
  refine ⟨_, writeCont_eq (c := ⟨c1, c2, .int l1, .int l2, .int n1, .int n2, c⟩) rfl rfl rfl rfl a1 a2, ?_, ?_⟩
  · have e1 := rjust_length_le hl1
    have e2 := rjust_length_le hl2
    have e3 := rjust_length_le hn1
    have e4 := rjust_length_le hn2
    have e5 := (writeCtrl_length_iff c).2 hc
    simp only [List.length_append, b1, b2, e1, e2, e3, e4, e5]
    omega
  · intro lines ofs hst
    obtain ⟨t, ht⟩ := StandsAt.head hst
    rw [← hr] at ht hl1 hl2 hn1 hn2 b1 b2
    exact readCont_line b1 b2 d1 d2 hl1 hl2 hn1 hn2 hc ht

/-- C12: for all numbers in range the CONT record is written in one line and read back: integers and
control numbers unchanged, floats as rounded by the field writer. -/
theorem C12_cont_roundtrip (o : WOpts) (hw : 9 ≤ o.width) (r : ROpts) (hr : r.width = o.width)
    (v1 v2 : ℚ) (hv1 : InRange v1) (hv2 : InRange v2) (l1 l2 n1 n2 : Int) (hl1 : FitsInt o.width l1)
    (hl2 : FitsInt o.width l2) (hn1 : FitsInt o.width n1) (hn2 : FitsInt o.width n2) (c : Ctrl)
    (hc : FitsCtrl c.mat c.mf c.mt) :
    ∃ line y1 y2, writeCont o ⟨.flt v1, .flt v2, .int l1, .int l2, .int n1, .int n2, c⟩ = .ok [line] ∧
      Field o r (.flt v1) y1 ∧ Field o r (.flt v2) y2 ∧
      ∀ lines ofs, StandsAt lines ofs [line] →
        readCont r lines ofs = .ok (⟨y1, y2, .int l1, .int l2, .int n1, .int n2, c⟩, ofs + 1) := by
  obtain ⟨y1, h1⟩ := Field.of_inRange hw hr hv1
  obtain ⟨y2, h2⟩ := Field.of_inRange hw hr hv2
  obtain ⟨line, a, _, b⟩ := C12_cont_fields o r hr _ _ y1 y2 h1 h2 l1 l2 n1 n2 hl1 hl2 hn1 hn2 c hc
  exact ⟨line, y1, y2, a, h1, h2, b⟩

/-- C12: a record read in `preserve_value_strings` mode is written and read back with the very same
field texts. -/
theorem C12_cont_preserve (o : WOpts) (r : ROpts) (v : ℚ) (s : Str)
    (hs : s.length = o.width) (h : readFloat r s = .ok (.endf v s)) :
    Field o r (.endf v s) (.endf v s) :=
  ⟨s, by unfold float2fortstr; simp [hs], hs, h⟩

theorem zeroInt (w : Nat) (hw : 1 ≤ w) : FitsInt w 0 := by
  unfold FitsInt; show 1 ≤ w; exact hw

theorem intStr_zero : intStr 0 = ['0'] := by decide +kernel

/-- zero is written as a field that is read as exactly zero -/
theorem field_zero (o : WOpts) (hw : 9 ≤ o.width) (r : ROpts) (hr : r.width = o.width) (s : Str)
    (hs : float2fortstr o (.flt 0) = .ok s) (y : Num) (hy : readFloat r s = .ok y) : y.val = 0 := by
  obtain ⟨n, hn, _, hlen, hz⟩ := expform_zero o hw 1
  have hes : float2expformstr o 0 = .ok (fieldOf o false 0 n 0) := hz
  have hrd := reads_fieldOf o false 0 n 0 hn
  have hv : signed false (((0:ℕ) : ℚ) * 10 ^ ((0:Int) - n)) = 0 := by simp [signed]
  rw [hv] at hrd
  have key : ∀ y', readFloat r (fieldOf o false 0 n 0) = .ok y' → y'.val = 0 := by
    intro y' hy'
    obtain ⟨x, h1, h2⟩ := hrd (some r.width) r.acceptSpaces r.preserve (by intro m hm; cases hm; omega)
    unfold readFloat at hy'
    rw [h1] at hy'; cases hy'; exact h2
  by_cases hp : o.preferNoexp = true
  · obtain ⟨s2, es, g1, _, g2, g4⟩ := C08_noexp o hw hp 0 (Or.inl rfl)
    rw [hs] at g1; cases g1
    rw [hes] at g2; cases g2
    obtain ⟨x, xe, k1, k2, k3⟩ := g4 r hr
    rw [hy] at k1; cases k1
    rw [key xe k2] at k3
    simpa using k3
  · have hp' : o.preferNoexp = false := by simpa using hp
    have : float2fortstr o (.flt 0) = float2expformstr o 0 := by
      unfold float2fortstr
      simp only [hes, bind, Except.bind, hp', pure, Except.pure, Bool.not_false, if_true]
    rw [this, hes] at hs; cases hs
    exact key y hy

/-- the six zero fields, blank or not, are read as zeros -/
theorem zeroFields_ok (o : WOpts) (hw : 9 ≤ o.width) (zab : Bool) :
    ∃ z i, zeroFields o zab = .ok (z ++ z ++ i ++ i ++ i ++ i) ∧ z.length = o.width ∧ i.length = o.width ∧
      (∀ r : ROpts, r.width = o.width → ∃ y, readFloat r z = .ok y ∧ y.val = 0) ∧ readFortInt i = .ok 0 := by
  cases zab with
  | true =>
    refine ⟨blanks o.width, blanks o.width, rfl, by simp [blanks], by simp [blanks], ?_, ?_⟩
    · intro r hr
      exact C01_blank_float r _ (by intro c hc; simp only [blanks, List.mem_replicate] at hc; rw [hc.2]; rfl)
    · exact C01_blank_int _ (by intro c hc; simp only [blanks, List.mem_replicate] at hc; rw [hc.2]; rfl)
  | false =>
    obtain ⟨s, h1, h2⟩ := C05_float_width o hw 0 (Or.inl rfl)
    refine ⟨s, rjust ['0'] o.width, ?_, h2, ?_, ?_, ?_⟩
    · unfold zeroFields; simp [h1, bind, Except.bind, pure, Except.pure]
    · rw [rjust_length]; simp; omega
    · intro r hr
      obtain ⟨y, hy⟩ := Field.of_inRange (v := 0) hw hr (Or.inl rfl)
      obtain ⟨s', e1, _, e3⟩ := hy
      rw [h1] at e1; cases e1
      exact ⟨y, e3, field_zero o hw r hr s h1 y e3⟩
    · have := (C02_int_roundtrip 0 o.width (zeroInt _ (by omega))).2.1
      rwa [intStr_zero] at this

/-- reading a line made of the six zero fields -/
theorem readCont_zero (o : WOpts) (hw : 9 ≤ o.width) (zab : Bool) (z : Str) (hz : zeroFields o zab = .ok z)
    (r : ROpts) (hr : r.width = o.width) (c : Ctrl) (hc : FitsCtrl c.mat c.mf c.mt) (lines : List Str) (ofs : Nat)
    (t : Str) (hl : lineAt lines ofs = .ok (z ++ writeCtrl c ++ t)) :
    z.length = 6 * o.width ∧ ∃ y1 y2, y1.val = 0 ∧ y2.val = 0 ∧
    readCont r lines ofs = .ok (⟨y1, y2, .int 0, .int 0, .int 0, .int 0, c⟩, ofs + 1) := by
  obtain ⟨zf, i, h1, h2, h3, h4, h5⟩ := zeroFields_ok o hw zab
  rw [hz] at h1; cases h1
  obtain ⟨y, h6, h7⟩ := h4 r hr
  refine ⟨by simp only [List.length_append, h2, h3]; omega, y, y, h7, h7, ?_⟩
  set fs : List Str := [zf, zf, i, i, i, i] with hfs
  have hlen : ∀ f ∈ fs, f.length = r.width := by
    intro f hf
    simp only [hfs, List.mem_cons, List.not_mem_nil, or_false] at hf
    rcases hf with h | h | h | h | h | h <;> subst h <;> omega
  have e : zf ++ zf ++ i ++ i ++ i ++ i ++ writeCtrl c ++ t = fs.flatten ++ (writeCtrl c ++ t) := by
    simp [hfs, List.append_assoc]
  rw [e] at hl
  have hb : fs.flatten.length = 6 * r.width := by rw [flatten_length fs hlen]; simp [hfs]
  have hctrl := readCtrl_writeCtrl r.width fs.flatten hb c hc t
  rw [List.append_assoc] at hctrl
  have gi : ∀ k, k < 4 → intField r.width (fs.flatten ++ (writeCtrl c ++ t)) (k+2) = .ok 0 := by
    intro k hk
    unfold intField
    rw [show (k+2+1) * r.width = (k+2) * r.width + r.width by ring,
      slice_fields r.width fs hlen (writeCtrl c ++ t) (k+2) i (by interval_cases k <;> rfl)]
    exact h5
  have g0 : slice (fs.flatten ++ (writeCtrl c ++ t)) 0 r.width = zf := by
    have := slice_fields r.width fs hlen (writeCtrl c ++ t) 0 zf rfl
    simpa using this
  have g1 : slice (fs.flatten ++ (writeCtrl c ++ t)) r.width (2 * r.width) = zf := by
    have := slice_fields r.width fs hlen (writeCtrl c ++ t) 1 zf rfl
    simpa [two_mul] using this
  unfold readCont
  simp only [hl, bind, Except.bind, g0, g1, h6, hctrl, gi 0 (by omega), gi 1 (by omega), gi 2 (by omega),
    gi 3 (by omega)]
  rfl

/-- C12/C11 (zero_as_blank): SEND, FEND, MEND and TEND lines have 75 columns and five more with line
numbers, and with or without `zero_as_blank` they are read as CONT records with all fields zero and the
right control numbers. -/
theorem C12_end_records (o : WOpts) (hw : 9 ≤ o.width) (zab : Bool) (r : ROpts) (hr : r.width = o.width)
    (mat mf mt : Int) (hc : FitsCtrl mat mf mt) (res : Res (List Str)) (c : Ctrl)
    (hcase : (res, c) ∈ [(writeSend o zab ⟨mat, mf, mt⟩, (⟨mat, mf, 0⟩ : Ctrl)), (writeFend o zab ⟨mat, mf, mt⟩, ⟨mat, 0, 0⟩),
      (writeMend o zab, ⟨0, 0, 0⟩), (writeTend o zab, ⟨-1, 0, 0⟩)]) :
    ∃ line, res = .ok [line] ∧
      line.length = 6 * o.width + 9 + (if o.includeLinenum then 5 else 0) ∧
      ∀ lines ofs, StandsAt lines ofs [line] → ∃ y1 y2, y1.val = 0 ∧ y2.val = 0 ∧
        readSend r lines ofs = .ok (⟨y1, y2, .int 0, .int 0, .int 0, .int 0, c⟩, ofs + 1) := by
  obtain ⟨zf, i, h1, h2, h3, _, _⟩ := zeroFields_ok o hw zab
  have hcf : FitsCtrl c.mat c.mf c.mt ∧ c.mt = 0 ∧ ∃ ns : Str, ns.length = 5 ∧
      res = .ok [zf ++ zf ++ i ++ i ++ i ++ i ++ writeCtrl c ++ (if o.includeLinenum then ns else [])] := by
    simp only [List.mem_cons, List.not_mem_nil, or_false, Prod.mk.injEq] at hcase
    unfold FitsCtrl at hc ⊢
    have r5 : (rjust ['0'] 5).length = 5 := by decide
    rcases hcase with ⟨rfl, rfl⟩ | ⟨rfl, rfl⟩ | ⟨rfl, rfl⟩ | ⟨rfl, rfl⟩
    · exact ⟨by dsimp only; omega, rfl, "99999".toList, by decide, by
        unfold writeSend; simp only [h1, bind, Except.bind]; rfl⟩
    · exact ⟨by dsimp only; omega, rfl, _, r5, by
        unfold writeFend; simp only [h1, bind, Except.bind]; rfl⟩
    · exact ⟨by dsimp only; omega, rfl, _, r5, by
        unfold writeMend; simp only [h1, bind, Except.bind]; rfl⟩
    · exact ⟨by dsimp only; omega, rfl, _, r5, by
        unfold writeTend; simp only [h1, bind, Except.bind]; rfl⟩
  obtain ⟨hf, hmt, ns, hns, hres⟩ := hcf
  refine ⟨_, hres, ?_, ?_⟩
  · have := (writeCtrl_length_iff c).2 hf
    simp only [List.length_append, h2, h3, this]
    split <;> simp [hns] <;> omega
  · intro lines ofs hst
    obtain ⟨t, ht⟩ := StandsAt.head hst
    obtain ⟨_, y1, y2, e1, e2, e3⟩ := readCont_zero o hw zab _ h1 r hr c hf lines ofs
      ((if o.includeLinenum then ns else []) ++ t) (by rw [ht]; simp [List.append_assoc])
    refine ⟨y1, y2, e1, e2, ?_⟩
    unfold readSend
    simp [e3, bind, Except.bind, e1, e2, hmt]

example : writeSend { includeLinenum := true } true ⟨2600, 3, 102⟩ = .ok [blanks 66 ++ "2600 3  099999".toList] ∧
    writeTend {} false = .ok [" 0.000000+0 0.000000+0          0          0          0          0  -1 0  0    0".toList] := by
  decide +kernel

/-- a record that is not a section end is rejected by the SEND reader -/
example : readSend {} [" 0.000000+0 0.000000+0          0          0          1          0 125 2  0".toList] 0 =
    .error .notSectionEnd := by decide +kernel

/-- non-vacuity of C12: a HEAD record -/
example : (writeCont {} ⟨.flt 26056, .flt (554544/10000), .int (-3), .int 0, .int 7, .int 0, ⟨2631, 3, 102⟩⟩).bind
    (fun ls => readCont {} (ls.map (· ++ "    1".toList)) 0) =
    .ok (⟨.flt 26056, .flt (554544/10000), .int (-3), .int 0, .int 7, .int 0, ⟨2631, 3, 102⟩⟩, 1) := by
  decide +kernel

/-! ## C13 TEXT records -/

/-- C13: text of at most 66 (`6 * width`) characters is read back padded with blanks. -/
theorem C13_text_roundtrip (o : WOpts) (r : ROpts) (hr : r.width = o.width) (hl : Str)
    (h : hl.length ≤ 6 * o.width) (c : Ctrl) (hc : FitsCtrl c.mat c.mf c.mt) :
    ∃ line, writeText o ⟨hl, c⟩ = [line] ∧ line.length = 6 * o.width + 9 ∧
      ∀ lines ofs, StandsAt lines ofs [line] →
        readText r lines ofs = .ok (⟨ljust hl (6 * o.width), c⟩, ofs + 1) := by
  have hlen : (ljust hl (o.width * 6)).length = 6 * o.width := by rw [ljust_length]; omega
  refine ⟨_, rfl, ?_, ?_⟩
  · rw [List.length_append, hlen, (writeCtrl_length_iff c).2 hc]
  · intro lines ofs hst
    obtain ⟨t, ht⟩ := StandsAt.head hst
    unfold readText
    simp only at ht
    simp only [ht, bind, Except.bind]
    rw [hr, readCtrl_writeCtrl o.width _ hlen c hc t]
    have : slice (ljust hl (o.width * 6) ++ writeCtrl c ++ t) 0 (o.width * 6) = ljust hl (o.width * 6) := by
      have := slice_mid [] (ljust hl (o.width * 6)) (writeCtrl c ++ t) 0 (o.width * 6) rfl (by rw [hlen]; simp; omega)
      simpa [List.append_assoc] using this
    simp only [this, pure, Except.pure, Nat.mul_comm]

/-- C13: longer text pushes the control numbers out of their columns: the control columns start with the
excess text. -/
theorem C13_text_overflow (o : WOpts) (hl : Str) (h : 6 * o.width < hl.length) (c : Ctrl) :
    ∃ line, writeText o ⟨hl, c⟩ = [line] ∧ 6 * o.width + 9 < line.length ∧
      line.drop (6 * o.width) = hl.drop (6 * o.width) ++ writeCtrl c := by
  have hj : ljust hl (o.width * 6) = hl := by
    unfold ljust; rw [show o.width * 6 - hl.length = 0 by omega]; simp
  refine ⟨_, rfl, ?_, ?_⟩
  · simp only [hj, List.length_append]
    have := writeCtrl_length_le c
    omega
  · simp only [hj]
    rw [List.drop_append_of_le_length (by omega)]

/-- C13: e.g. a 70 character text makes MAT = 2631 be read as the excess text. -/
example : (readText {} (writeText {} ⟨blanks 66 ++ "1234".toList, ⟨2631, 1, 451⟩⟩) 0).map (fun p => p.1.ctrl) =
    .ok ⟨1234, 26, 31⟩ := by decide +kernel

/-! ## C14 DIR records -/

/-- C14 -/
theorem C14_dir_roundtrip (o : WOpts) (r : ROpts) (hr : r.width = o.width) (l1 l2 n1 n2 : Int)
    (hl1 : FitsInt o.width l1) (hl2 : FitsInt o.width l2) (hn1 : FitsInt o.width n1)
    (hn2 : FitsInt o.width n2) (c : Ctrl) (hc : FitsCtrl c.mat c.mf c.mt) :
    ∃ line, writeDir o ⟨l1, l2, n1, n2, c⟩ = [line] ∧ line.length = 6 * o.width + 9 ∧
      line.take (2 * o.width) = blanks (2 * o.width) ∧
      ∀ lines ofs, StandsAt lines ofs [line] →
        readDir r lines ofs = .ok (⟨l1, l2, n1, n2, c⟩, ofs + 1) := by
  have e1 := rjust_length_le hl1
  have e2 := rjust_length_le hl2
  have e3 := rjust_length_le hn1
  have e4 := rjust_length_le hn2
  have eb : (blanks o.width).length = o.width := by simp [blanks]
  refine ⟨_, rfl, ?_, ?_, ?_⟩
  · simp only [List.length_append, eb, e1, e2, e3, e4, (writeCtrl_length_iff c).2 hc]; omega
  · have : blanks o.width ++ blanks o.width = blanks (2 * o.width) := by
      unfold blanks; rw [List.replicate_append_replicate, two_mul]
    dsimp only
    rw [this]
    simp only [List.append_assoc]
    rw [List.take_append_of_le_length (by simp [blanks]), List.take_of_length_le (by simp [blanks])]
  · intro lines ofs hst
    obtain ⟨t, ht⟩ := StandsAt.head hst
    set fs : List Str := [blanks o.width, blanks o.width, rjust (intStr l1) o.width, rjust (intStr l2) o.width,
      rjust (intStr n1) o.width, rjust (intStr n2) o.width] with hfs
    have hlen : ∀ f ∈ fs, f.length = o.width := by
      intro f hf
      simp only [hfs, List.mem_cons, List.not_mem_nil, or_false] at hf
      rcases hf with h | h | h | h | h | h <;> subst h <;> assumption
    have hb : fs.flatten.length = 6 * o.width := by rw [flatten_length fs hlen]; simp [hfs]
    have hctrl := readCtrl_writeCtrl o.width fs.flatten hb c hc t
    rw [List.append_assoc] at hctrl
    have hl : lineAt lines ofs = .ok (fs.flatten ++ (writeCtrl c ++ t)) := by
      rw [ht]; simp [hfs, List.append_assoc]
    unfold readDir
    simp only [hl, bind, Except.bind, hr, hctrl,
      intField_fields hlen (writeCtrl c ++ t) (i := 2) (n := l1) rfl hl1,
      intField_fields hlen (writeCtrl c ++ t) (i := 3) (n := l2) rfl hl2,
      intField_fields hlen (writeCtrl c ++ t) (i := 4) (n := n1) rfl hn1,
      intField_fields hlen (writeCtrl c ++ t) (i := 5) (n := n2) rfl hn2]
    rfl

example : writeDir {} ⟨3, 102, 50, 1, ⟨125, 1, 451⟩⟩ =
    ["                                3        102         50          1 125 1451".toList] ∧
    (intStr (-999999999)).length ≤ 11 := by decide +kernel

/-! ## C15 INTG records -/

theorem slice_shift {α} (p s : List α) (i j : Nat) :
    slice (p ++ s) (p.length + i) (p.length + j) = slice s i j := by
  unfold slice
  rw [List.take_append, List.take_of_length_le (by omega), List.drop_append]
  rw [List.drop_eq_nil_of_le (by omega)]
  simp

/-- first column of the matrix elements and number of slots of an INTG record, as the ENDF-6 manual
gives them (Section 0.6.3.5): NDIGIT = 2: 18, 3: 13, 4: 11, 5: 9, 6: 8 -/
def intgSlots : Nat → Nat
  | 2 => 18 | 3 => 13 | 4 => 11 | 5 => 9 | 6 => 8 | _ => 0

theorem intgCols_eq (nd : Nat) (h : nd = 2 ∨ nd = 4 ∨ nd = 5 ∨ nd = 6) :
    intgCols nd = (List.range (intgSlots nd)).map
      (fun i => (if nd = 6 then 10 else 11) + i * (nd + 1)) := by
  rcases h with rfl | rfl | rfl | rfl <;> decide

theorem mapM_map {α β γ : Type} (f : α → β) (g : β → Res γ) (l : List α) :
    (l.map f).mapM g = l.mapM (fun a => g (f a)) := by
  induction l with
  | nil => rfl
  | cons a l ih => rw [List.map_cons, List.mapM_cons, List.mapM_cons, ih]

/-- C15 for NDIGIT = 2, 4, 5, 6: the full number of matrix elements is written in one line of 75 columns
and read back.  Missing: NDIGIT = 3, which fails (`C15_ndigit3_fails`). -/
theorem C15_partial (o : WOpts) (hw : 11 ≤ o.width) (r : ROpts) (hr : r.width = o.width) (nd : Nat)
    (hnd : nd = 2 ∨ nd = 4 ∨ nd = 5 ∨ nd = 6) (ii jj : Int) (hi : FitsInt 5 ii) (hj : FitsInt 5 jj)
    (kij : List Int) (hk : kij.length = intgSlots nd) (hf : ∀ k ∈ kij, FitsInt (nd + 1) k) (c : Ctrl)
    (hc : FitsCtrl c.mat c.mf c.mt) :
    ∃ line, writeIntg o nd ⟨ii, jj, kij, c⟩ = [line] ∧ line.length = 6 * o.width + 9 ∧
      ∀ lines ofs, StandsAt lines ofs [line] →
        readIntg r nd lines ofs = .ok (⟨ii, jj, kij, c⟩, ofs + 1) := by
  have e1 := rjust_length_le hi
  have e2 := rjust_length_le hj
  set fs : List Str := kij.map fun k => rjust (intStr k) (nd + 1) with hfs
  have hlen : ∀ f ∈ fs, f.length = nd + 1 := by
    intro f hfm
    rw [hfs, List.mem_map] at hfm
    obtain ⟨k, hk, rfl⟩ := hfm
    exact rjust_length_le (hf k hk)
  set spacer : Str := if nd = 6 then [] else [' '] with hsp
  have hspi : (if (nd : Int) = 6 then ([] : Str) else [' ']) = spacer := by
    rw [hsp]; congr 1; simp; omega
  have hsl : spacer.length = if nd = 6 then 0 else 1 := by rw [hsp]; split <;> rfl
  have hnat : ((nd : Int) + 1).toNat = nd + 1 := by omega
  set body := rjust (intStr ii) 5 ++ rjust (intStr jj) 5 ++ spacer ++ fs.flatten with hbody
  have hbl : body.length ≤ 66 := by
    rw [hbody]
    simp only [List.length_append, e1, e2, hsl, flatten_length fs hlen]
    rw [hfs, List.length_map, hk]
    rcases hnd with rfl | rfl | rfl | rfl <;> simp [intgSlots]
  have hbj : (ljust body (o.width * 6)).length = 6 * o.width := by
    rw [ljust_length]; omega
  have hline : writeIntg o nd ⟨ii, jj, kij, c⟩ = [ljust body (o.width * 6) ++ writeCtrl c] := by
    unfold writeIntg
    simp only [hspi, hnat]
    rfl
  refine ⟨_, hline, ?_, ?_⟩
  · rw [List.length_append, hbj, (writeCtrl_length_iff c).2 hc]
  · intro lines ofs hst
    obtain ⟨t, ht⟩ := StandsAt.head hst
    set line := ljust body (o.width * 6) ++ writeCtrl c ++ t with hl
    obtain ⟨rest, hrest⟩ : ∃ rest, line = body ++ rest := by
      refine ⟨List.replicate (o.width * 6 - body.length) ' ' ++ (writeCtrl c ++ t), ?_⟩
      rw [hl]; unfold ljust; simp only [List.append_assoc]
    have hctrl : readCtrl r.width line = .ok c := by
      rw [hl, hr]; exact readCtrl_writeCtrl _ _ hbj c hc t
    have s1 : slice line 0 5 = rjust (intStr ii) 5 := by
      rw [hrest, hbody]
      have := slice_mid [] (rjust (intStr ii) 5) (rjust (intStr jj) 5 ++ spacer ++ fs.flatten ++ rest) 0 5 rfl (by simp [e1])
      simpa [List.append_assoc] using this
    have s2 : slice line 5 10 = rjust (intStr jj) 5 := by
      rw [hrest, hbody]
      have := slice_mid (rjust (intStr ii) 5) (rjust (intStr jj) 5) (spacer ++ fs.flatten ++ rest) 5 10 e1.symm (by omega)
      simpa [List.append_assoc] using this
    have s3 : (intgCols nd).mapM (fun i => readFortInt (slice line i (i + nd + 1))) = .ok kij := by
      rw [intgCols_eq nd hnd, mapM_map]
      apply mapM_ok
      rw [List.forall₂_iff_get]
      refine ⟨by simp [hk], ?_⟩
      intro i h1 h2
      simp only [List.length_range] at h1
      simp only [List.get_eq_getElem, List.getElem_range]
      have hp : (rjust (intStr ii) 5 ++ rjust (intStr jj) 5 ++ spacer).length = if nd = 6 then 10 else 11 := by
        simp only [List.length_append, e1, e2, hsl]; split <;> rfl
      rw [hrest, hbody, List.append_assoc _ fs.flatten rest, ← hp,
        show (rjust (intStr ii) 5 ++ rjust (intStr jj) 5 ++ spacer).length + i * (nd+1) + nd + 1 =
          (rjust (intStr ii) 5 ++ rjust (intStr jj) 5 ++ spacer).length + (i * (nd+1) + (nd + 1)) by omega,
        slice_shift, slice_fields (nd+1) fs hlen rest i (rjust (intStr kij[i]) (nd+1))
          (by rw [hfs, List.getElem?_map, List.getElem?_eq_getElem (by omega)]; rfl)]
      exact (C02_int_roundtrip kij[i] (nd+1) (hf _ (List.getElem_mem _))).2.1
    unfold readIntg
    rw [if_neg (by rcases hnd with rfl | rfl | rfl | rfl <;> decide)]
    simp only [Int.toNat_natCast, ht, bind, Except.bind, s1, s2, s3, hctrl,
      (C02_int_roundtrip ii 5 hi).2.1, (C02_int_roundtrip jj 5 hj).2.1]
    rfl

/-- C15: the reader refuses every NDIGIT outside 2..6. -/
theorem C15_ndigit_range (r : ROpts) (nd : Int) (h : nd < 2 ∨ 6 < nd) (lines : List Str) (ofs : Nat) :
    readIntg r nd lines ofs = .error .invalidInteger := by
  unfold readIntg; rw [if_pos h]

theorem mapM_length {α β : Type} {f : α → Res β} {l : List α} {ys : List β} (h : l.mapM f = .ok ys) :
    ys.length = l.length := ((mapM_ok_iff.1 h).length_eq).symm

/-- C15 fails for NDIGIT = 3: the reader always returns 14 elements although a 66 column body has room for
13, and a record with 14 elements is written with more than 75 columns.  So no record with NDIGIT = 3
that is read back as it was written respects the column layout. -/
theorem C15_ndigit3_fails (o : WOpts) (ho : o.width = 11) (r : ROpts) (x : IntgRec) (line : Str)
    (h : writeIntg o 3 x = [line]) (lines : List Str) (ofs ofs' : Nat)
    (hread : readIntg r 3 lines ofs = .ok (x, ofs')) : x.kij.length = 14 ∧ 75 < line.length := by
  have h14 : x.kij.length = 14 := by
    unfold readIntg at hread
    rw [if_neg (by decide)] at hread
    simp only [bind, Except.bind] at hread
    split at hread
    · cases hread
    split at hread
    · cases hread
    split at hread
    · cases hread
    split at hread
    · cases hread
    rename_i kij hk
    split at hread
    · cases hread
    cases hread
    rw [mapM_length hk]
    decide
  refine ⟨h14, ?_⟩
  unfold writeIntg at h
  have hl := (List.cons.inj h).1
  rw [← hl, List.length_append, ljust_length]
  have h2 := writeCtrl_length_le x.ctrl
  have h3 : ∀ (l : List Int), 4 * l.length ≤ ((l.map fun c => rjust (intStr c) 4).flatten).length := by
    intro l
    induction l with
    | nil => simp
    | cons a l ih =>
      rw [List.map_cons, List.flatten_cons, List.length_append, rjust_length, List.length_cons]; omega
  have h4 := h3 x.kij
  have h5 : ((3:Int) + 1).toNat = 4 := rfl
  have h6 : (if (3:Int) = 6 then ([] : Str) else [' ']).length = 1 := rfl
  simp only [List.length_append, rjust_length, h5, h6]
  omega

/-- C15 for NDIGIT = 3: with 13 elements the reader invents a fourteenth one from the first digit of MAT. -/
theorem C15_ndigit3_extra : ∃ (x y : IntgRec), x.kij.length = 13 ∧
    readIntg {} 3 (writeIntg {} 3 x) 0 = .ok (y, 1) ∧ y.kij = x.kij ++ [9] :=
  ⟨⟨1, 2, List.replicate 13 5, ⟨9237, 32, 151⟩⟩, ⟨1, 2, List.replicate 13 5 ++ [9], ⟨9237, 32, 151⟩⟩,
    rfl, by decide +kernel, rfl⟩

example : (List.replicate 18 (-12 : Int)).length = intgSlots 2 ∧
    readIntg {} 2 (writeIntg {} 2 ⟨1, 2, List.replicate 18 (-12), ⟨9237, 32, 151⟩⟩) 0 =
      .ok (⟨1, 2, List.replicate 18 (-12), ⟨9237, 32, 151⟩⟩, 1) := by decide +kernel

/-! ## C19 number blocks -/

/-- C19: whatever the lines contain, a successful read of `n` numbers returns `n` numbers and advances by
`⌈n/6⌉` lines. -/
theorem C19_read_count (r : ROpts) (lines : List Str) (n ofs : Nat) (ys : List Num) (ofs' : Nat)
    (h : readNumbers r lines n ofs = .ok (ys, ofs')) : ys.length = n ∧ ofs' = ofs + (n + 5) / 6 := by
  induction n using Nat.strong_induction_on generalizing ofs ys ofs' with
  | _ n ih =>
    rw [readNumbers] at h
    by_cases h0 : n = 0
    · rw [if_pos h0] at h; cases h; simp [h0]
    · rw [if_neg h0] at h
      cases hl : lineAt lines ofs with
      | error e => rw [hl] at h; cases h
      | ok l =>
        cases hv : readFortFloats r l (min 6 n) with
        | error e => simp only [hl, hv, bind, Except.bind] at h; cases h
        | ok vs =>
          cases hr : readNumbers r lines (n - 6) (ofs + 1) with
          | error e => simp only [hl, hv, hr, bind, Except.bind] at h; cases h
          | ok p =>
            obtain ⟨rest, o2⟩ := p
            simp only [hl, hv, hr, bind, Except.bind, pure, Except.pure] at h
            cases h
            obtain ⟨h1, h2⟩ := ih (n-6) (by omega) _ _ _ hr
            have h3 : vs.length = min 6 n := by
              have := mapM_length hv; simpa using this
            rw [List.length_append, h1, h2, h3]
            omega

/-- C19: `n > 0` numbers are written in `⌈n/6⌉` lines of 66 (`6 * width`) columns; reading `n` numbers there
returns the numbers (as their fields are read) in order and leaves the position behind these lines. -/
theorem C19_block_roundtrip (o : WOpts) (r : ROpts) (hr : r.width = o.width) (vs ys : List Num)
    (hne : vs ≠ []) (hv : List.Forall₂ (Field o r) vs ys) :
    ∃ ls, writeNumbers o vs = .ok ls ∧ ls.length = (vs.length + 5) / 6 ∧
      (∀ l ∈ ls, l.length = 6 * o.width) ∧
      ∀ lines ofs (suffix : Str), StandsAt lines ofs (ls.map (· ++ suffix)) →
        readNumbers r lines vs.length ofs = .ok (ys, ofs + (vs.length + 5) / 6) := by
  obtain ⟨fs, h1, h2, h3⟩ := fields_of hv
  have hfl := h1.length_eq
  have hfne : fs ≠ [] := by
    intro e; rw [e] at hfl; simp at hfl; exact hne hfl
  obtain ⟨ls, g1, g2, g3, g4⟩ := padLast_fields o.width fs hfne h2
  refine ⟨ls, by rw [writeNumbers_fields h1, g1], by rw [g3, hfl], ?_, ?_⟩
  · intro l hl; rw [g4 l hl, Nat.mul_comm]
  · intro lines ofs suf hst
    rw [hfl]
    have := readNumbers_written (r := r) (ofs := ofs) (ys := ys) (by rw [hr]; exact h2) g2 hst h3
    rw [this, g3]

/-- C19: an empty block cannot be written at all. -/
theorem C19_empty_fails (o : WOpts) : writeNumbers o [] = .error .indexError ∧ writeInts o [] = .error .indexError ∧
    ∀ r lines ofs, readNumbers r lines 0 ofs = .ok ([], ofs) := by
  refine ⟨?_, ?_, ?_⟩
  · unfold writeNumbers; rw [chunks6_nil]; rfl
  · unfold writeInts; rw [chunks6_nil]; rfl
  · intro r lines ofs; rw [readNumbers]; rfl

example : ((writeNumbers {} ((List.range 8).map fun i => .flt i)).map List.length) = .ok 2 := by decide +kernel

/-! ## C16 LIST records -/

/-- C16 (general form): header as in C12, the values as their fields are read, and the read position is
right behind the record. -/
theorem C16_list_fields (o : WOpts) (hw : 9 ≤ o.width) (r : ROpts) (hr : r.width = o.width) (c1 c2 y1 y2 : Num)
    (h1 : Field o r c1 y1) (h2 : Field o r c2 y2) (l1 l2 n2 : Int) (hl1 : FitsInt o.width l1)
    (hl2 : FitsInt o.width l2) (hn2 : FitsInt o.width n2) (c : Ctrl) (hc : FitsCtrl c.mat c.mf c.mt)
    (vs ys : List Num) (hn1 : FitsInt o.width vs.length) (hv : List.Forall₂ (Field o r) vs ys) :
    ∃ recs, writeList o ⟨⟨c1, c2, .int l1, .int l2, .int vs.length, .int n2, c⟩, vs⟩ = .ok recs ∧
      recs.length = 1 + (vs.length + 5) / 6 ∧ (∀ l ∈ recs, l.length = 6 * o.width + 9) ∧
      ∀ lines ofs, StandsAt lines ofs recs →
        readList r lines ofs =
          .ok (⟨⟨y1, y2, .int l1, .int l2, .int vs.length, .int n2, c⟩, ys⟩, ofs + recs.length) := by
  obtain ⟨hline, a1, a2, a3⟩ := C12_cont_fields o r hr c1 c2 y1 y2 h1 h2 l1 l2 vs.length n2 hl1 hl2 hn1 hn2 c hc
  obtain ⟨fs, f1, f2, f3⟩ := fields_of hv
  have hfl := f1.length_eq
  -- the body
  have hbody : ∃ ls, listBody o (.int vs.length) vs = .ok ls ∧ ls.length = (vs.length + 5) / 6 ∧
      (∀ l ∈ ls, l.length = 6 * o.width) ∧
      ∀ lines ofs, StandsAt lines ofs (ls.map (· ++ writeCtrl c)) →
        readNumbers r lines vs.length ofs = .ok (ys, ofs + (vs.length + 5) / 6) := by
    unfold listBody
    by_cases h0 : vs.length = 0
    · have hvs : vs = [] := List.length_eq_zero_iff.1 h0
      subst hvs
      cases hv
      refine ⟨[], by simp, by simp, by simp, ?_⟩
      intro lines ofs _
      rw [List.length_nil, readNumbers]; rfl
    · have hne : vs ≠ [] := by intro e; rw [e] at h0; simp at h0
      simp only [h0, if_false]
      by_cases h6 : vs.length % 6 ≠ 0
      · rw [if_pos h6]
        obtain ⟨z, z1, z2⟩ := C05_float_width o hw 0 (Or.inl rfl)
        have f1' : List.Forall₂ (fun v f => float2fortstr o v = .ok f)
            (vs ++ List.replicate (6 - vs.length % 6) (.flt 0)) (fs ++ List.replicate (6 - vs.length % 6) z) := by
          apply List.rel_append f1
          generalize 6 - vs.length % 6 = m
          induction m with
          | zero => exact .nil
          | succ m ih => rw [List.replicate_succ, List.replicate_succ]; exact .cons z1 ih
        have f2' : ∀ f ∈ fs ++ List.replicate (6 - vs.length % 6) z, f.length = o.width := by
          intro f hf
          rw [List.mem_append] at hf
          rcases hf with hf | hf
          · exact f2 f hf
          · rw [(List.mem_replicate.1 hf).2]; exact z2
        have hfne : fs ++ List.replicate (6 - vs.length % 6) z ≠ [] := by
          intro e
          have := congrArg List.length e
          rw [List.length_append] at this; simp at this; omega
        obtain ⟨ls, g1, g2, g3, g4⟩ := padLast_fields o.width _ hfne f2'
        refine ⟨ls, by rw [writeNumbers_fields f1', g1], ?_, ?_, ?_⟩
        · rw [g3, List.length_append, List.length_replicate, ← hfl]; omega
        · intro l hl; rw [g4 l hl, Nat.mul_comm]
        · intro lines ofs hst
          rw [hfl]
          have hpre := chunks6_pad_prefix fs (List.replicate (6 - vs.length % 6) z)
            (by intro e; rw [e] at hfl; simp at hfl; exact absurd hfl hne)
            (by rw [List.length_replicate, ← hfl]; omega)
          have hp2 : List.Forall₂ (· <+: ·) ((chunks6 fs).map List.flatten) ls := by
            have hle := hpre.length_eq
            rw [List.forall₂_iff_get] at hpre g2 ⊢
            refine ⟨hpre.1.trans g2.1, fun i p q => (hpre.2 i p (by have := g2.1; omega)).trans (g2.2 i _ q)⟩
          have := readNumbers_written (r := r) (ofs := ofs) (ys := ys) (by rw [hr]; exact f2) hp2 hst f3
          rw [this, g3, List.length_append, List.length_replicate, ← hfl]
          congr 3; omega
      · rw [if_neg h6]
        obtain ⟨ls, g1, g2, g3, g4⟩ := C19_block_roundtrip o r hr vs ys hne hv
        exact ⟨ls, g1, g2, g3, fun lines ofs hst => g4 lines ofs _ hst⟩
  obtain ⟨ls, b1, b2, b3, b4⟩ := hbody
  refine ⟨[hline] ++ ls.map (· ++ writeCtrl c), ?_, ?_, ?_, ?_⟩
  · unfold writeList
    simp only [slotRat, a1, b1, bind, Except.bind]
    norm_num
    rfl
  · rw [List.length_append, List.length_map, b2, List.length_singleton]
  · intro l hl
    rw [List.mem_append, List.mem_singleton, List.mem_map] at hl
    rcases hl with rfl | ⟨l', hl', rfl⟩
    · exact a2
    · rw [List.length_append, b3 l' hl', (writeCtrl_length_iff c).2 hc]
  · intro lines ofs hst
    have s1 := a3 lines ofs (StandsAt.append hst).1
    have s2 := b4 lines (ofs + 1) (by simpa using (StandsAt.append hst).2)
    unfold readList
    simp only [s1, bind, Except.bind, slotVal]
    have hlen : ofs + ([hline] ++ ls.map (· ++ writeCtrl c)).length = ofs + 1 + (vs.length + 5) / 6 := by
      rw [List.length_append, List.length_map, b2, List.length_singleton]; omega
    rw [hlen]
    by_cases h0 : (vs.length : Int) = 0
    · have : vs = [] := List.length_eq_zero_iff.1 (by omega)
      subst this
      cases hv
      rfl
    · simp only [h0, if_false, Int.toNat_natCast, s2]
      rfl

/-- C16: for all lists of numbers in range. -/
theorem C16_list_roundtrip (o : WOpts) (hw : 9 ≤ o.width) (r : ROpts) (hr : r.width = o.width) (v1 v2 : ℚ)
    (hv1 : InRange v1) (hv2 : InRange v2) (l1 l2 n2 : Int) (hl1 : FitsInt o.width l1)
    (hl2 : FitsInt o.width l2) (hn2 : FitsInt o.width n2) (c : Ctrl) (hc : FitsCtrl c.mat c.mf c.mt)
    (vs : List ℚ) (hn1 : FitsInt o.width vs.length) (hv : ∀ v ∈ vs, InRange v) :
    ∃ recs y1 y2 ys, writeList o ⟨⟨.flt v1, .flt v2, .int l1, .int l2, .int vs.length, .int n2, c⟩, vs.map .flt⟩ =
        .ok recs ∧
      Field o r (.flt v1) y1 ∧ Field o r (.flt v2) y2 ∧ List.Forall₂ (Field o r) (vs.map .flt) ys ∧
      ∀ lines ofs, StandsAt lines ofs recs →
        readList r lines ofs =
          .ok (⟨⟨y1, y2, .int l1, .int l2, .int vs.length, .int n2, c⟩, ys⟩, ofs + recs.length) := by
  obtain ⟨y1, h1⟩ := Field.of_inRange hw hr hv1
  obtain ⟨y2, h2⟩ := Field.of_inRange hw hr hv2
  obtain ⟨ys, h3⟩ := Field.list_of_inRange hw hr vs hv
  have hlen : (vs.map Num.flt).length = vs.length := by simp
  obtain ⟨recs, a, _, _, b⟩ := C16_list_fields o hw r hr _ _ y1 y2 h1 h2 l1 l2 n2 hl1 hl2 hn2 c hc (vs.map .flt) ys
    (by rw [hlen]; exact hn1) h3
  rw [hlen] at a b
  exact ⟨recs, y1, y2, ys, a, h1, h2, h3, b⟩

/-- C16: a count that differs from the number of values is refused, nothing is written. -/
theorem C16_count_mismatch (o : WOpts) (x : ListRec) (n : Int) (hn : x.head.n1 = .int n) :
    (n < x.vals.length → writeList o x = .error .unconsumedList) ∧
    ((x.vals.length : Int) < n → writeList o x = .error .moreListElements) := by
  constructor
  · intro h
    unfold writeList
    simp only [hn, slotRat]
    rw [if_pos (by exact_mod_cast h)]
  · intro h
    unfold writeList
    simp only [hn, slotRat]
    rw [if_neg (by push Not; exact_mod_cast h.le), if_pos (by exact_mod_cast h)]

example : (writeList {} ⟨⟨.flt 0, .flt 0, .int 0, .int 0, .int 7, .int 0, ⟨125, 3, 2⟩⟩, List.replicate 7 (.flt (1/4))⟩).bind
    (fun ls => readList {} (ls ++ ["next line".toList]) 0) =
    .ok (⟨⟨.flt 0, .flt 0, .int 0, .int 0, .int 7, .int 0, ⟨125, 3, 2⟩⟩, List.replicate 7 (.flt (1/4))⟩, 3) := by
  decide +kernel

end Verif
