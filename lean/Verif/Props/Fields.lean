import Verif.Lemmas.Again
import Mathlib.Data.List.TakeWhile
/-
Property theorems C01 - C09: number fields.
Specifications used: `Verif.Spec.NumText` (grammar and value of number texts), `Spec.InRange`,
`Spec.BlankIns`.
-/
namespace Verif
open Spec

/-! ## C01 blank fields are zero -/

theorem strip_ws {s : Str} (h : ∀ c ∈ s, isWs c = true) : strip s = [] := by
  have h1 : lstrip s = [] := by
    unfold lstrip; rw [List.dropWhile_eq_nil_iff]; exact h
  unfold strip; rw [h1]; rfl

/-- C01: a blank integer field is read as 0. -/
theorem C01_blank_int (s : Str) (h : ∀ c ∈ s, isWs c = true) : readFortInt s = .ok 0 := by
  unfold readFortInt; rw [if_pos (strip_ws h)]

/-- C01: a blank float field is read as 0.0, for all reading options. -/
theorem C01_blank_float (o : ROpts) (s : Str) (h : ∀ c ∈ s, isWs c = true) :
    ∃ x, readFloat o s = .ok x ∧ x.val = 0 := by
  refine ⟨.flt 0, ?_, rfl⟩
  unfold readFloat fortstr2float
  have : strip (cutWidth (some o.width) s) = [] := by
    apply strip_ws
    intro c hc
    exact h c (List.mem_of_mem_take hc)
  simp only [this, if_true]

example : readFortInt (blanks 11) = .ok 0 := C01_blank_int _ (by decide +kernel)
/-- the hypothesis is needed: a non-blank field is not zero in general -/
example : readFortInt "  7".toList = .ok 7 := by decide +kernel

/-! ## C02 integer fields round-trip -/

/-- C02: an integer that fits is written into exactly `w` columns and read back unchanged,
by the integer reader and (as in TAB1/TAB2/LIST bodies) by the float reader. -/
theorem C02_int_roundtrip (n : Int) (w : Nat) (h : (intStr n).length ≤ w) :
    (rjust (intStr n) w).length = w ∧ readFortInt (rjust (intStr n) w) = .ok n ∧
    ∀ o : ROpts, o.width = w → ∃ x, readFloat o (rjust (intStr n) w) = .ok x ∧ x.val = n := by
  refine ⟨rjust_length_le h, ?_, ?_⟩
  · unfold readFortInt
    rw [if_neg, pyInt_intStr_rjust]
    rw [strip_rjust (intStr_noWs n)]; exact intStr_ne_nil n
  · intro o ho
    have := reads_intStr (w - (intStr n).length) n (some o.width) o.acceptSpaces o.preserve (by
      intro m hm
      simp at hm; subst hm; subst ho
      simp; omega)
    exact this

/-- C02: an integer that does not fit makes the text longer than the field. -/
theorem C02_int_overflow (n : Int) (w : Nat) (h : ¬ (intStr n).length ≤ w) :
    w < (rjust (intStr n) w).length := by
  rw [rjust_length]; omega

/-- C02: which integers fit into `w + 2` columns, numerically. -/
theorem C02_fits_iff (n : Int) (w : Nat) :
    (intStr n).length ≤ w + 2 ↔ (-(10 ^ (w+1) : Int) < n ∧ n < 10 ^ (w+2)) := by
  rw [intStr_eq, List.length_append]
  have hw : (0:Int) < 10 ^ (w+1) := by positivity
  by_cases hn : n < 0
  · simp only [hn, if_true, List.length_singleton]
    have h1 := natStr_length_le w n.natAbs
    have h2 : (1 + (natStr n.natAbs).length ≤ w + 2) ↔ (natStr n.natAbs).length ≤ w + 1 := by omega
    rw [h2, h1]
    have h3 : (n.natAbs < 10 ^ (w+1)) ↔ ((n.natAbs : Int) < (10 ^ (w+1) : Int)) := by
      rw [← Int.ofNat_lt]; push_cast; rfl
    rw [h3]
    have : (0:Int) < 10 ^ (w+2) := by positivity
    omega
  · simp only [hn, if_false, List.length_nil, Nat.zero_add]
    rw [natStr_length_le (w+1)]
    have h3 : (n.natAbs < 10 ^ (w+1+1)) ↔ ((n.natAbs : Int) < (10 ^ (w+1+1) : Int)) := by
      rw [← Int.ofNat_lt]; push_cast; rfl
    rw [h3]
    have h4 : (10:Int) ^ (w+1+1) = 10 ^ (w+2) := rfl
    rw [h4]
    generalize (10:Int) ^ (w+2) = A
    generalize (10:Int) ^ (w+1) = B at hw
    omega

example : readFortInt (rjust (intStr (-1234)) 11) = .ok (-1234) :=
  (C02_int_roundtrip (-1234) 11 (by decide +kernel)).2.1
example : (rjust (intStr (-1234)) 4).length = 5 := by decide +kernel

/-! ## C03 exponents without E -/

/-- C03 (part): for every well-formed mantissa ending in a digit and every signed exponent, a field
of sufficient width containing the text without exponent character is read as the same number as
the text with `E`, namely the number denoted by the text.
Missing: mantissas ending in the decimal point, see `C03_fails`. -/
theorem C03_partial (t : NumText) (h : t.WF) (sg : Sgn) (d : Str) (hex : t.ex = some (sg, d))
    (hsg : sg ≠ .none) (hend : t.endsInDigit) (o : ROpts) (k m : Nat)
    (hw : k + (t.withE 'E').length + m ≤ o.width) :
    (∃ x, readFloat o (blanks k ++ t.noE ++ blanks m) = .ok x ∧ x.val = t.value) ∧
    (∃ x, readFloat o (blanks k ++ t.withE 'E' ++ blanks m) = .ok x ∧ x.val = t.value) := by
  have hlen : t.noE.length ≤ (t.withE 'E').length := by
    unfold NumText.noE NumText.withE NumText.expN NumText.expE
    rw [hex]; simp
  constructor
  · refine ⟨_, fortstr2float_noE h ?_ (some o.width) o.acceptSpaces o.preserve k m ?_, ?_⟩
    · intro sg' d' h'
      rw [hex] at h'; cases h'; exact ⟨hsg, hend⟩
    · intro n hn; cases hn; omega
    · split <;> rfl
  · refine ⟨_, fortstr2float_withE h (Or.inr rfl) (some o.width) o.acceptSpaces o.preserve k m ?_, ?_⟩
    · intro n hn; cases hn; omega
    · split <;> rfl

/-- C03 fails for mantissas ending in the decimal point: `1.E+3` is accepted, `1.+3` is not. -/
theorem C03_fails : ∃ t : NumText, t.WF ∧ t.withE 'E' = "1.E+3".toList ∧ t.noE = "1.+3".toList ∧
    (∃ x, readFloat {} (t.withE 'E') = .ok x ∧ x.val = 1000) ∧
    readFloat {} t.noE = .error .invalidFloat := by
  refine ⟨⟨.none, ['1'], some [], some (.plus, ['3'])⟩, ?_, by decide +kernel, by decide +kernel, ?_, by decide +kernel⟩
  · constructor
    · intro c hc; simp at hc; subst hc; decide
    · intro f hf; simp at hf; subst hf; intro c hc; cases hc
    · left; simp
    · intro s d h; simp at h; obtain ⟨rfl, rfl⟩ := h
      refine ⟨?_, by simp⟩
      intro c hc; simp at hc; subst hc; decide
  · exact ⟨.flt 1000, by decide +kernel, rfl⟩

theorem allDig_of {s : Str} (h : s.all isDig = true) : AllDig s := by
  intro c hc; rw [List.all_eq_true] at h; exact h c hc

/-- non-vacuity of `C03_partial`: `-1.25-3` -/
example : ∃ x, readFloat {} " -1.25-3".toList = .ok x ∧ x.val = -125/100000 :=
  ⟨.flt (-125/100000), by decide +kernel, rfl⟩
example : (⟨.minus, ['1'], some ['2','5'], some (.minus, ['3'])⟩ : NumText).WF where
  ip_dig := by intro c hc; simp at hc; subst hc; decide
  fp_dig := by intro f hf; simp at hf; subst hf; exact allDig_of (by decide)
  nonempty := Or.inl (by simp)
  ex_dig := by intro s d h; simp at h; obtain ⟨rfl, rfl⟩ := h; exact ⟨allDig_of (by decide), by simp⟩

/-! ## C04 blanks inside numbers -/

theorem BlankIns.filter_eq {s t : Str} (h : BlankIns s t) :
    s.filter (· ≠ ' ') = t.filter (· ≠ ' ') := by
  induction h with
  | nil => rfl
  | blank _ ih => rw [ih, List.filter_cons]; simp
  | keep c _ ih => rw [List.filter_cons, List.filter_cons, ih]

theorem strip_eq_nil_iff (s : Str) : strip s = [] ↔ ∀ c ∈ s, isWs c = true := by
  constructor
  · intro h c hc
    unfold strip rstrip at h
    rw [List.reverse_eq_nil_iff, List.dropWhile_eq_nil_iff] at h
    have h1 := List.takeWhile_append_dropWhile (p := isWs) (l := s)
    rw [← h1] at hc
    rcases List.mem_append.1 hc with hc | hc
    · have := List.mem_takeWhile_imp hc
      exact this
    · exact h c (by simpa [lstrip] using hc)
  · exact strip_ws

theorem ws_filter (s : Str) : (∀ c ∈ s, isWs c = true) ↔ ∀ c ∈ s.filter (· ≠ ' '), isWs c = true := by
  constructor
  · intro h c hc; exact h c (List.mem_of_mem_filter hc)
  · intro h c hc
    by_cases hs : c = ' '
    · subst hs; decide
    · exact h c (by rw [List.mem_filter]; exact ⟨hc, by simpa using hs⟩)

/-- C04: with `accept_spaces` blanks inserted anywhere change neither the value nor the success of
reading, as long as the text stays inside the field. -/
theorem C04_blanks_ignored (o : ROpts) (ha : o.acceptSpaces = true) (s t : Str) (h : BlankIns s t)
    (ht : t.length ≤ o.width) :
    (readFloat o t).map Num.val = (readFloat o s).map Num.val := by
  have hs : s.length ≤ t.length := by
    clear ht
    induction h with
    | nil => simp
    | blank _ ih => simp; omega
    | keep c _ ih => simp; omega
  have c1 : cutWidth (some o.width) t = t := List.take_of_length_le ht
  have c2 : cutWidth (some o.width) s = s := List.take_of_length_le (by omega)
  have hf := BlankIns.filter_eq h
  have hb : strip s = [] ↔ strip t = [] := by
    rw [strip_eq_nil_iff, strip_eq_nil_iff, ws_filter s, ws_filter t, hf]
  unfold readFloat fortstr2float
  simp only [c1, c2, ha, if_true, hf]
  by_cases hst : strip s = []
  · rw [if_pos hst, if_pos (hb.1 hst)]
  · rw [if_neg hst, if_neg (fun h => hst (hb.2 h))]
    split
    · cases o.preserve <;> rfl
    · rfl

/-- C04 without `accept_spaces` is false: an inner blank makes the number unreadable. -/
theorem C04_needs_option : ∃ s t, BlankIns s t ∧ t.length ≤ 11 ∧
    (readFloat { acceptSpaces := false } s).map Num.val = .ok 12 ∧
    readFloat { acceptSpaces := false } t = .error .invalidFloat := by
  refine ⟨['1','2'], ['1',' ','2'], .keep _ (.blank (.keep _ .nil)), by decide +kernel, by decide +kernel, by decide +kernel⟩

example : BlankIns "-1.5+2".toList " - 1.5 + 2".toList := by
  exact .blank (.keep _ (.blank (.keep _ (.keep _ (.keep _ (.blank (.keep _ (.blank (.keep _ .nil)))))))))
example : (readFloat {} " - 1.5 + 2".toList).map Num.val = .ok (-150) := by decide +kernel

/-! ## C05 written floats fill the field -/

theorem float2expformstr_fuel (o : WOpts) (hw : 9 ≤ o.width) (val : ℚ) (hr : InRange val)
    (fuel : Nat) : float2expformstrF (fuel+2) o val = float2expformstr o val := by
  obtain ⟨k, n, e, _, _, _, _, _, h, _⟩ := expform_char o hw hr
  unfold float2expformstr
  rw [h fuel]
  exact (h 0).symm

/-- C05: every value whose exponent has at most three digits is written in exponential form into
exactly `width` columns, for all settings of the other options; the recursion handling carries
terminates (`float2expformstr_fuel`). -/
theorem C05_exp_width (o : WOpts) (hw : 9 ≤ o.width) (val : ℚ) (hr : InRange val) :
    ∃ s, float2expformstr o val = .ok s ∧ s.length = o.width := by
  obtain ⟨k, n, e, _, h, _, _, _, h2, _⟩ := expform_char o hw hr
  exact ⟨_, h2 0, h⟩

theorem inRange_of_bounds {v : ℚ} (h1 : 1/1000 ≤ |v|) (h2 : |v| < 10000000000000000) : InRange v := by
  right
  constructor
  · refine le_trans ?_ h1
    have h3 : (10:ℚ) ^ (-999 : Int) ≤ 10 ^ (-3 : Int) := zpow_le_zpow_right₀ (by norm_num) (by norm_num)
    have h4 : (10:ℚ) ^ (-3 : Int) = 1/1000 := by norm_num [zpow_neg]
    rw [← h4]; exact h3
  · refine le_trans h2.le ?_
    have h3 : (10:ℚ) ^ (16 : Int) ≤ 10 ^ (999 : Int) := zpow_le_zpow_right₀ (by norm_num) (by norm_num)
    have h4 : (10:ℚ) ^ (16 : Int) = 10000000000000000 := by norm_num
    rw [← h4]; exact h3

/-- non-vacuity, including a carry into the next power of ten with a longer exponent -/
example : InRange (99999999999/10) := inRange_of_bounds (by norm_num [abs_of_pos]) (by norm_num [abs_of_pos])
/-- a width of 8 does not leave room: the field is not filled -/
theorem C05_narrow : float2expformstr { width := 8, keepE := true } (10 ^ 100) = .ok " 1E+100".toList := by
  decide +kernel

/-! ## C06 accuracy -/

/-- C06: the field consists of optional blanks and a number text `t` with one nonzero digit before
the point; every reader of this width reads the value of `t`, which differs from the original by at
most half a unit of the last printed digit. -/
theorem C06_exp_accuracy (o : WOpts) (hw : 9 ≤ o.width) (val : ℚ) (hr : InRange val) :
    ∃ (pad : Nat) (t : NumText), t.WF ∧
      float2expformstr o val = .ok (blanks pad ++ (if o.keepE then t.withE 'E' else t.noE)) ∧
      (∀ r : ROpts, r.width = o.width →
        ∃ x, readFloat r (blanks pad ++ (if o.keepE then t.withE 'E' else t.noE)) = .ok x ∧ x.val = t.value) ∧
      |t.value - val| ≤ 1/2 * 10 ^ (t.expo - t.scale) ∧
      (val ≠ 0 → t.ip.length = 1 ∧ t.ip ≠ ['0']) := by
  obtain ⟨k, n, e, hn, hlen, hk, herr, _, h2, _⟩ := expform_char o hw hr
  refine ⟨padOf o (decide (val < 0)), expText (decide (val < 0)) k n e, expText_wf _ _ _ _, h2 0, ?_, ?_, ?_⟩
  · intro r hr'
    rw [expText_value]
    exact reads_fieldOf o _ k n e hn (some r.width) r.acceptSpaces r.preserve
      (by intro m hm; cases hm; rw [hr']; exact hlen.le)
  · rw [expText_value, expText_expo, expText_scale]; exact herr
  · intro h0
    obtain ⟨k1, k2⟩ := hk h0
    have hlt : k / 10 ^ n < 10 ^ (0+1) := by
      rw [Nat.div_lt_iff_lt_mul (by positivity)]; rw [pow_succ] at k2; simpa [Nat.mul_comm] using k2
    have hge : 1 ≤ k / 10 ^ n := by
      rw [Nat.le_div_iff_mul_le (by positivity)]; simpa using k1
    have h3 := (natStr_length_le 0 _).2 hlt
    have h4 := natStr_length_pos (k / 10 ^ n)
    refine ⟨by show (natStr (k / 10 ^ n)).length = 1; omega, ?_⟩
    intro h
    have h5 : digitsVal (natStr (k / 10 ^ n)) = 0 := by
      have : natStr (k / 10 ^ n) = ['0'] := h
      rw [this]; decide
    rw [digitsVal_natStr] at h5; omega

example : float2expformstr {} (-1/3) = .ok "-3.333333-1".toList := by decide +kernel

/-! ## C07 stability -/

/-- C07 (part): in exponential form, writing the value read from a written field gives the identical
text.  With `prefer_noexp` the text may change, see `C07_fails` and `C07_value_stable`. -/
theorem C07_partial (o : WOpts) (hw : 9 ≤ o.width) (hp : o.preferNoexp = false) (val : ℚ)
    (hr : InRange val) (s : Str) (hs : float2fortstr o (.flt val) = .ok s)
    (r : ROpts) (hrw : r.width = o.width) (x : Num) (hx : readFloat r s = .ok x) :
    float2fortstr o (.flt x.val) = .ok s := by
  obtain ⟨k, n, e, hn, hlen, _, herr, _, h2, h3⟩ := expform_char o hw hr
  have hf : ∀ v, float2fortstr o (.flt v) = float2expformstr o v := by
    intro v
    unfold float2fortstr
    simp only [hp, Bool.not_false, if_true, bind, Except.bind, pure, Except.pure]
    cases float2expformstr o v <;> rfl
  rw [hf] at hs ⊢
  have hs' := hs
  unfold float2expformstr at hs'
  rw [h2 0] at hs'
  cases hs'
  obtain ⟨y, hy, hyv⟩ := reads_fieldOf o (decide (val < 0)) k n e hn (some r.width) r.acceptSpaces r.preserve
      (by intro m hm; cases hm; rw [hrw]; exact hlen.le)
  have : x = y := by
    have := hx.symm.trans hy; cases this; rfl
  rw [this, hyv]
  exact h3 0

/-- C07 fails with `prefer_noexp`: 999999999.9 is written as ` 1.000000+9`, which is read as
1000000000 and then written as ` 1000000000`. -/
theorem C07_fails : ∃ (o : WOpts) (val : ℚ) (s s' : Str) (x : Num), o.width = 11 ∧ o.preferNoexp = true ∧
    float2fortstr o (.flt val) = .ok s ∧ readFloat {} s = .ok x ∧
    float2fortstr o (.flt x.val) = .ok s' ∧ s ≠ s' :=
  ⟨{ preferNoexp := true }, 9999999999/10, " 1.000000+9".toList, " 1000000000".toList, .flt 1000000000,
    rfl, rfl, by decide +kernel, by decide +kernel, by decide +kernel, by decide +kernel⟩

/-- C07, all options: the second writing keeps the value, and keeps the text unless the first text
was the exponential form. -/
theorem C07_value_stable (o : WOpts) (hw : 9 ≤ o.width) (val : ℚ) (hr : InRange val)
    (s : Str) (hs : float2fortstr o (.flt val) = .ok s)
    (r : ROpts) (hrw : r.width = o.width) (x : Num) (hx : readFloat r s = .ok x) :
    ∃ s', float2fortstr o (.flt x.val) = .ok s' ∧
      (∃ y, readFloat r s' = .ok y ∧ y.val = x.val) ∧
      (float2expformstr o val ≠ .ok s → s' = s) := by
  by_cases hp : o.preferNoexp = true
  swap
  · have hp' : o.preferNoexp = false := by simpa using hp
    exact ⟨s, C07_partial o hw hp' val hr s hs r hrw x hx, ⟨x, hx, rfl⟩, fun _ => rfl⟩
  obtain ⟨k, n, e, hn, hlen, hk, herr, hext, h2, h3⟩ := expform_char o hw hr
  set es := fieldOf o (decide (val < 0)) k n e with hes
  set ve := signed (decide (val < 0)) ((k : ℚ) * 10 ^ (e - n)) with hve
  have hrese := reads_fieldOf o (decide (val < 0)) k n e hn
  rw [← hes, ← hve] at hrese
  obtain ⟨v, hv⟩ := basic_reads hw (o := o) val
  have hv0 : Reads (basicStripped o val) v := by simpa using hv 0
  have he : float2expformstr o val = .ok es := h2 0
  rw [float2fortstr_noexp hp he hv0 hrese] at hs
  have hrd : ∀ {T : Str} {q : ℚ}, Reads T q → T.length ≤ o.width →
      ∃ y, readFloat r T = .ok y ∧ y.val = q := by
    intro T q h hT
    exact h (some r.width) r.acceptSpaces r.preserve (by intro m hm; cases hm; rw [hrw]; exact hT)
  by_cases hcase : o.width < (basicStripped o val).length ∨ |ve - val| < |v - val|
  · -- exponential form was chosen
    rw [if_pos hcase] at hs
    have hs := (Except.ok.inj hs).symm
    subst hs
    obtain ⟨y, hy, hyv⟩ := hrd hrese hlen.le
    have hxy : x = y := by have := hx.symm.trans hy; cases this; rfl
    subst hxy
    obtain ⟨v', hv'⟩ := basic_reads hw (o := o) x.val
    have hv0' : Reads (basicStripped o x.val) v' := by simpa using hv' 0
    have he' : float2expformstr o x.val = .ok es := by rw [hyv]; exact h3 0
    refine ⟨_, float2fortstr_noexp hp he' hv0' hrese, ?_, fun h => absurd he h⟩
    by_cases hc' : o.width < (basicStripped o x.val).length ∨ |ve - x.val| < |v' - x.val|
    · rw [if_pos hc']
      exact ⟨x, hx, rfl⟩
    · rw [if_neg hc']
      push Not at hc'
      obtain ⟨hl, hd⟩ := hc'
      rw [hyv, sub_self, abs_zero] at hd
      have hvv : v' = ve := by
        have := abs_nonpos_iff.1 hd; linarith
      have : Reads (rjust (basicStripped o x.val) o.width) v' := hv' _
      obtain ⟨z, hz, hzv⟩ := hrd this (by rw [rjust_length_le hl])
      exact ⟨z, hz, by rw [hzv, hvv, hyv]⟩
  · -- the text without exponent was chosen
    rw [if_neg hcase] at hs
    cases hs
    push Not at hcase
    obtain ⟨hl, hd⟩ := hcase
    have hrb : Reads (rjust (basicStripped o val) o.width) v := hv _
    obtain ⟨y, hy, hyv⟩ := hrd hrb (by rw [rjust_length_le hl])
    have hxy : x = y := by have := hx.symm.trans hy; cases this; rfl
    subst hxy
    by_cases h0 : val = 0
    · -- zero
      have hk0 : ve = 0 := by
        have h4 := h3 0
        have h5 := h2 0
        subst h0
        obtain ⟨n', hn', _, _, hz⟩ := expform_zero o hw 1
        have : es = fieldOf o false 0 n' 0 := by
          rw [hz] at h5; exact (Except.ok.inj h5).symm
        have hr0 := reads_fieldOf o false 0 n' 0 hn'
        rw [← this] at hr0
        have := reads_unique hrese hr0
        rw [this]; simp [signed]
      have hv00 : v = 0 := by
        rw [hk0, h0] at hd; simp at hd; exact hd
      rw [hyv, hv00, ← h0]
      refine ⟨_, float2fortstr_noexp hp he hv0 hrese, ?_, fun _ => ?_⟩
      · rw [if_neg (by push Not; exact ⟨hl, hd⟩)]
        exact ⟨x, hx, by rw [hyv, hv00, h0]⟩
      · rw [if_neg (by push Not; exact ⟨hl, hd⟩)]
    · have hvne : v ≠ 0 := by
        intro hv00
        rw [hv00] at hd
        obtain ⟨k1, _⟩ := hk h0
        have hkq : (10:ℚ) ^ n ≤ k := by exact_mod_cast k1
        have hq := ten_zpow_pos (e - n)
        have habs : |ve| = (k:ℚ) * 10 ^ (e - n) := abs_signed _ (by positivity)
        have h10 : (10:ℚ) ≤ 10 ^ n := by
          calc (10:ℚ) = 10 ^ 1 := by norm_num
            _ ≤ _ := pow_le_pow_right₀ (by norm_num) hn
        have h6 : |ve| ≤ |ve - val| + |val| := by
          have := abs_add_le (ve - val) val; simpa using this
        have h7 : |(0:ℚ) - val| = |val| := by simp
        rw [h7] at hd
        rw [habs] at h6
        nlinarith
      obtain ⟨f1, f2⟩ := basic_again hw h0 hv0 hvne hl
      obtain ⟨v', hv'⟩ := basic_reads hw (o := o) v
      have hv'v : v' = v := by
        have a : Reads (rjust (basicStripped o v) o.width) v' := hv' _
        rw [f2] at a
        exact reads_unique a hrb
      have hv0' : Reads (basicStripped o v) v := by
        have := hv' 0; rw [hv'v] at this; simpa using this
      -- the exponential form of the value also exists
      have hrange : InRange v := by
        right
        obtain ⟨x1, x2⟩ := hext h0
        have y1 : |val| ≤ |v - val| + |v| := by
          have := abs_sub v (v - val); simp at this; linarith
        have y2 : |v| ≤ |v - val| + |val| := by
          have := abs_add_le (v - val) val; simpa using this
        generalize (10:ℚ) ^ (999:Int) = H at *
        generalize (10:ℚ) ^ (-999:Int) = L at *
        constructor <;> linarith
      obtain ⟨k', n', e', hn', hlen', _, _, _, h2', _⟩ := expform_char o hw hrange
      have hre' := reads_fieldOf o (decide (v < 0)) k' n' e' hn'
      rw [hyv]
      have hfin := float2fortstr_noexp hp (h2' 0) hv0' hre'
      rw [if_neg (by
        push Not
        refine ⟨f1, ?_⟩
        rw [sub_self, abs_zero]; exact abs_nonneg _)] at hfin
      refine ⟨_, hfin, ?_, fun _ => f2⟩
      rw [f2]; exact ⟨x, hx, hyv⟩

/-! ## C08 prefer_noexp -/

/-- C08: with `prefer_noexp` the written text fills the field exactly and every reader of this width
gets a value from it that is at least as close to the original as the exponential form. -/
theorem C08_noexp (o : WOpts) (hw : 9 ≤ o.width) (hp : o.preferNoexp = true) (val : ℚ)
    (hr : InRange val) :
    ∃ s es, float2fortstr o (.flt val) = .ok s ∧ s.length = o.width ∧
      float2expformstr o val = .ok es ∧
      ∀ r : ROpts, r.width = o.width → ∃ x xe, readFloat r s = .ok x ∧ readFloat r es = .ok xe ∧
        |x.val - val| ≤ |xe.val - val| := by
  obtain ⟨k, n, e, hn, hlen, _, _, _, h2, _⟩ := expform_char o hw hr
  have hrese := reads_fieldOf o (decide (val < 0)) k n e hn
  obtain ⟨v, hv⟩ := basic_reads hw (o := o) val
  have hv0 : Reads (basicStripped o val) v := by simpa using hv 0
  have he : float2expformstr o val = .ok _ := h2 0
  refine ⟨_, _, float2fortstr_noexp hp he hv0 hrese, ?_, he, ?_⟩
  · split
    · exact hlen
    · rename_i h; push Not at h; exact rjust_length_le h.1
  · intro r hrw
    have hrd : ∀ {T : Str} {q : ℚ}, Reads T q → T.length ≤ o.width →
        ∃ y, readFloat r T = .ok y ∧ y.val = q := by
      intro T q h hT
      exact h (some r.width) r.acceptSpaces r.preserve (by intro m hm; cases hm; rw [hrw]; exact hT)
    obtain ⟨xe, hxe, hxv⟩ := hrd hrese hlen.le
    split
    · exact ⟨xe, xe, hxe, hxe, le_refl _⟩
    · rename_i h; push Not at h
      obtain ⟨x, hx, hxv'⟩ := hrd (hv (o.width - (basicStripped o val).length)) (by
        have := rjust_length_le h.1
        unfold rjust at this; omega)
      exact ⟨x, xe, hx, hxe, by rw [hxv, hxv']; exact h.2⟩

/-- C05 for the complete float writer -/
theorem C05_float_width (o : WOpts) (hw : 9 ≤ o.width) (val : ℚ) (hr : InRange val) :
    ∃ s, float2fortstr o (.flt val) = .ok s ∧ s.length = o.width := by
  by_cases hp : o.preferNoexp = true
  · obtain ⟨s, _, h1, h2, _⟩ := C08_noexp o hw hp val hr
    exact ⟨s, h1, h2⟩
  · obtain ⟨s, h1, h2⟩ := C05_exp_width o hw val hr
    refine ⟨s, ?_, h2⟩
    unfold float2fortstr
    simp only [hp, h1, Bool.not_false, if_true, bind, Except.bind, pure, Except.pure]

example : float2fortstr { preferNoexp := true } (.flt (12345678/1000)) = .ok "  12345.678".toList := by
  decide +kernel

/-! ## C09 preserve_value_strings -/

/-- C09 (part): with `preserve_value_strings` every non-blank field of the full width that can be
read is written back identically, whatever the other options are.
Missing: blank fields, see `C09_fails`. -/
theorem C09_partial (r : ROpts) (hp : r.preserve = true) (o : WOpts) (hw : o.width = r.width)
    (s : Str) (hl : s.length = r.width) (hnb : ¬ ∀ c ∈ s, isWs c = true) (x : Num)
    (hx : readFloat r s = .ok x) : float2fortstr o x = .ok s := by
  unfold readFloat fortstr2float at hx
  have hc : cutWidth (some r.width) s = s := List.take_of_length_le hl.le
  simp only [hc, hp] at hx
  rw [if_neg (by rw [strip_eq_nil_iff]; exact hnb)] at hx
  split at hx
  · simp only [if_true, Except.ok.injEq] at hx
    subst hx
    unfold float2fortstr
    simp only
    rw [if_neg (by rw [hw, hl]; simp)]
  · cases hx

/-- C09 fails for blank fields: they are read as a plain 0.0 and written as ` 0.000000+0`. -/
theorem C09_fails : ∃ (r : ROpts) (o : WOpts) (s s' : Str) (x : Num), r.preserve = true ∧
    o.width = r.width ∧ s.length = r.width ∧ readFloat r s = .ok x ∧ float2fortstr o x = .ok s' ∧ s ≠ s' :=
  ⟨{ preserve := true }, {}, blanks 11, " 0.000000+0".toList, .flt 0, rfl, rfl, by decide,
    by decide +kernel, by decide +kernel, by decide⟩

example : (readFloat { preserve := true } "  1.5e3    ".toList).bind (float2fortstr {}) =
    .ok "  1.5e3    ".toList := by decide +kernel

end Verif
