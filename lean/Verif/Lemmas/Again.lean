import Verif.Lemmas.Stable
/- Helper lemmas: writing a number that was read from a text without exponent. -/
namespace Verif
open Spec

theorem signed_lt_zero {neg : Bool} {q : ℚ} (hq : 0 < q) : (signed neg q < 0 ↔ neg = true) ∧ (0 < signed neg q ↔ neg = false) := by
  cases neg <;> simp [signed]
  · exact ⟨hq.le, hq⟩
  · exact ⟨hq, hq.le⟩

/-- integer part of the text's value in the fractional branch -/
theorem kOf_bounds (o : WOpts) (val : ℚ) :
    (truncRat val).natAbs * 10 ^ (fwOf o val).toNat ≤ kOf o val ∧
    kOf o val ≤ ((truncRat val).natAbs + 1) * 10 ^ (fwOf o val).toNat := by
  have h := truncRat_natAbs val
  have h1 := Int.floor_le |val|
  have h2 := Int.lt_floor_add_one |val|
  rw [← h] at h1 h2
  set m := (truncRat val).natAbs
  set n := (fwOf o val).toNat
  have hp : (0:ℚ) < 10 ^ n := by positivity
  have a : ((m * 10 ^ n : Nat) : Int) ≤ roundHE (|val| * 10 ^ n) := by
    apply le_roundHE; push_cast at *; nlinarith
  have b : roundHE (|val| * 10 ^ n) ≤ (((m+1) * 10 ^ n : Nat) : Int) := by
    apply roundHE_le; push_cast at *; nlinarith
  unfold kOf
  constructor
  · have := Int.toNat_le_toNat a
    rwa [Int.toNat_natCast] at this
  · exact Int.toNat_le.2 b

theorem trunc_of_frac {neg : Bool} {K n m : Nat} (hK : K % 10 ^ n ≠ 0) (h1 : m * 10 ^ n ≤ K) (h2 : K ≤ (m+1) * 10 ^ n) :
    truncRat (signed neg ((K:ℚ) / 10 ^ n)) = (if neg then -(m:Int) else m) ∧
      isIntOf (signed neg ((K:ℚ) / 10 ^ n)) = false ∧ K / 10 ^ n = m := by
  have hp : 0 < 10 ^ n := by positivity
  have hlt : K < (m+1) * 10 ^ n := by
    rcases Nat.lt_or_eq_of_le h2 with h | h
    · exact h
    · exfalso; apply hK; rw [h]; exact Nat.mul_mod_left _ _
  have hgt : m * 10 ^ n < K := by
    rcases Nat.lt_or_eq_of_le h1 with h | h
    · exact h
    · exfalso; apply hK; rw [← h]; exact Nat.mul_mod_left _ _
  have hdiv : K / 10 ^ n = m := by
    apply Nat.div_eq_of_lt_le
    · exact h1
    · exact hlt
  have hpq : (0:ℚ) < 10 ^ n := by positivity
  have q1 : (m:ℚ) < (K:ℚ) / 10 ^ n := by
    rw [lt_div_iff₀ hpq]; exact_mod_cast hgt
  have q2 : (K:ℚ) / 10 ^ n < m + 1 := by
    rw [div_lt_iff₀ hpq]; exact_mod_cast hlt
  have hfl : ⌊(K:ℚ) / 10 ^ n⌋ = m := by
    rw [Int.floor_eq_iff]; push_cast; exact ⟨q1.le, q2⟩
  have hq0 : 0 < (K:ℚ) / 10 ^ n := lt_of_le_of_lt (by positivity) q1
  have htr : truncRat (signed neg ((K:ℚ) / 10 ^ n)) = (if neg then -(m:Int) else m) := by
    unfold truncRat
    cases neg
    · simp only [signed, Bool.false_eq_true, if_false]
      rw [if_pos hq0.le, hfl]
    · simp only [signed, if_true]
      rw [if_neg (by linarith), Int.ceil_neg, hfl]
  refine ⟨htr, ?_, hdiv⟩
  rw [Bool.eq_false_iff]
  intro h
  rw [isIntOf_iff, htr] at h
  cases neg
  · simp only [signed, Bool.false_eq_true, if_false] at h; push_cast at h; linarith
  · simp only [signed, if_true] at h; push_cast at h; linarith

/-- writing the value of a text with digits behind the point gives the same text -/
theorem basic_again_frac {o : WOpts} {val : ℚ} (h0 : val ≠ 0)
    (hb : 0 < fwOf o val ∧ (!isIntOf val) = true)
    (hK : kOf o val % 10 ^ (fwOf o val).toNat ≠ 0) :
    basicStripped o (signed (decide (val < 0)) ((kOf o val : ℚ) / 10 ^ (fwOf o val).toNat)) =
      basicStripped o val := by
  obtain ⟨b1, b2⟩ := kOf_bounds o val
  obtain ⟨t1, t2, t3⟩ := trunc_of_frac (neg := decide (val < 0)) hK b1 b2
  set n := (fwOf o val).toNat with hn
  set K := kOf o val with hKd
  set v := signed (decide (val < 0)) ((K : ℚ) / 10 ^ n) with hv
  have hKpos : 0 < K := Nat.pos_of_ne_zero (by intro h; apply hK; rw [h]; simp)
  have hq : (0:ℚ) < (K:ℚ) / 10 ^ n := by positivity
  obtain ⟨s1, s2⟩ := signed_lt_zero (neg := decide (val < 0)) hq
  rw [← hv] at s1 s2
  have hvneg : v < 0 ↔ val < 0 := by rw [s1]; simp
  have hvpos : v > 0 ↔ val > 0 := by
    show 0 < v ↔ 0 < val
    rw [s2]; simp only [decide_eq_false_iff_not, not_lt]
    exact ⟨fun h => lt_of_le_of_ne h (Ne.symm h0), le_of_lt⟩
  have hv0 : v ≠ 0 := by
    rcases lt_or_gt_of_ne h0 with h | h
    · exact ne_of_lt (hvneg.2 h)
    · exact ne_of_gt (hvpos.2 h)
  have htr : truncRat v = truncRat val := by
    rw [t1]
    by_cases hz : truncRat val = 0
    · rw [hz]; simp
    · obtain ⟨z1, z2⟩ := truncRat_sign hz
      by_cases hneg : val < 0
      · simp only [hneg, decide_true, if_true]
        have := z2.2 hneg; omega
      · simp only [hneg, decide_false, Bool.false_eq_true, if_false]
        have := mt z2.1 hneg; omega
  have hi : isIntOf v = isIntOf val := by
    rw [t2]; simpa using hb.2.symm
  have hskip : skipOf o v = skipOf o val := by unfold skipOf; rw [htr]
  have heff : effOf o v = effOf o val := by unfold effOf; rw [hskip]
  have hfw : fwOf o v = fwOf o val := by
    unfold fwOf
    have : decide (v > 0) = decide (val > 0) := by simp [hvpos]
    rw [heff, htr, hi, this]
  have habs : |v| * 10 ^ n = ((K : Int) : ℚ) := by
    rw [hv, abs_signed _ hq.le]
    rw [div_mul_cancel₀ _ (by positivity)]; simp
  have hfmt : fmtSigned v n = fmtSigned val n := by
    rw [fmtSigned_eq v n (by omega), fmtSigned_eq val n (by omega)]
    have e1 : (roundHE (|v| * 10 ^ n)).toNat = K := by rw [habs, roundHE_int]; simp
    have e2 : (roundHE (|val| * 10 ^ n)).toNat = K := rfl
    rw [e1, e2]
    simp [hvneg]
  have hfrac : basicFrac o v = basicFrac o val := by
    unfold basicFrac
    rw [hfw, ← hn, hfmt, heff, hskip]
  have hbas : float2basicnumstr o v = float2basicnumstr o val := by
    rw [basic_eq o v hv0, basic_eq o val h0, hfw, hi, if_pos hb, if_pos hb, hfrac]
  unfold basicStripped
  rw [hbas]

/-- writing an integer -/
theorem basic_of_int {o : WOpts} (hw : 9 ≤ o.width) {N : Int} (hN : N ≠ 0)
    (hfit : (if 0 < N ∧ (!o.abuseSignpos) = true then 1 else 0) + (intStr N).length ≤ o.width) :
    (basicStripped o N).length ≤ o.width ∧
      rjust (basicStripped o N) o.width = rjust (intStr N) o.width := by
  have h0 : (N:ℚ) ≠ 0 := by exact_mod_cast hN
  have hi : isIntOf (N:ℚ) = true := by rw [isIntOf_iff, truncRat_int]
  obtain ⟨j, h1, h2⟩ := basicInt_strip (o := o) hw h0 (by rw [hi]; simp)
  rw [truncRat_int] at h1 h2
  have hs : signCol o (N:ℚ) = (if 0 < N ∧ (!o.abuseSignpos) = true then 1 else 0) := by
    unfold signCol
    have : (0:ℚ) < (N:ℚ) ↔ 0 < N := by exact_mod_cast Iff.rfl
    simp only [this]
  rw [hs] at h2
  have h3 := h2.2 hfit
  refine ⟨h3, ?_⟩
  rw [h1] at h3 ⊢
  apply rjust_pad
  simpa using h3

theorem natStr_length_succ_le (m a : Nat) (h : a ≤ m + 1) : (natStr a).length ≤ (natStr m).length + 1 := by
  have hm := natStr_length_pos m
  obtain ⟨L, hL⟩ : ∃ L, (natStr m).length = L + 1 := ⟨(natStr m).length - 1, by omega⟩
  have h1 := (natStr_length_le L m).1 (by omega)
  have h2 : a < 10 ^ (L + 1 + 1) := by
    have : 10 ^ (L+1+1) = 10 * 10 ^ (L+1) := by rw [pow_succ]; ring
    have h3 : 0 < 10 ^ (L+1) := by positivity
    omega
  have := (natStr_length_le (L+1) a).2 h2
  omega

theorem fixDigits_mod_zero {n K : Nat} :
    rstripChar '0' (fixDigits n (K % 10 ^ n)) = [] ↔ K % 10 ^ n = 0 := by
  have hv := digitsVal_fixDigits n (K % 10 ^ n)
  rw [Nat.mod_mod] at hv
  constructor
  · intro h; rw [← hv]; exact digitsVal_eq_zero h
  · intro h
    by_contra hc
    exact digitsVal_ne_zero (fixDigits_dig _ _) hc (by rw [hv]; exact h)

theorem basic_again {o : WOpts} (hw : 9 ≤ o.width) {val v : ℚ} (h0 : val ≠ 0)
    (hr : Reads (basicStripped o val) v) (hv : v ≠ 0)
    (hfit : (basicStripped o val).length ≤ o.width) :
    (basicStripped o v).length ≤ o.width ∧
      rjust (basicStripped o v) o.width = rjust (basicStripped o val) o.width := by
  by_cases hb : 0 < fwOf o val ∧ (!isIntOf val) = true
  · obtain ⟨j0, h1, h2⟩ := basicFrac_strip (o := o) h0 hb
    obtain ⟨b1, b2⟩ := kOf_bounds o val
    by_cases hK : kOf o val % 10 ^ (fwOf o val).toNat = 0
    · have hz := fixDigits_mod_zero.2 hK
      cases hs : skipOf o val with
      | false =>
        have hbs := h1 hs
        set n := (fwOf o val).toNat with hn
        set K := kOf o val with hKd
        rw [decText_text, if_pos hz] at hbs
        have hval : v = signed (decide (val < 0)) ((K / 10 ^ n : Nat) : ℚ) := by
          apply reads_unique hr
          rw [h1 hs]
          have hwf : (decText (decide (val < 0)) (natStr (K / 10 ^ n)) (fixDigits n (K % 10 ^ n))).WF :=
            decText_wf (natStr_dig _) (fixDigits_dig _ _) (Or.inl (natStr_ne_nil _))
          have := reads_pad hwf j0
          rw [decText_value, digitsVal_mantissa, fixDigits_length] at this
          have e : (K:ℚ) / 10 ^ n = ((K / 10 ^ n : Nat) : ℚ) := by
            rw [div_eq_iff (by positivity)]
            exact_mod_cast (Nat.div_mul_cancel (Nat.dvd_of_mod_eq_zero hK)).symm
          rw [e] at this; exact this
        set a := K / 10 ^ n with ha
        have ha0 : a ≠ 0 := by
          intro h; apply hv; rw [hval, h]; cases decide (val < 0) <;> simp [signed]
        have hlen : (natStr a).length ≤ (natStr (truncRat val).natAbs).length + 1 := by
          apply natStr_length_succ_le
          have h3 : a ≤ ((truncRat val).natAbs + 1) * 10 ^ n / 10 ^ n := Nat.div_le_div_right b2
          rwa [Nat.mul_div_cancel _ (by positivity)] at h3
        clear_value a
        obtain ⟨N, hN⟩ : ∃ N : Int, N = (if decide (val < 0) then -(a:Int) else a) := ⟨_, rfl⟩
        have hvN : v = N := by
          rw [hval, hN]; cases decide (val < 0) <;> simp [signed]
        have hN0 : N ≠ 0 := by rw [hN]; split <;> omega
        have hNneg : N < 0 ↔ val < 0 := by
          rw [hN]; by_cases h : val < 0 <;> simp [h]; omega
        have hNpos : 0 < N ↔ 0 < val := by
          have : val < 0 ∨ 0 < val := lt_or_gt_of_ne h0
          rw [hN]
          rcases this with h | h
          · simp [h, not_lt.2 h.le]
          · simp [not_lt.2 h.le, h]; omega
        have hNabs : N.natAbs = a := by rw [hN]; split <;> simp
        have htext : (if decide (val < 0) = true then ['-'] else []) ++ natStr a = intStr N := by
          rw [intStr_eq, hNabs]; simp [hNneg]
        rw [List.append_nil, htext] at hbs
        have hfw := hb.1
        have hni : isIntOf val = false := by simpa using hb.2
        have hfitN : (if 0 < N ∧ (!o.abuseSignpos) = true then 1 else 0) + (intStr N).length ≤ o.width := by
          rw [intStr_eq, List.length_append, hNabs]
          unfold fwOf effOf at hfw
          simp only [hs, hni, Bool.false_eq_true, if_false] at hfw
          rcases lt_or_gt_of_ne h0 with h | h
          · have e1 : N < 0 := hNneg.2 h
            have e2 : ¬ (0 < N) := by omega
            have e3 : ¬ (val > 0) := by linarith
            simp only [e1, e2, if_true, false_and, if_false, List.length_singleton]
            simp only [e3, decide_false, Bool.and_false, Bool.false_eq_true, if_false] at hfw
            omega
          · have e1 : ¬ (N < 0) := by have := hNpos.2 h; omega
            have e2 : 0 < N := hNpos.2 h
            have e3 : val > 0 := h
            simp only [e1, e2, true_and, if_false, List.length_nil]
            simp only [e3, decide_true, Bool.and_true] at hfw
            cases hab : o.abuseSignpos <;> simp only [hab, Bool.not_true, Bool.not_false, if_true, if_false, Bool.false_eq_true] at hfw ⊢ <;> omega
        obtain ⟨f1, f2⟩ := basic_of_int hw hN0 hfitN
        rw [hvN]
        refine ⟨f1, ?_⟩
        rw [f2, hbs]
        symm; apply rjust_pad
        rw [hbs] at hfit; simpa using hfit
      | true =>
        exfalso
        rcases (h2 hs).2 hz with h | h
        · rw [h] at hr; exact hv (reads_unique hr (reads_blank j0))
        · rw [h] at hr
          exact hv (reads_unique hr (by simpa using reads_zero 0))
    · have hz : rstripChar '0' (fixDigits (fwOf o val).toNat (kOf o val % 10 ^ (fwOf o val).toNat)) ≠ [] :=
        fun h => hK (fixDigits_mod_zero.1 h)
      have hval : v = signed (decide (val < 0)) ((kOf o val : ℚ) / 10 ^ (fwOf o val).toNat) := by
        apply reads_unique hr
        cases hs : skipOf o val with
        | false =>
          rw [h1 hs]
          have hwf : (decText (decide (val < 0)) (natStr (kOf o val / 10 ^ (fwOf o val).toNat))
              (fixDigits (fwOf o val).toNat (kOf o val % 10 ^ (fwOf o val).toNat))).WF :=
            decText_wf (natStr_dig _) (fixDigits_dig _ _) (Or.inl (natStr_ne_nil _))
          have := reads_pad hwf j0
          rw [decText_value, digitsVal_mantissa, fixDigits_length] at this
          exact this
        | true =>
          rw [(h2 hs).1 hz]
          have hwf : (decText (decide (val < 0)) []
              (fixDigits (fwOf o val).toNat (kOf o val % 10 ^ (fwOf o val).toNat))).WF :=
            decText_wf (by intro c hc; cases hc) (fixDigits_dig _ _) (Or.inr hz)
          have := reads_pad hwf j0
          rw [decText_value, List.nil_append, digitsVal_fixDigits, fixDigits_length, Nat.mod_mod] at this
          have hlt : kOf o val < 10 ^ (fwOf o val).toNat := by
            have hsk := hs
            simp only [skipOf, Bool.and_eq_true, beq_iff_eq] at hsk
            rw [hsk.2] at b2
            simp only [Int.natAbs_zero, Nat.zero_add, Nat.one_mul] at b2
            rcases Nat.lt_or_eq_of_le b2 with h | h
            · exact h
            · exfalso; apply hK; rw [h]; exact Nat.mod_self _
          have e2 := Nat.mod_eq_of_lt hlt
          have e3 : ((kOf o val % 10 ^ (fwOf o val).toNat : Nat) : ℚ) = (kOf o val : ℚ) := by rw [e2]
          rw [e3] at this
          exact this
      rw [hval, basic_again_frac h0 hb hK]
      exact ⟨hfit, rfl⟩
  · obtain ⟨j0, h1, h2⟩ := basicInt_strip (o := o) hw h0 hb
    have hne := basicInt_ne_zero hw h0 hb
    have hval : v = (truncRat val : ℚ) := by
      apply reads_unique hr; rw [h1]; exact reads_intStr _ _
    have hf := h2.1 hfit
    obtain ⟨f1, f2⟩ := basic_of_int hw hne (by
      have : signCol o val = (if 0 < truncRat val ∧ (!o.abuseSignpos) = true then 1 else 0) := by
        unfold signCol; simp only [(truncRat_sign hne).1]
      rw [← this]; exact hf)
    rw [hval]
    refine ⟨f1, ?_⟩
    rw [f2, h1]
    symm; apply rjust_pad
    rw [h1] at hfit; simpa using hfit

end Verif
