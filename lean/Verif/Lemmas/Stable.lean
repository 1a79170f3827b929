import Verif.Lemmas.BasicWrite
/- Helper lemmas: values of written fields and writing them again. -/
namespace Verif
open Spec

/-- every reader whose width covers the text gets the value `v` from the text `s` -/
def Reads (s : Str) (v : ℚ) : Prop :=
  ∀ (w : Option Nat) (a p : Bool), (∀ m, w = some m → s.length ≤ m) →
    ∃ x, fortstr2float w a p s = .ok x ∧ x.val = v

theorem reads_fieldOf (o : WOpts) (neg : Bool) (k n : Nat) (e : Int) (hn : 1 ≤ n) :
    Reads (fieldOf o neg k n e) (signed neg ((k : ℚ) * 10 ^ (e - n))) := by
  intro w a p h
  rw [read_fieldOf o neg k n e hn w a p h]
  refine ⟨_, rfl, ?_⟩
  split <;> rfl

theorem reads_pad {t : NumText} (h : t.WF) (j : Nat) :
    Reads (List.replicate j ' ' ++ t.withE 'E') t.value := by
  intro w a p hw
  have := fortstr2float_withE h (e := 'E') (Or.inr rfl) w a p j 0 (by
    intro n hn; have := hw n hn; simp at this ⊢; omega)
  simp only [List.replicate_zero, List.append_nil] at this
  rw [this]
  refine ⟨_, rfl, ?_⟩
  split <;> rfl

theorem reads_blank (j : Nat) : Reads (List.replicate j ' ') 0 := by
  intro w a p hw
  refine ⟨.flt 0, ?_, rfl⟩
  unfold fortstr2float
  have : cutWidth w (List.replicate j ' ') = List.replicate j ' ' := by
    cases w with
    | none => rfl
    | some n => have := hw n rfl; rw [cutWidth, List.take_of_length_le this]
  simp only [this, strip_replicate, if_true]

theorem reads_unique {s : Str} {v v' : ℚ} (h : Reads s v) (h' : Reads s v') : v = v' := by
  obtain ⟨x, h1, h2⟩ := h none true false (by simp)
  obtain ⟨y, h3, h4⟩ := h' none true false (by simp)
  rw [h1] at h3; cases h3; rw [← h2, ← h4]

theorem zero_wf : (decText false ['0'] []).WF :=
  decText_wf (by intro c hc; simp at hc; subst hc; decide) (by intro c hc; cases hc) (Or.inl (by simp))

theorem reads_zero (j : Nat) : Reads (List.replicate j ' ' ++ ['0']) 0 := by
  have h := reads_pad zero_wf j
  rw [decText_value] at h
  have h1 : (decText false ['0'] []).withE 'E' = ['0'] := by decide
  have h2 : digitsVal (['0'] ++ []) = 0 := by decide
  rw [h1, h2] at h
  simpa [signed] using h

theorem intStr_wf (n : Int) : (decText (decide (n < 0)) (natStr n.natAbs) []).WF :=
  decText_wf (natStr_dig _) (by intro c hc; cases hc) (Or.inl (natStr_ne_nil _))

theorem reads_intStr (j : Nat) (n : Int) : Reads (List.replicate j ' ' ++ intStr n) n := by
  have h := reads_pad (intStr_wf n) j
  rw [decText_value, ← intStr_eq_decText] at h
  have hv : signed (decide (n < 0)) ((digitsVal (natStr n.natAbs ++ []) : ℚ) / 10 ^ ([] : Str).length) = n := by
    rw [List.append_nil, digitsVal_natStr]
    simp only [List.length_nil, pow_zero, div_one]
    by_cases hn : n < 0
    · simp only [hn, decide_true, signed, if_true]
      rw [Nat.cast_natAbs, abs_of_neg hn]; push_cast; ring
    · simp only [hn, decide_false, signed, Bool.false_eq_true, if_false]
      rw [Nat.cast_natAbs, abs_of_nonneg (not_lt.1 hn)]
  rw [hv] at h; exact h

theorem digitsVal_ne_zero {f : Str} (hd : AllDig f) (h : rstripChar '0' f ≠ []) : digitsVal f ≠ 0 := by
  obtain ⟨h1, _⟩ := digitsVal_rstrip f
  rcases rstripChar_last '0' f with h2 | ⟨l, d, hd0, h2⟩
  · exact absurd h2 h
  · rw [h1, h2, digitsVal_append]
    have hdd : isDig d = true := AllDig.rstrip hd d (by rw [h2]; simp)
    have : digVal d ≠ 0 := by
      intro h0
      apply hd0
      unfold isDig at hdd; unfold digVal at h0
      simp at hdd
      have h3 : d.toNat = 48 := by omega
      exact Char.ext (UInt32.toNat_inj.1 h3)
    have hp : 0 < 10 ^ (f.length - (l ++ [d]).length) := by positivity
    intro h0
    rcases Nat.mul_eq_zero.1 h0 with h0 | h0 <;> omega

theorem digitsVal_eq_zero {f : Str} (h : rstripChar '0' f = []) : digitsVal f = 0 := by
  obtain ⟨h1, _⟩ := digitsVal_rstrip f
  rw [h1, h]; simp [digitsVal]

/-- the basic text can always be read; its value -/
theorem basic_reads {o : WOpts} (hw : 9 ≤ o.width) (val : ℚ) :
    ∃ v, ∀ j, Reads (List.replicate j ' ' ++ basicStripped o val) v := by
  by_cases h0 : val = 0
  · subst h0
    refine ⟨0, fun j => ?_⟩
    have : basicStripped o 0 = rjust ['0'] o.width := by
      have hb : float2basicnumstr o 0 = rjust ['0'] o.width := by
        unfold float2basicnumstr
        have : truncRat 0 = 0 := by simp [truncRat]
        simp [this]
      unfold basicStripped
      rw [hb]
      simp only
      rw [if_neg]
      intro h
      rw [List.contains_iff_mem] at h
      rcases List.mem_append.1 h with h | h
      · have := List.eq_of_mem_replicate h; revert this; decide
      · simp at h
    rw [this]
    unfold rjust
    rw [← List.append_assoc, List.replicate_append_replicate]
    exact reads_zero _
  · by_cases hb : 0 < fwOf o val ∧ (!isIntOf val) = true
    · obtain ⟨j0, h1, h2⟩ := basicFrac_strip (o := o) h0 hb
      have padassoc : ∀ (j : Nat) (s : Str), List.replicate j ' ' ++ (List.replicate j0 ' ' ++ s) =
          List.replicate (j + j0) ' ' ++ s := by
        intro j s; rw [← List.append_assoc, List.replicate_append_replicate]
      cases hs : skipOf o val with
      | false =>
        rw [h1 hs]
        refine ⟨(decText (decide (val < 0)) (natStr (kOf o val / 10 ^ (fwOf o val).toNat))
          (fixDigits (fwOf o val).toNat (kOf o val % 10 ^ (fwOf o val).toNat))).value, fun j => ?_⟩
        rw [padassoc]
        exact reads_pad (decText_wf (natStr_dig _) (fixDigits_dig _ _) (Or.inl (natStr_ne_nil _))) _
      | true =>
        obtain ⟨h3, h4⟩ := h2 hs
        by_cases hf : rstripChar '0' (fixDigits (fwOf o val).toNat (kOf o val % 10 ^ (fwOf o val).toNat)) = []
        · refine ⟨0, fun j => ?_⟩
          rcases h4 hf with h | h
          · rw [h, List.replicate_append_replicate]; exact reads_blank _
          · rw [h]; exact reads_zero j
        · rw [h3 hf]
          refine ⟨(decText (decide (val < 0)) []
            (fixDigits (fwOf o val).toNat (kOf o val % 10 ^ (fwOf o val).toNat))).value, fun j => ?_⟩
          rw [padassoc]
          exact reads_pad (decText_wf (by intro c hc; cases hc) (fixDigits_dig _ _) (Or.inr hf)) _
    · obtain ⟨j0, h1, _⟩ := basicInt_strip (o := o) hw h0 hb
      refine ⟨(truncRat val : ℚ), fun j => ?_⟩
      rw [h1, ← List.append_assoc, List.replicate_append_replicate]
      exact reads_intStr _ _

/-- writing with `prefer_noexp` as a decision between the two texts -/
theorem float2fortstr_noexp {o : WOpts} (hp : o.preferNoexp = true) {val v ve : ℚ} {es : Str}
    (he : float2expformstr o val = .ok es) (h1 : Reads (basicStripped o val) v) (h2 : Reads es ve) :
    float2fortstr o (.flt val) = .ok
      (if o.width < (basicStripped o val).length ∨ |ve - val| < |v - val| then es
        else rjust (basicStripped o val) o.width) := by
  unfold float2fortstr
  obtain ⟨x, hx, hxv⟩ := h1 none true false (by simp)
  obtain ⟨y, hy, hyv⟩ := h2 none true false (by simp)
  simp only [he, hp, hx, hy, hxv, hyv, Bool.not_true, Bool.false_eq_true, if_false, bind, Except.bind, pure, Except.pure]
  by_cases hl : o.width < (basicStripped o val).length
  · simp [hl]
  · by_cases hd : |ve - val| < |v - val|
    · simp [hl, hd]
    · simp [hl, hd]

end Verif
