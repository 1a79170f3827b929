import Verif.Model.CppWrite
import Verif.Lemmas.ExpWrite

/-! Helper lemmas: the exponential form written by the C++ templates. -/

namespace Verif
open Spec

/-- exponents whose digits are all kept when the C++ writer removes leading zeros: at most two digits, or three digits
with a nonzero digit in the middle -/
def KeptExp (n : Nat) : Prop := n < 100 ∨ (n < 1000 ∧ (n / 10) % 10 ≠ 0)

instance : DecidablePred KeptExp := fun _ => inferInstanceAs (Decidable (_ ∨ _))

theorem shrink_kept : ∀ n < 1000, KeptExp n → ∀ b : Bool,
    shrinkExp ((if b then '+' else '-') :: twoDigits n) = (if b then '+' else '-') :: natStr n := by decide +kernel

theorem shrinkExp_kept {e : Int} (h : KeptExp e.natAbs) :
    shrinkExp ((if 0 ≤ e then '+' else '-') :: twoDigits e.natAbs) = (if 0 ≤ e then '+' else '-') :: natStr e.natAbs := by
  have := shrink_kept e.natAbs (by rcases h with h | h <;> omega) h (decide (0 ≤ e))
  by_cases h0 : 0 ≤ e <;> simpa [h0] using this

/-- the texts of the helper in terms of a number text -/
theorem sciHelper_text {v : ℚ} {p k : Nat} {e : Int} (hp : 1 ≤ p) (hk : sciParts v p = (k, e)) (he : KeptExp e.natAbs) :
    sciHelper v p = ((expText (decide (v < 0)) k p e).mant, (expText (decide (v < 0)) k p e).expN) := by
  unfold sciHelper sciMant sciExp
  have h1 : ¬ ((p : Int) < 0) := by omega
  simp only [if_neg h1, Int.toNat_natCast, hk, shrinkExp_kept he]
  have hp0 : ¬ p = 0 := by omega
  rw [if_neg hp0]
  unfold expText NumText.mant NumText.expN NumText.frac
  by_cases hv : v < 0 <;> by_cases h0 : 0 ≤ e <;> simp [hv, h0, Sgn.text]

/-! ### rounding -/

/-- `v` rounded to `p + 1` digits, as a number of units in the last place -/
def rnd (v : ℚ) (p : Nat) : Nat := (roundHE (|v / 10 ^ (Int.log 10 |v|)| * 10 ^ p)).toNat

theorem scaled_bounds {v : ℚ} (h0 : v ≠ 0) : 1 ≤ |v / 10 ^ (Int.log 10 |v|)| ∧ |v / 10 ^ (Int.log 10 |v|)| < 10 := by
  have hav : 0 < |v| := abs_pos.2 h0
  have hlo := Int.zpow_log_le_self (R := ℚ) (b := 10) (by norm_num) hav
  have hhi := Int.lt_zpow_succ_log_self (R := ℚ) (b := 10) (by norm_num) |v|
  push_cast at hlo hhi
  rw [abs_div, abs_of_pos (ten_zpow_pos _)]
  constructor
  · rw [le_div_iff₀ (ten_zpow_pos _)]; simpa using hlo
  · rw [div_lt_iff₀ (ten_zpow_pos _)]
    rw [zpow_add₀ (by norm_num), zpow_one] at hhi
    linarith

theorem rnd_round {v : ℚ} (h0 : v ≠ 0) (p : Nat) :
    (rnd v p : Int) = roundHE (|v / 10 ^ (Int.log 10 |v|)| * 10 ^ p) ∧ 10 ^ p ≤ rnd v p ∧ rnd v p ≤ 10 ^ (p + 1) := by
  obtain ⟨h1, h2⟩ := scaled_bounds h0
  have hp : (0 : ℚ) < 10 ^ p := by positivity
  have h3 : (((10 ^ p : Nat) : Int) : ℚ) ≤ |v / 10 ^ (Int.log 10 |v|)| * 10 ^ p := by push_cast; nlinarith
  have h4 : |v / 10 ^ (Int.log 10 |v|)| * 10 ^ p ≤ (((10 ^ (p + 1) : Nat) : Int) : ℚ) := by
    push_cast; rw [pow_succ]; nlinarith
  have h5 := le_roundHE h3
  have h6 := roundHE_le h4
  unfold rnd
  generalize roundHE (|v / 10 ^ (Int.log 10 |v|)| * 10 ^ p) = z at h5 h6
  have h7 : (0 : Int) ≤ ((10 ^ p : Nat) : Int) := Int.natCast_nonneg _
  refine ⟨by omega, ?_, ?_⟩ <;> omega

theorem roundHE_ge {x : ℚ} {m : Int} (h : (m : ℚ) - 1 / 2 < x) : m ≤ roundHE x := by
  have h1 := (abs_le.1 (roundHE_err x)).1
  by_contra hc
  have h2 : roundHE x ≤ m - 1 := by omega
  have h3 : (roundHE x : ℚ) ≤ m - 1 := by exact_mod_cast h2
  linarith

/-- a number that is rounded up to a power of ten is also rounded up with fewer digits -/
theorem rnd_carry {v : ℚ} (h0 : v ≠ 0) {p q : Nat} (hq : q ≤ p) (h : rnd v p = 10 ^ (p + 1)) : rnd v q = 10 ^ (q + 1) := by
  rcases Nat.eq_or_lt_of_le hq with rfl | hq
  · exact h
  obtain ⟨h1, h2, h3⟩ := rnd_round h0 p
  obtain ⟨g1, g2, g3⟩ := rnd_round h0 q
  generalize |v / 10 ^ (Int.log 10 |v|)| = x at h1 g1
  have h4 := (abs_le.1 (roundHE_err (x * 10 ^ p))).2
  rw [← h1, h] at h4
  push_cast at h4
  obtain ⟨d, rfl⟩ : ∃ d, p = q + (d + 1) := ⟨p - q - 1, by omega⟩
  have h5 : (((10 ^ (q + 1) : Nat) : Int) : ℚ) - 1 / 2 < x * 10 ^ q := by
    push_cast
    have e1 : (10 : ℚ) ^ (q + (d + 1)) = 10 ^ q * 10 ^ (d + 1) := by rw [pow_add]
    have e2 : (10 : ℚ) ^ (q + (d + 1) + 1) = 10 ^ (q + 1) * 10 ^ (d + 1) := by rw [← pow_add]; congr 1; omega
    rw [e1, e2] at h4
    have hd : (1 : ℚ) < 10 ^ (d + 1) := one_lt_pow₀ (by norm_num) (by omega)
    by_contra hc
    push Not at hc
    nlinarith
  have h6 := roundHE_ge h5
  rw [← g1] at h6
  have h7 : 10 ^ (q + 1) ≤ rnd v q := by exact_mod_cast h6
  omega

theorem sciParts_eq {v : ℚ} (h0 : v ≠ 0) (p : Nat) :
    sciParts v p = if rnd v p = 10 ^ (p + 1) then (10 ^ p, Int.log 10 |v| + 1) else (rnd v p, Int.log 10 |v|) := by
  unfold sciParts rnd
  rw [if_neg h0]

/-- what the rounded number is -/
theorem sciParts_spec {v : ℚ} (h0 : v ≠ 0) (p : Nat) : ∃ (k : Nat) (e : Int), sciParts v p = (k, e) ∧
    10 ^ p ≤ k ∧ k < 10 ^ (p + 1) ∧ (k : ℚ) * 10 ^ (e - p) = (rnd v p : ℚ) * 10 ^ (Int.log 10 |v| - p) ∧
    (e = Int.log 10 |v| ∧ rnd v p < 10 ^ (p + 1) ∨ e = Int.log 10 |v| + 1 ∧ rnd v p = 10 ^ (p + 1)) := by
  obtain ⟨_, h2, h3⟩ := rnd_round h0 p
  rw [sciParts_eq h0]
  have hpw : 10 ^ p < 10 ^ (p + 1) := Nat.pow_lt_pow_right (by norm_num) (by omega)
  split
  · rename_i hc
    refine ⟨_, _, rfl, le_refl _, hpw, ?_, .inr ⟨rfl, hc⟩⟩
    rw [hc]
    push_cast
    rw [← zpow_natCast, ← zpow_natCast, ← zpow_add₀ (by norm_num), ← zpow_add₀ (by norm_num)]
    congr 1; push_cast; ring
  · exact ⟨_, _, rfl, h2, by omega, rfl, .inl ⟨rfl, by omega⟩⟩

/-! ### the exponential form -/

theorem expText_lens (neg : Bool) (k p : Nat) (e : Int) (h1 : 10 ^ p ≤ k) (h2 : k < 10 ^ (p + 1)) :
    (expText neg k p e).mant.length = (if neg then 1 else 0) + 2 + p ∧
    (expText neg k p e).expN.length = 1 + (natStr e.natAbs).length := by
  have hd : (natStr (k / 10 ^ p)).length = 1 := by
    have h3 : k / 10 ^ p < 10 ^ (0 + 1) := by
      rw [Nat.div_lt_iff_lt_mul (by positivity)]; rw [pow_succ] at h2; simpa [Nat.mul_comm] using h2
    have := (natStr_length_le 0 _).2 h3
    have := natStr_length_pos (k / 10 ^ p)
    omega
  unfold expText NumText.mant NumText.expN NumText.frac
  constructor
  · cases neg <;> simp [Sgn.text, hd, fixDigits_length] <;> omega
  · by_cases h : 0 ≤ e <;> simp [Sgn.text, h] <;> omega

/-- number of digits behind the point at the first attempt -/
def firstDigits (o : WOpts) (neg : Bool) : Nat :=
  6 - (if o.keepE then 1 else 0) + (if !neg && o.abuseSignpos then 1 else 0)

theorem numDigits_eq (o : WOpts) (v : ℚ) : numDigits o v = firstDigits o (decide (v < 0)) := by
  unfold numDigits firstDigits
  by_cases h : v < 0
  · have h' : ¬ (0 ≤ v) := by linarith
    cases o.keepE <;> cases o.abuseSignpos <;> simp [h, h']
  · have h' : 0 ≤ v := by linarith
    cases o.keepE <;> cases o.abuseSignpos <;> simp [h, h']

theorem kept_len {n : Nat} (h : KeptExp n) : 1 ≤ (natStr n).length ∧ (natStr n).length ≤ 3 := by
  have := natStr_length_pos n
  have := (natStr_length_le 2 n).2 (by rcases h with h | h <;> omega)
  omega

/-- The exponential form of a nonzero number. -/
theorem sciForm_char (o : WOpts) {v : ℚ} (h0 : v ≠ 0) (hk1 : KeptExp (Int.log 10 |v|).natAbs)
    (hk2 : KeptExp (Int.log 10 |v| + 1).natAbs) : ∃ (k p n : Nat) (e : Int), 1 ≤ p ∧
    sciForm o v = ((expText (decide (v < 0)) k p e).mant, (expText (decide (v < 0)) k p e).expN) ∧
    (expText (decide (v < 0)) k p e).mant.length + (expText (decide (v < 0)) k p e).expN.length + (if o.keepE then 1 else 0) ≤ 11 ∧
    (firstDigits o (decide (v < 0)) : Int) + 1 - (natStr (Int.log 10 |v|).natAbs).length = n ∧
    (k : ℚ) * 10 ^ (e - p) = (rnd v n : ℚ) * 10 ^ (Int.log 10 |v| - n) := by
  obtain ⟨neg, hneg⟩ : ∃ neg, decide (v < 0) = neg := ⟨_, rfl⟩
  obtain ⟨P, hP⟩ : ∃ P, firstDigits o neg = P := ⟨_, rfl⟩
  have hPb : 5 ≤ P := by rw [← hP]; unfold firstDigits; split <;> split <;> omega
  obtain ⟨k0, e0, a1, a2, a3, a4, a5⟩ := sciParts_spec h0 P
  have hke0 : KeptExp e0.natAbs := by rcases a5 with ⟨h, _⟩ | ⟨h, _⟩ <;> rw [h] <;> assumption
  obtain ⟨b1, b2⟩ := kept_len hke0
  obtain ⟨c1, c2⟩ := kept_len hk1
  have ht0 := sciHelper_text (by omega) a1 hke0
  obtain ⟨l1, l2⟩ := expText_lens neg k0 P e0 a2 a3
  rw [hneg] at ht0 ⊢
  rw [hP]
  have hnum : numDigits o v = (P : Int) := by rw [numDigits_eq, hneg, hP]
  have hred : ((((expText neg k0 P e0).mant.length : Int) + 1 + ((expText neg k0 P e0).expN.length : Int)) - numLen o v -
      (if o.keepE then 0 else 1) - (if v < 0 then 1 else 0)) = (natStr e0.natAbs).length - 1 := by
    rw [l1, l2, ← hP]
    unfold firstDigits numLen
    by_cases h : v < 0
    · have h' : ¬ (0 ≤ v) := by linarith
      have hn : neg = true := by rw [← hneg]; simp [h]
      subst hn
      cases o.keepE <;> cases o.abuseSignpos <;> simp [h, h'] <;> omega
    · have h' : 0 ≤ v := by linarith
      have hn : neg = false := by rw [← hneg]; simp [h]
      subst hn
      cases o.keepE <;> cases o.abuseSignpos <;> simp [h, h'] <;> omega
  have hform : sciForm o v = if (natStr e0.natAbs).length = 1 then ((expText neg k0 P e0).mant, (expText neg k0 P e0).expN)
      else sciHelper v ((P + 1 - (natStr e0.natAbs).length : Nat) : Int) := by
    unfold sciForm
    rw [hnum, ht0]
    dsimp only
    rw [hred]
    by_cases h1 : (natStr e0.natAbs).length = 1
    · rw [if_neg (by omega), if_pos h1]
    · rw [if_pos (by omega), if_neg h1]
      congr 1
      push_cast [show (natStr e0.natAbs).length ≤ P + 1 by omega]
      ring
  -- the second attempt
  obtain ⟨p, hp⟩ : ∃ p, P + 1 - (natStr e0.natAbs).length = p := ⟨_, rfl⟩
  rw [hp] at hform
  obtain ⟨k1, e1, d1, d2, d3, d4, d5⟩ := sciParts_spec h0 p
  have hke1 : KeptExp e1.natAbs := by rcases d5 with ⟨h, _⟩ | ⟨h, _⟩ <;> rw [h] <;> assumption
  have ht1 := sciHelper_text (by omega) d1 hke1
  rw [hneg] at ht1
  have hform2 : sciForm o v = ((expText neg k1 p e1).mant, (expText neg k1 p e1).expN) := by
    rw [hform]
    by_cases h1 : (natStr e0.natAbs).length = 1
    · rw [if_pos h1]
      have : p = P := by omega
      subst this
      rw [a1] at d1
      cases d1
      rfl
    · rw [if_neg h1, ht1]
  obtain ⟨l3, l4⟩ := expText_lens neg k1 p e1 d2 d3
  -- exponents at both attempts
  have hlen : (natStr e1.natAbs).length ≤ (natStr e0.natAbs).length := by
    rcases a5 with ⟨r1, r2⟩ | ⟨r1, r2⟩ <;> rcases d5 with ⟨s1, s2⟩ | ⟨s1, s2⟩
    · rw [s1, r1]
    · rw [s1, r1]
      by_cases h1 : (natStr e0.natAbs).length = 1
      · have : p = P := by omega
        subst this
        omega
      · rw [r1] at h1 b1
        generalize Int.log 10 |v| = e at *
        by_contra hc
        push Not at hc
        have g1 : ¬ e.natAbs < 10 ^ (0 + 1) := fun h => h1 (by have := (natStr_length_le 0 _).2 h; omega)
        have g2 : (natStr e.natAbs).length = 2 := by
          have := (kept_len hk2).2; omega
        have g3 : e.natAbs < 10 ^ (1 + 1) := (natStr_length_le 1 _).1 (by omega)
        have g4 : ¬ (e + 1).natAbs < 10 ^ (1 + 1) := fun h => by have := (natStr_length_le 1 _).2 h; omega
        have g5 : e = 99 := by omega
        subst g5
        revert hk2
        decide
    · exfalso
      have := rnd_carry h0 (show p ≤ P by omega) r2
      omega
    · rw [s1, r1]
  -- digits of the Python writer
  obtain ⟨n, hn⟩ : ∃ n, P + 1 - (natStr (Int.log 10 |v|).natAbs).length = n := ⟨_, rfl⟩
  refine ⟨k1, p, n, e1, by omega, hform2, ?_, by omega, ?_⟩
  · rw [l3, l4, ← hp, ← hP]
    have hb : (natStr e0.natAbs).length ≤ firstDigits o neg + 1 := by omega
    clear hform hform2 ht0 ht1 hred
    unfold firstDigits at *
    cases neg <;> cases o.keepE <;> cases o.abuseSignpos <;> simp at * <;> omega
  · rw [d4]
    rcases a5 with ⟨r1, r2⟩ | ⟨r1, r2⟩
    · have : p = n := by rw [← hp, ← hn, r1]
      rw [this]
    · rw [rnd_carry h0 (show p ≤ P by omega) r2, rnd_carry h0 (show n ≤ P by omega) r2]
      push_cast
      rw [← zpow_natCast, ← zpow_natCast, ← zpow_add₀ (by norm_num), ← zpow_add₀ (by norm_num)]
      congr 1; push_cast; ring

theorem sciForm_zero (o : WOpts) : ∃ p : Nat, 1 ≤ p ∧ sciForm o 0 = ((expText false 0 p 0).mant, (expText false 0 p 0).expN) ∧
    (expText false 0 p 0).mant.length + (expText false 0 p 0).expN.length + (if o.keepE then 1 else 0) ≤ 11 := by
  obtain ⟨P, hP⟩ : ∃ P, firstDigits o false = P := ⟨_, rfl⟩
  have hPb : 5 ≤ P := by rw [← hP]; unfold firstDigits; split <;> split <;> omega
  have h1 : sciParts 0 P = (0, 0) := by simp [sciParts]
  have ht := sciHelper_text (by omega) h1 (by decide)
  have hd : decide ((0:ℚ) < 0) = false := by simp
  rw [hd] at ht
  have hnum : numDigits o 0 = (P : Int) := by rw [numDigits_eq, hd, hP]
  have hl1 : (expText false 0 P 0).mant.length = 2 + P := by
    unfold expText NumText.mant NumText.frac
    have : (natStr 0).length = 1 := by decide
    simp [Sgn.text, fixDigits_length, this]; omega
  have hl2 : (expText false 0 P 0).expN.length = 2 := by
    unfold expText NumText.expN
    have : (natStr 0).length = 1 := by decide
    simp [Sgn.text, this]
  refine ⟨P, by omega, ?_, ?_⟩
  · unfold sciForm
    rw [hnum, ht]
    dsimp only
    rw [hl1, hl2, if_neg]
    rw [← hP]
    unfold firstDigits numLen
    cases o.keepE <;> cases o.abuseSignpos <;> simp
  · rw [hl1, hl2, ← hP]
    unfold firstDigits
    cases o.keepE <;> cases o.abuseSignpos <;> simp

end Verif
