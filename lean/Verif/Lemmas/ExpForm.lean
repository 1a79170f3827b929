import Verif.Lemmas.Float
import Mathlib.Tactic.NormNum
import Mathlib.Algebra.Order.Field.Power
/- Helper lemmas: the exponential number format. -/
namespace Verif
open Spec

/-! ### rounding -/

theorem roundHE_err (x : ℚ) : |(roundHE x : ℚ) - x| ≤ 1/2 := by
  unfold roundHE
  have h1 := Int.floor_le x
  have h2 := Int.lt_floor_add_one x
  simp only
  split
  · rw [abs_le]; constructor <;> linarith
  · split
    · push_cast; rw [abs_le]; constructor <;> linarith
    · split
      · rw [abs_le]; constructor <;> linarith
      · push_cast; rw [abs_le]; constructor <;> linarith

theorem roundHE_nearest (x : ℚ) (m : Int) : |(roundHE x : ℚ) - x| ≤ |(m : ℚ) - x| := by
  by_contra h
  push Not at h
  have h1 := roundHE_err x
  have h2 : |(roundHE x : ℚ) - m| < 1 := by
    have h3 : (roundHE x : ℚ) - m = ((roundHE x : ℚ) - x) - (m - x) := by ring
    rw [h3]
    have := abs_sub ((roundHE x : ℚ) - x) (m - x)
    linarith
  have h4 : |roundHE x - m| < 1 := by exact_mod_cast h2
  have h5 : roundHE x = m := by rw [abs_lt] at h4; omega
  rw [h5] at h; exact lt_irrefl _ h

theorem roundHE_int (n : Int) : roundHE (n : ℚ) = n := by
  unfold roundHE
  simp

theorem le_roundHE {x : ℚ} {a : Int} (h : (a : ℚ) ≤ x) : a ≤ roundHE x := by
  have := Int.le_floor.2 h
  unfold roundHE
  simp only
  split
  · exact this
  · split
    · omega
    · split <;> omega

theorem roundHE_le {x : ℚ} {b : Int} (h : x ≤ b) : roundHE x ≤ b := by
  have e := roundHE_err x
  have h3 := (abs_le.1 e).2
  by_contra hc
  have hb : b + 1 ≤ roundHE x := by omega
  have hb' : (b : ℚ) + 1 ≤ (roundHE x : ℚ) := by exact_mod_cast hb
  linarith

/-! ### digits -/

theorem fixDigits_length (n k : Nat) : (fixDigits n k).length = n := by
  induction n generalizing k with
  | zero => rfl
  | succ n ih => simp [fixDigits, ih]

theorem fixDigits_dig (n k : Nat) : AllDig (fixDigits n k) := by
  induction n generalizing k with
  | zero => intro c hc; simp [fixDigits] at hc
  | succ n ih =>
    intro c hc
    simp [fixDigits] at hc
    rcases hc with hc | hc
    · exact ih _ c hc
    · subst hc; exact isDig_digChar (Nat.mod_lt _ (by norm_num))

theorem foldl_dig (s : Str) (a : Nat) :
    s.foldl (fun a c => 10 * a + digVal c) a = a * 10 ^ s.length + digitsVal s := by
  induction s using List.reverseRecOn generalizing a with
  | nil => simp [digitsVal]
  | append_singleton s c ih =>
    rw [List.foldl_append, ih, digitsVal_append]
    simp [pow_succ]; ring

theorem digitsVal_append' (s t : Str) : digitsVal (s ++ t) = digitsVal s * 10 ^ t.length + digitsVal t := by
  unfold digitsVal
  rw [List.foldl_append, foldl_dig]
  rfl

theorem digitsVal_fixDigits (n k : Nat) : digitsVal (fixDigits n k) = k % 10 ^ n := by
  induction n generalizing k with
  | zero => simp [fixDigits, digitsVal, Nat.mod_one]
  | succ n ih =>
    rw [fixDigits, digitsVal_append, ih, digVal_digChar (Nat.mod_lt _ (by norm_num)), pow_succ,
      Nat.mul_comm (10 ^ n) 10, Nat.mod_mul]
    ring

theorem digitsVal_mantissa (n k : Nat) :
    digitsVal (natStr (k / 10 ^ n) ++ fixDigits n (k % 10 ^ n)) = k := by
  rw [digitsVal_append', digitsVal_natStr, digitsVal_fixDigits, fixDigits_length, Nat.mod_mod,
    Nat.mul_comm]
  exact Nat.div_add_mod k (10 ^ n)

/-! ### exponent digits -/

theorem nexp_eq {r : ℚ} (hr : 0 < r) (h1 : -999 ≤ Int.log 10 r) (h2 : Int.log 10 r ≤ 999) :
    nexpOf r = (natStr (Int.log 10 r).natAbs).length := by
  have hle : ∀ z : Int, (10 : ℚ) ^ z ≤ r ↔ z ≤ Int.log 10 r := by
    intro z
    have := Int.zpow_le_iff_le_log (b := 10) (R := ℚ) (by norm_num) hr (x := z)
    simpa using this
  have hlt : ∀ z : Int, r < (10 : ℚ) ^ z ↔ Int.log 10 r < z := by
    intro z
    have := Int.lt_zpow_iff_log_lt (b := 10) (R := ℚ) (by norm_num) hr (x := z)
    simpa using this
  unfold nexpOf
  simp only [hle, hlt]
  generalize Int.log 10 r = e at *
  split
  · have : e.natAbs < 10 ^ (0+1) := by omega
    have := (natStr_length_le 0 _).2 this
    have := natStr_length_pos e.natAbs
    omega
  · split
    · have h3 : 10 ^ 1 ≤ e.natAbs := by omega
      have h4 : e.natAbs < 10 ^ (1+1) := by omega
      rw [natStr_length_eq h3 h4]
    · have hr0 : r ≠ 0 := ne_of_gt hr
      rw [if_neg hr0]
      have h3 : 10 ^ 2 ≤ e.natAbs := by omega
      have h4 : e.natAbs < 10 ^ (2+1) := by omega
      rw [natStr_length_eq h3 h4]

theorem log_of_range {r : ℚ} {e : Int} (h1 : (10:ℚ) ^ e ≤ r) (h2 : r < (10:ℚ) ^ (e+1)) :
    Int.log 10 r = e := by
  have hr : 0 < r := lt_of_lt_of_le (by positivity) h1
  have a := (Int.zpow_le_iff_le_log (b := 10) (R := ℚ) (by norm_num) hr (x := e)).1 (by simpa using h1)
  have b := (Int.lt_zpow_iff_log_lt (b := 10) (R := ℚ) (by norm_num) hr (x := e+1)).1 (by simpa using h2)
  omega

end Verif
