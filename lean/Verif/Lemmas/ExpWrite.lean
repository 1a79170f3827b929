import Verif.Lemmas.ExpForm
import Mathlib.Tactic.FieldSimp
/- Helper lemmas: characterisation of the exponential number writer. -/
namespace Verif
open Spec

/-- number text with sign, `n` digits behind the point, and signed exponent -/
def expText (neg : Bool) (k n : Nat) (e : Int) : NumText :=
  { sgn := if neg then .minus else .none
    ip := natStr (k / 10 ^ n)
    fp := some (fixDigits n (k % 10 ^ n))
    ex := some (if 0 ≤ e then .plus else .minus, natStr e.natAbs) }

/-- blanks in front of the number: the sign column of a nonnegative number -/
def padOf (o : WOpts) (neg : Bool) : Nat := if neg || o.abuseSignpos then 0 else 1

/-- text with or without exponent character -/
def textOf (o : WOpts) (t : NumText) : Str := if o.keepE then t.withE 'E' else t.noE

/-- the complete field -/
def fieldOf (o : WOpts) (neg : Bool) (k n : Nat) (e : Int) : Str :=
  List.replicate (padOf o neg) ' ' ++ textOf o (expText neg k n e)

theorem expText_wf (neg : Bool) (k n : Nat) (e : Int) : (expText neg k n e).WF where
  ip_dig := natStr_dig _
  fp_dig := by
    intro f hf; simp [expText] at hf; subst hf; exact fixDigits_dig _ _
  nonempty := Or.inl (natStr_ne_nil _)
  ex_dig := by
    intro s d h; simp [expText] at h
    obtain ⟨_, h⟩ := h; subst h
    exact ⟨natStr_dig _, natStr_ne_nil _⟩

theorem expText_expo (neg : Bool) (k n : Nat) (e : Int) : (expText neg k n e).expo = e := by
  unfold NumText.expo expText
  by_cases h : 0 ≤ e
  · simp [h, digitsVal_natStr]
  · simp only [h, if_false, digitsVal_natStr]; omega

theorem expText_scale (neg : Bool) (k n : Nat) (e : Int) : (expText neg k n e).scale = n := by
  simp [NumText.scale, expText, fixDigits_length]

/-- signed value -/
def signed (neg : Bool) (q : ℚ) : ℚ := if neg then -q else q

theorem expText_value (neg : Bool) (k n : Nat) (e : Int) :
    (expText neg k n e).value = signed neg ((k : ℚ) * 10 ^ (e - n)) := by
  unfold NumText.value
  rw [expText_expo, expText_scale]
  have : digitsVal ((expText neg k n e).ip ++ (expText neg k n e).fp.getD []) = k := by
    simp only [expText, Option.getD_some]; exact digitsVal_mantissa n k
  rw [this]
  cases neg <;> simp [expText, Sgn.apply, signed]

theorem expText_noE_ok (neg : Bool) (k n : Nat) (e : Int) (hn : 1 ≤ n) :
    ∀ sg d, (expText neg k n e).ex = some (sg, d) → sg ≠ .none ∧ (expText neg k n e).endsInDigit := by
  intro sg d h
  simp [expText] at h
  refine ⟨?_, ?_⟩
  · rw [← h.1]; split <;> simp
  · unfold NumText.endsInDigit expText
    simp only [ne_eq, Option.some.injEq]
    intro h0
    have := fixDigits_length n (k % 10 ^ n)
    rw [h0] at this; simp at this; omega

/-- reading such a field gives its value -/
theorem read_fieldOf (o : WOpts) (neg : Bool) (k n : Nat) (e : Int) (hn : 1 ≤ n)
    (w : Option Nat) (a p : Bool) (hw : ∀ m, w = some m → (fieldOf o neg k n e).length ≤ m) :
    fortstr2float w a p (fieldOf o neg k n e) =
      .ok (if p then .endf (signed neg ((k : ℚ) * 10 ^ (e - n))) (fieldOf o neg k n e)
        else .flt (signed neg ((k : ℚ) * 10 ^ (e - n)))) := by
  unfold fieldOf textOf at hw ⊢
  rw [← expText_value]
  cases hk : o.keepE with
  | true =>
    simp only [hk, if_true] at hw ⊢
    have := fortstr2float_withE (expText_wf neg k n e) (Or.inr rfl) w a p (padOf o neg) 0
      (by intro m hm; have := hw m hm; simp at this ⊢; omega)
    simpa using this
  | false =>
    simp only [hk, Bool.false_eq_true, if_false] at hw ⊢
    have := fortstr2float_noE (expText_wf neg k n e) (expText_noE_ok neg k n e hn) w a p (padOf o neg) 0
      (by intro m hm; have := hw m hm; simp at this ⊢; omega)
    simpa using this

/-- length of the field -/
theorem fieldOf_length (o : WOpts) (neg : Bool) (k n : Nat) (e : Int) :
    (fieldOf o neg k n e).length =
      (if o.abuseSignpos && !neg then 0 else 1) + (natStr (k / 10 ^ n)).length + 1 + n
        + (if o.keepE then 1 else 0) + 1 + (natStr e.natAbs).length := by
  unfold fieldOf padOf textOf expText NumText.withE NumText.noE NumText.mant NumText.frac
    NumText.expE NumText.expN
  cases neg <;> cases o.abuseSignpos <;> cases o.keepE <;> by_cases h : 0 ≤ e <;>
    simp [Sgn.text, fixDigits_length, h] <;> omega

/-- one call of the writer (no recursion) in terms of `fieldOf` -/
theorem expform_step (o : WOpts) (val : ℚ) (fuel n k : Nat) (e : Int)
    (hn : mantissaDigits o val = n) (hn1 : 1 ≤ n)
    (he : exponentOf |val| = e) (hx : nexpOf |val| = (natStr e.natAbs).length)
    (hk : (roundHE (|val / 10 ^ e| * 10 ^ n)).toNat = k) :
    float2expformstrF (fuel+1) o val =
      if o.width < (fieldOf o (decide (val < 0)) k n e).length then
        float2expformstrF fuel o (signed (decide (val < 0)) ((k : ℚ) * 10 ^ (e - n)))
      else .ok (fieldOf o (decide (val < 0)) k n e) := by
  have hneg : decide (val < 0) = !decide (0 ≤ val) := by
    by_cases h : 0 ≤ val
    · simp [h]
    · simp [h, not_le.1 h]
  have hfix : fmtFixed |val / 10 ^ e| n = natStr (k / 10 ^ n) ++ '.' :: fixDigits n (k % 10 ^ n) := by
    unfold fmtFixed
    simp only [hk]
    rw [if_neg (by omega)]
  have hrj : rjust (natStr e.natAbs) (natStr e.natAbs).length = natStr e.natAbs := by simp [rjust]
  rw [float2expformstrF]
  simp only [he, hx, hn, hrj]
  rw [if_neg (by omega)]
  have htn : ((n : Int)).toNat = n := by simp
  simp only [htn, hfix]
  have hres : ((if decide (0 ≤ val) = true then (if o.abuseSignpos = true then [] else [' ']) else ['-']) ++
      (natStr (k / 10 ^ n) ++ '.' :: fixDigits n (k % 10 ^ n)) ++
      (if o.keepE = true then ['E'] else []) ++
      (if decide (0 ≤ e) = true then ['+'] else ['-']) ++ natStr e.natAbs) =
      fieldOf o (decide (val < 0)) k n e := by
    rw [hneg]
    unfold fieldOf padOf textOf expText NumText.withE NumText.noE NumText.mant NumText.frac
      NumText.expE NumText.expN
    by_cases h1 : 0 ≤ val <;> cases o.abuseSignpos <;> cases o.keepE <;> by_cases h : 0 ≤ e <;>
      simp [Sgn.text, h1, h]
  have htmp : pyFloat ((if decide (0 ≤ val) = true then (if o.abuseSignpos = true then [] else [' ']) else ['-']) ++
      (natStr (k / 10 ^ n) ++ '.' :: fixDigits n (k % 10 ^ n)) ++
      'e' :: (if decide (0 ≤ e) = true then ['+'] else ['-']) ++ natStr e.natAbs) =
      some (NumText.dec (expText (decide (val < 0)) k n e)) := by
    have key := pyFloat_core (expText_wf (decide (val < 0)) k n e) (e := 'e') (Or.inl rfl)
      (s := List.replicate (padOf o (decide (val < 0))) ' ' ++ (expText (decide (val < 0)) k n e).withE 'e')
      (by
        have := strip_pad (NumText.noWs (expText_wf (decide (val < 0)) k n e) (e := 'e') (Or.inl rfl))
          (padOf o (decide (val < 0))) 0
        simpa using this)
    rw [← key]
    congr 1
    rw [hneg]
    unfold padOf expText NumText.withE NumText.mant NumText.frac NumText.expE
    by_cases h1 : 0 ≤ val <;> cases o.abuseSignpos <;> by_cases h : 0 ≤ e <;>
      simp [Sgn.text, h1, h]
  simp only [hres, htmp, NumText.dec_toRat, expText_value]

/-- digits behind the point for a given exponent -/
def digitsFor (o : WOpts) (neg : Bool) (e : Int) : Int :=
  (o.width : Int) - 1 - (natStr e.natAbs).length
    - (if o.abuseSignpos && !neg then 0 else 1) - (if o.keepE then 1 else 0) - 2

theorem natStr_len3 {m : Nat} (h : m ≤ 999) : (natStr m).length ≤ 3 :=
  (natStr_length_le 2 m).2 (by omega)

theorem signed_neg_iff {neg : Bool} {q : ℚ} (hq : 0 < q) : decide (signed neg q < 0) = neg := by
  cases neg <;> simp [signed]
  · linarith
  · exact hq

theorem abs_signed (neg : Bool) {q : ℚ} (hq : 0 ≤ q) : |signed neg q| = q := by
  cases neg <;> simp [signed, abs_of_nonneg hq]

theorem ten_zpow_pos (e : Int) : (0:ℚ) < 10 ^ e := by positivity

/-- writing a value that already has the printed precision -/
theorem expform_exact (o : WOpts) (hw : 9 ≤ o.width) (neg : Bool) (k n : Nat) (e : Int)
    (he1 : -999 ≤ e) (he2 : e ≤ 999) (hn : digitsFor o neg e = n)
    (hk1 : 10 ^ n ≤ k) (hk2 : k < 10 ^ (n+1)) (fuel : Nat) :
    1 ≤ n ∧ (fieldOf o neg k n e).length = o.width ∧
    float2expformstrF (fuel+1) o (signed neg ((k : ℚ) * 10 ^ (e - n))) = .ok (fieldOf o neg k n e) := by
  have hl := natStr_length_pos e.natAbs
  have hl3 := natStr_len3 (m := e.natAbs) (by omega)
  have hn1 : 1 ≤ n := by
    unfold digitsFor at hn; split at hn <;> split at hn <;> omega
  have hkq1 : (10:ℚ) ^ n ≤ k := by exact_mod_cast hk1
  have hkq2 : (k:ℚ) < (10:ℚ) ^ (n+1) := by exact_mod_cast hk2
  have hkpos : (0:ℚ) < k := lt_of_lt_of_le (by positivity) hkq1
  have hq : (0:ℚ) < (k : ℚ) * 10 ^ (e - n) := mul_pos hkpos (ten_zpow_pos _)
  have habs := abs_signed neg hq.le
  have hsg := signed_neg_iff (neg := neg) hq
  have hlog : Int.log 10 ((k : ℚ) * 10 ^ (e - n)) = e := by
    apply log_of_range
    · calc (10:ℚ) ^ e = (10:ℚ)^n * 10 ^ (e - n) := by
            rw [← zpow_natCast, ← zpow_add₀ (by norm_num)]; congr 1; ring
        _ ≤ _ := mul_le_mul_of_nonneg_right hkq1 (ten_zpow_pos _).le
    · calc (k : ℚ) * 10 ^ (e - n) < (10:ℚ)^(n+1) * 10 ^ (e - n) :=
            mul_lt_mul_of_pos_right hkq2 (ten_zpow_pos _)
        _ = _ := by rw [← zpow_natCast, ← zpow_add₀ (by norm_num)]; congr 1; push_cast; ring
  have hfirst : (natStr (k / 10 ^ n)).length = 1 := by
    have h1 : k / 10 ^ n < 10 ^ (0+1) := by
      rw [Nat.div_lt_iff_lt_mul (by positivity)]; rw [pow_succ] at hk2; simpa [Nat.mul_comm] using hk2
    have := (natStr_length_le 0 _).2 h1
    have := natStr_length_pos (k / 10 ^ n)
    omega
  have hlen : (fieldOf o neg k n e).length = o.width := by
    rw [fieldOf_length, hfirst]
    unfold digitsFor at hn
    revert hn
    cases o.abuseSignpos <;> cases neg <;> cases o.keepE <;>
      simp only [Bool.false_and, Bool.true_and, Bool.not_true, Bool.not_false, Bool.false_eq_true,
        if_true, if_false] <;> omega
  have hnexp : nexpOf |signed neg ((k : ℚ) * 10 ^ (e - n))| = (natStr e.natAbs).length := by
    rw [habs, nexp_eq hq (by rw [hlog]; exact he1) (by rw [hlog]; exact he2), hlog]
  have hd : decide (0 ≤ signed neg ((k : ℚ) * 10 ^ (e - n))) = !neg := by
    cases neg
    · simp only [signed, Bool.false_eq_true, if_false]; simpa using hq.le
    · simp only [signed, if_true]; simpa using hq
  refine ⟨hn1, hlen, ?_⟩
  rw [expform_step o _ fuel n k e ?_ hn1 ?_ hnexp ?_]
  · rw [hsg, hlen]; simp
  · unfold mantissaDigits
    rw [hnexp, hd, ← hn]
    rfl
  · unfold exponentOf
    rw [habs, if_pos hq.ne', hlog]
  · rw [abs_div, habs, abs_of_pos (ten_zpow_pos e)]
    have : (k : ℚ) * 10 ^ (e - n) / 10 ^ e * 10 ^ n = ((k : Int) : ℚ) := by
      rw [zpow_sub₀ (by norm_num), zpow_natCast]; field_simp; simp
    rw [this, roundHE_int]; simp

/-- complete characterisation of the exponential writer for nonzero values -/
theorem expform_nonzero (o : WOpts) (hw : 9 ≤ o.width) {val : ℚ} (h0 : val ≠ 0)
    (hr1 : (10:ℚ) ^ (-999 : Int) ≤ |val|) (hr2 : |val| ≤ (10:ℚ) ^ (999 : Int)) :
    ∃ (k n : Nat) (e : Int), -999 ≤ e ∧ e ≤ 999 ∧ digitsFor o (decide (val < 0)) e = n ∧
      10 ^ n ≤ k ∧ k < 10 ^ (n+1) ∧
      |signed (decide (val < 0)) ((k : ℚ) * 10 ^ (e - n)) - val| ≤ 1/2 * 10 ^ (e - n) ∧
      (|signed (decide (val < 0)) ((k : ℚ) * 10 ^ (e - n)) - val| ≤ |val| - 10 ^ (-999 : Int) ∧
       |signed (decide (val < 0)) ((k : ℚ) * 10 ^ (e - n)) - val| ≤ 10 ^ (999 : Int) - |val|) ∧
      (∀ fuel, float2expformstrF (fuel+2) o val = .ok (fieldOf o (decide (val < 0)) k n e)) ∧
      ∃ N : Nat, digitsFor o (decide (val < 0)) (Int.log 10 |val|) = N ∧ (k : ℚ) * 10 ^ (e - n) =
        ((roundHE (|val / 10 ^ (Int.log 10 |val|)| * 10 ^ N)).toNat : ℚ) * 10 ^ (Int.log 10 |val| - N) := by
  have hav : 0 < |val| := abs_pos.2 h0
  obtain ⟨e, he⟩ : ∃ e, Int.log 10 |val| = e := ⟨_, rfl⟩
  have hlo : (10:ℚ) ^ e ≤ |val| := by
    have := Int.zpow_log_le_self (R := ℚ) (b := 10) (by norm_num) hav
    rw [he] at this; simpa using this
  have hhi : |val| < (10:ℚ) ^ (e+1) := by
    have := Int.lt_zpow_succ_log_self (R := ℚ) (b := 10) (by norm_num) |val|
    rw [he] at this; simpa using this
  have he1 : -999 ≤ e := by
    have := (Int.zpow_le_iff_le_log (b := 10) (R := ℚ) (by norm_num) hav (x := -999)).1 (by simpa using hr1)
    omega
  have he2 : e < 999 ∨ (e = 999 ∧ |val| = 10 ^ e) := by
    rcases lt_or_eq_of_le hr2 with h | h
    · have := (Int.lt_zpow_iff_log_lt (b := 10) (R := ℚ) (by norm_num) hav (x := 999)).1 (by simpa using h)
      left; omega
    · right
      have h3 : e = 999 := by
        rw [← he, h]
        apply log_of_range (le_refl _)
        exact zpow_lt_zpow_right₀ (by norm_num) (by norm_num)
      exact ⟨h3, by rw [h, h3]⟩
  obtain ⟨H, hH⟩ : ∃ H, H = (10:ℚ) ^ (999 : Int) := ⟨_, rfl⟩
  obtain ⟨L, hL⟩ : ∃ L, L = (10:ℚ) ^ (-999 : Int) := ⟨_, rfl⟩
  rw [← hH] at hr2 ⊢
  rw [← hL] at hr1 ⊢
  have hl := natStr_length_pos e.natAbs
  have hl3 := natStr_len3 (m := e.natAbs) (by omega)
  obtain ⟨neg, hneg⟩ : ∃ neg, decide (val < 0) = neg := ⟨_, rfl⟩
  have hdpos : 1 ≤ digitsFor o neg e := by
    unfold digitsFor; split <;> split <;> omega
  obtain ⟨n, hn⟩ : ∃ n : Nat, digitsFor o neg e = n := ⟨(digitsFor o neg e).toNat, by omega⟩
  have hn1 : 1 ≤ n := by omega
  have hval : val = signed neg |val| := by
    rw [← hneg]
    by_cases h : val < 0
    · simp [signed, h, abs_of_neg h]
    · simp [signed, h, abs_of_nonneg (not_lt.1 h)]
  have hnexp : nexpOf |val| = (natStr e.natAbs).length := by
    rw [nexp_eq hav (by rw [he]; exact he1) (by rw [he]; omega), he]
  have hmd : mantissaDigits o val = n := by
    unfold mantissaDigits
    rw [hnexp, ← hn]
    unfold digitsFor
    have hd : decide (0 ≤ val) = !neg := by
      rw [← hneg]
      by_cases h : val < 0
      · simp [h]
      · simp [h, not_lt.1 h]
    rw [hd]
  have hexp : exponentOf |val| = e := by unfold exponentOf; rw [if_pos hav.ne', he]
  obtain ⟨x, hx⟩ : ∃ x : ℚ, |val / 10 ^ e| * 10 ^ n = x := ⟨_, rfl⟩
  have hxv : |val| = x * 10 ^ (e - n) := by
    rw [← hx, abs_div, abs_of_pos (ten_zpow_pos e), zpow_sub₀ (by norm_num), zpow_natCast]
    field_simp
  have hx1 : (((10 ^ n : Nat) : Int) : ℚ) ≤ x := by
    rw [← hx, abs_div, abs_of_pos (ten_zpow_pos e)]
    push_cast
    have : 1 ≤ |val| / 10 ^ e := by rw [le_div_iff₀ (ten_zpow_pos e)]; simpa using hlo
    nlinarith [show (0:ℚ) < 10 ^ n by positivity]
  have hx2 : x ≤ (((10 ^ (n+1) : Nat) : Int) : ℚ) := by
    rw [← hx, abs_div, abs_of_pos (ten_zpow_pos e)]
    push_cast
    have : |val| / 10 ^ e ≤ 10 := by
      rw [div_le_iff₀ (ten_zpow_pos e)]
      rw [zpow_add₀ (by norm_num)] at hhi
      rw [zpow_one] at hhi; linarith
    rw [pow_succ]
    nlinarith [show (0:ℚ) < 10 ^ n by positivity]
  have hr1' := le_roundHE hx1
  have hr2' := roundHE_le hx2
  obtain ⟨k, hk⟩ : ∃ k : Nat, roundHE x = k := ⟨(roundHE x).toNat, by
    have : (0:Int) ≤ ((10 ^ n : Nat) : Int) := Int.natCast_nonneg _
    omega⟩
  rw [hk] at hr1' hr2'
  have hk1 : 10 ^ n ≤ k := by exact_mod_cast hr1'
  have hk2 : k ≤ 10 ^ (n+1) := by exact_mod_cast hr2'
  have hdist : |signed neg ((k : ℚ) * 10 ^ (e - n)) - val| = |((k : Int) : ℚ) - x| * 10 ^ (e - n) := by
    have : |signed neg ((k : ℚ) * 10 ^ (e - n)) - val| = |((k : Int) : ℚ) - x| * 10 ^ (e - n) := by
      conv_lhs => rw [hval, hxv]
      rw [← abs_of_pos (ten_zpow_pos (e - n)), ← abs_mul, abs_of_pos (ten_zpow_pos (e - n))]
      have h3 : ∀ a b : ℚ, signed neg a - signed neg b = signed neg (a - b) := by
        intro a b; cases neg <;> simp [signed]; ring
      have h4 : ∀ a : ℚ, |signed neg a| = |a| := by intro a; cases neg <;> simp [signed]
      rw [h3, h4]; congr 1; push_cast; ring
    exact this
  have herr : |signed neg ((k : ℚ) * 10 ^ (e - n)) - val| ≤ 1/2 * 10 ^ (e - n) := by
    have h1 := roundHE_err x
    rw [hk] at h1
    rw [hdist]
    exact mul_le_mul_of_nonneg_right h1 (ten_zpow_pos _).le
  have hgrid : ∀ m : Int, |signed neg ((k : ℚ) * 10 ^ (e - n)) - val| ≤ abs ((m:ℚ) * 10 ^ (e - n) - abs val) := by
    intro m
    have h1 := roundHE_nearest x m
    rw [hk] at h1
    rw [hdist]
    have h2 : (m:ℚ) * 10 ^ (e - n) - |val| = ((m:ℚ) - x) * 10 ^ (e - n) := by rw [hxv]; ring
    rw [h2, abs_mul, abs_of_pos (ten_zpow_pos _)]
    exact mul_le_mul_of_nonneg_right h1 (ten_zpow_pos _).le
  have hext : |signed neg ((k : ℚ) * 10 ^ (e - n)) - val| ≤ |val| - L ∧
       |signed neg ((k : ℚ) * 10 ^ (e - n)) - val| ≤ H - |val| := by
    constructor
    · by_cases hc : e = -999
      · have h1 := hgrid (10 ^ n : Nat)
        have h2 : (((10 ^ n : Nat) : Int) : ℚ) * 10 ^ (e - n) = L := by
          rw [hL]; push_cast; rw [← zpow_natCast, ← zpow_add₀ (by norm_num)]; congr 1; omega
        rw [h2, abs_of_nonpos (a := L - |val|) (by linarith)] at h1
        rw [neg_sub] at h1
        exact h1
      · have h1 : L ≤ 10 ^ (e - 1) := by
          rw [hL]; exact zpow_le_zpow_right₀ (by norm_num) (by omega)
        have h2 : (10:ℚ) ^ (e - n) ≤ 10 ^ (e - 1) := zpow_le_zpow_right₀ (by norm_num) (by omega)
        have h3 : (10:ℚ) ^ e = 10 * 10 ^ (e - 1) := by
          rw [zpow_sub₀ (by norm_num)]; field_simp
        have h4 := ten_zpow_pos (e - 1)
        linarith
    · have h1 := hgrid (10 ^ (999 - e + n).toNat : Nat)
      have h2 : (((10 ^ (999 - e + n).toNat : Nat) : Int) : ℚ) * 10 ^ (e - n) = H := by
        rw [hH]; push_cast; rw [← zpow_natCast, ← zpow_add₀ (by norm_num)]; congr 1
        rw [Int.toNat_of_nonneg (by omega)]; ring
      rw [h2, abs_of_nonneg (a := H - |val|) (by linarith)] at h1
      exact h1
  have hkT : (roundHE (|val / 10 ^ e| * 10 ^ n)).toNat = k := by rw [hx, hk]; simp
  have hstep := fun fuel => expform_step o val fuel n k e hmd hn1 hexp hnexp hkT
  rw [hneg] at hstep ⊢
  by_cases hkc : k < 10 ^ (n+1)
  · -- no carry
    obtain ⟨_, hlen, _⟩ := expform_exact o hw neg k n e he1 (by omega) hn hk1 hkc 0
    refine ⟨k, n, e, he1, by omega, hn, hk1, hkc, herr, hext, ?_, n, by rw [he]; exact hn, by rw [he, hkT]⟩
    intro fuel
    rw [hstep, hlen]; simp
  · -- carry
    have hkeq : k = 10 ^ (n+1) := by omega
    have he2 : e < 999 := by
      rcases he2 with h | ⟨_, h⟩
      · exact h
      · exfalso
        have hx10 : x = (((10 ^ n : Nat) : Int) : ℚ) := by
          rw [← hx, abs_div, abs_of_pos (ten_zpow_pos e), h, div_self (ten_zpow_pos e).ne']
          push_cast; ring
        rw [hx10, roundHE_int] at hk
        have : k = 10 ^ n := by exact_mod_cast hk.symm
        have hlt : 10 ^ n < 10 ^ (n+1) := Nat.pow_lt_pow_right (by norm_num) (by omega)
        omega
    obtain ⟨n', hn'⟩ : ∃ n' : Nat, digitsFor o neg (e+1) = n' := by
      have hl' := natStr_len3 (m := (e+1).natAbs) (by omega)
      refine ⟨(digitsFor o neg (e+1)).toNat, ?_⟩
      have : 0 ≤ digitsFor o neg (e+1) := by unfold digitsFor; split <;> split <;> omega
      omega
    have hlong : o.width < (fieldOf o neg k n e).length := by
      have h2 : (natStr (k / 10 ^ n)).length = 2 := by
        have : k / 10 ^ n = 10 := by
          rw [hkeq, pow_succ]; exact Nat.mul_div_cancel_left 10 (by positivity)
        rw [this]; decide
      rw [fieldOf_length, h2]
      clear hstep
      unfold digitsFor at hn
      revert hn
      cases o.abuseSignpos <;> cases neg <;> cases o.keepE <;>
        simp only [Bool.false_and, Bool.true_and, Bool.not_true, Bool.not_false, Bool.false_eq_true,
          if_true, if_false] <;> omega
    have hv0 : (k : ℚ) * 10 ^ (e - n) = ((10 ^ n' : Nat) : ℚ) * 10 ^ (e + 1 - n') := by
      rw [hkeq]; push_cast
      rw [← zpow_natCast, ← zpow_natCast, ← zpow_add₀ (by norm_num), ← zpow_add₀ (by norm_num)]
      congr 1; push_cast; ring
    have hv' : signed neg ((k : ℚ) * 10 ^ (e - n)) =
        signed neg (((10 ^ n' : Nat) : ℚ) * 10 ^ (e + 1 - n')) := by rw [hv0]
    have hpw : 10 ^ n' < 10 ^ (n'+1) := Nat.pow_lt_pow_right (by norm_num) (by omega)
    have hex := fun fuel => expform_exact o hw neg (10 ^ n') n' (e+1) (by omega) (by omega) hn' (le_refl _)
      hpw fuel
    refine ⟨10 ^ n', n', e+1, by omega, by omega, hn', le_refl _, hpw, ?_, by rw [← hv']; exact hext, ?_,
      n, by rw [he]; exact hn, by rw [← hv0, he, hkT]⟩
    · rw [← hv']
      refine le_trans herr ?_
      apply mul_le_mul_of_nonneg_left _ (by norm_num)
      apply zpow_le_zpow_right₀ (by norm_num)
      -- number of digits grows by at most one
      have hgrow : (natStr (e.natAbs)).length ≤ (natStr (e+1).natAbs).length + 1 := by
        have hl' := natStr_length_pos (e+1).natAbs
        by_cases hs : e.natAbs ≤ 99
        · have := (natStr_length_le 1 e.natAbs).2 (by omega); omega
        · have h10 : 10 ^ 1 ≤ (e+1).natAbs := by omega
          by_contra hc
          have h1 : (natStr (e+1).natAbs).length ≤ 0 + 1 := by omega
          have := (natStr_length_le 0 _).1 h1
          omega
      clear hstep
      unfold digitsFor at hn hn'
      revert hn hn'
      cases o.abuseSignpos <;> cases neg <;> cases o.keepE <;>
        simp only [Bool.false_and, Bool.true_and, Bool.not_true, Bool.not_false, Bool.false_eq_true,
          if_true, if_false] <;> omega
    · intro fuel
      rw [hstep, if_pos hlong, hv']
      exact (hex fuel).2.2

theorem expform_zero (o : WOpts) (hw : 9 ≤ o.width) (fuel : Nat) :
    ∃ n : Nat, 1 ≤ n ∧ digitsFor o false 0 = n ∧ (fieldOf o false 0 n 0).length = o.width ∧
      float2expformstrF (fuel+1) o 0 = .ok (fieldOf o false 0 n 0) := by
  have hl : (natStr 0).length = 1 := by decide
  obtain ⟨n, hn⟩ : ∃ n : Nat, digitsFor o false 0 = n := ⟨(digitsFor o false 0).toNat, by
    have : 0 ≤ digitsFor o false 0 := by
      unfold digitsFor; simp only [Int.natAbs_zero, hl]; split <;> split <;> omega
    omega⟩
  have hn1 : 1 ≤ n := by
    unfold digitsFor at hn; simp only [Int.natAbs_zero, hl] at hn; split at hn <;> split at hn <;> omega
  have hlen : (fieldOf o false 0 n 0).length = o.width := by
    rw [fieldOf_length]
    simp only [Nat.zero_div, Int.natAbs_zero, hl]
    unfold digitsFor at hn; simp only [Int.natAbs_zero, hl] at hn
    split at hn <;> split at hn <;> simp_all <;> omega
  have hx : nexpOf |(0:ℚ)| = 1 := by
    unfold nexpOf; rw [abs_zero]
    rw [if_neg (by push Not; intro h; norm_num at h), if_neg (by push Not; intro h; norm_num at h)]
    simp
  refine ⟨n, hn1, hn, hlen, ?_⟩
  have := expform_step o 0 fuel n 0 0 (by unfold mantissaDigits; rw [hx, ← hn]; unfold digitsFor; simp [hl]) hn1
    (by simp [exponentOf]) (by rw [hx]; simp [hl]) (by
      have := roundHE_int 0
      simp only [Int.cast_zero] at this
      simp [this])
  rw [this]
  simp only [lt_irrefl, decide_false]
  rw [hlen]; simp

/-- unified characterisation of the writer -/
theorem expform_char (o : WOpts) (hw : 9 ≤ o.width) {val : ℚ} (hr : InRange val) :
    ∃ (k n : Nat) (e : Int), 1 ≤ n ∧ (fieldOf o (decide (val < 0)) k n e).length = o.width ∧
      (val ≠ 0 → 10 ^ n ≤ k ∧ k < 10 ^ (n+1)) ∧
      |signed (decide (val < 0)) ((k : ℚ) * 10 ^ (e - n)) - val| ≤ 1/2 * 10 ^ (e - n) ∧
      (val ≠ 0 → |signed (decide (val < 0)) ((k : ℚ) * 10 ^ (e - n)) - val| ≤ |val| - 10 ^ (-999 : Int) ∧
       |signed (decide (val < 0)) ((k : ℚ) * 10 ^ (e - n)) - val| ≤ 10 ^ (999 : Int) - |val|) ∧
      (∀ fuel, float2expformstrF (fuel+2) o val = .ok (fieldOf o (decide (val < 0)) k n e)) ∧
      (∀ fuel, float2expformstrF (fuel+2) o (signed (decide (val < 0)) ((k : ℚ) * 10 ^ (e - n))) =
        .ok (fieldOf o (decide (val < 0)) k n e)) := by
  by_cases h0 : val = 0
  · subst h0
    obtain ⟨n, h1, h2, h3, _⟩ := expform_zero o hw 0
    have h4 : ∀ fuel, float2expformstrF (fuel+2) o 0 = .ok (fieldOf o false 0 n 0) := by
      intro fuel
      obtain ⟨n', _, h2', _, h4'⟩ := expform_zero o hw (fuel+1)
      have : n' = n := by omega
      subst this; exact h4'
    refine ⟨0, n, 0, h1, by simpa using h3, by simp, ?_, by simp, by simpa using h4, by simpa [signed] using h4⟩
    simp [signed]
  · rcases hr with hr | ⟨hr1, hr2⟩
    · exact absurd hr h0
    · obtain ⟨k, n, e, h1, h2, h3, h4, h5, h6, h6', h7, _⟩ := expform_nonzero o hw h0 hr1 hr2
      have hx := fun fuel => expform_exact o hw _ k n e h1 h2 h3 h4 h5 fuel
      exact ⟨k, n, e, (hx 0).1, (hx 0).2.1, fun _ => ⟨h4, h5⟩, h6, fun _ => h6', h7, fun fuel => (hx (fuel+1)).2.2⟩

end Verif
