import Verif.Lemmas.CppWrite
import Verif.Lemmas.BasicWrite
import Verif.Props.Cpp
import Verif.Props.Fields

/-! Properties C73–C75: numbers written by the compiled parser. -/

namespace Verif
open Spec

/-- the exponent of `v`, and the next larger one that rounding may lead to, are not affected by the removal of zeros in
`float2endfstr_helper` -/
def KeptNum (v : ℚ) : Prop := v = 0 ∨ (KeptExp (Int.log 10 |v|).natAbs ∧ KeptExp (Int.log 10 |v| + 1).natAbs)

/-- every number between `10 ^ -99` and `10 ^ 99` is of this kind -/
theorem keptNum_of_bounds {v : ℚ} (h1 : (10 : ℚ) ^ (-99 : Int) ≤ |v|) (h2 : |v| < 10 ^ (99 : Int)) : KeptNum v := by
  have hav : 0 < |v| := lt_of_lt_of_le (ten_zpow_pos _) h1
  right
  have l1 : -99 ≤ Int.log 10 |v| := (Int.zpow_le_iff_le_log (by norm_num) hav).1 (by exact_mod_cast h1)
  have l2 : Int.log 10 |v| < 99 := (Int.lt_zpow_iff_log_lt (by norm_num) hav).1 (by exact_mod_cast h2)
  constructor <;> exact .inl (by omega)

/-- text of a number with or without exponent character `e` -/
def cppText (o : WOpts) (t : NumText) : Str := if o.keepE then t.withE 'e' else t.noE

/-- a number text moved to the right of eleven columns is read back by both readers -/
theorem padded_read {t : NumText} (hwf : t.WF) (hex : ∀ sg d, t.ex = some (sg, d) → sg ≠ .none ∧ t.endsInDigit)
    (b : Bool) (hl : (if b then t.withE 'e' else t.noE).length ≤ 11) :
    (rjust (if b then t.withE 'e' else t.noE) 11).length = 11 ∧
    (∀ acc, endfstr2float acc (rjust (if b then t.withE 'e' else t.noE) 11) = some t.value) ∧
    (∀ r : ROpts, r.width = 11 →
      ∃ x, readFloat r (rjust (if b then t.withE 'e' else t.noE) 11) = .ok x ∧ x.val = t.value) := by
  obtain ⟨s, hs⟩ : ∃ s, (if b then t.withE 'e' else t.noE) = s := ⟨_, rfl⟩
  have hlen : (rjust (if b then t.withE 'e' else t.noE) 11).length = 11 := by rw [rjust_length]; omega
  have hpy : ∀ a p, ∃ x, fortstr2float (some 11) a p (rjust (if b then t.withE 'e' else t.noE) 11) = .ok x ∧ x.val = t.value := by
    intro a p
    have e1 : rjust (if b then t.withE 'e' else t.noE) 11 =
        List.replicate (11 - (if b then t.withE 'e' else t.noE).length) ' ' ++ (if b then t.withE 'e' else t.noE) ++
          List.replicate 0 ' ' := by
      unfold rjust; simp
    rw [e1]
    cases b with
    | true =>
      simp only [if_true] at hl ⊢
      rw [fortstr2float_withE hwf (.inl rfl) _ a p _ 0 (by intro n hn; cases hn; omega)]
      exact ⟨_, rfl, by split <;> rfl⟩
    | false =>
      simp only [Bool.false_eq_true, if_false] at hl ⊢
      rw [fortstr2float_noE hwf hex _ a p _ 0 (by intro n hn; cases hn; omega)]
      exact ⟨_, rfl, by split <;> rfl⟩
  refine ⟨hlen, fun acc => ?_, fun r hr => ?_⟩
  · obtain ⟨x, hx, hv⟩ := hpy acc false
    rw [← hv]
    refine C66_partial acc false _ hlen ?_ ?_ x hx
    · intro c hc hw
      unfold rjust at hc
      rcases List.mem_append.1 hc with hc | hc
      · exact List.eq_of_mem_replicate hc
      · exfalso
        have : isWs c = false := by
          cases b with
          | true => exact NumText.noWs hwf (.inl rfl) c hc
          | false => exact NumText.noE_noWs hwf c hc
        rw [this] at hw; cases hw
    · intro hc
      unfold rjust at hc
      rcases List.mem_append.1 hc with hc | hc
      · have := List.eq_of_mem_replicate hc; revert this; decide
      · cases b with
        | true => exact NumText.noUnd hwf (.inl rfl) hc
        | false =>
          have h2 : '_' ∈ t.withE 'e' := by
            simp only [Bool.false_eq_true, if_false] at hc
            unfold NumText.noE at hc
            unfold NumText.withE
            rcases List.mem_append.1 hc with hc | hc
            · exact List.mem_append_left _ hc
            · refine List.mem_append_right _ ?_
              unfold NumText.expN at hc
              unfold NumText.expE
              split at hc
              · cases hc
              · exact List.mem_cons_of_mem _ hc
          exact NumText.noUnd hwf (.inl rfl) h2
  · unfold readFloat
    rw [hr]
    exact hpy _ _

theorem stod_text {t : NumText} (hwf : t.WF) : ∃ d, stod (t.withE 'e') = some d ∧ d.toRat = t.value := by
  refine ⟨_, stod_of_pyFloat (NumText.noWs hwf (.inl rfl)) (NumText.noUnd hwf (.inl rfl))
    (pyFloat_core hwf (.inl rfl) (strip_noWs (NumText.noWs hwf (.inl rfl)))), NumText.dec_toRat t⟩

/-! ### the decimal form -/

/-- `m * 10 ^ -n` without exponent -/
def fixText (neg : Bool) (m n : Nat) : NumText :=
  { sgn := if neg then .minus else .none
    ip := natStr (m / 10 ^ n)
    fp := if n = 0 then none else some (fixDigits n (m % 10 ^ n))
    ex := none }

/-- the same without the zero in front of the point -/
def fixText0 (neg : Bool) (m n : Nat) : NumText := { fixText neg m n with ip := [] }

theorem fixText_wf (neg : Bool) (m n : Nat) : (fixText neg m n).WF where
  ip_dig := natStr_dig _
  fp_dig := by
    intro f hf; simp [fixText] at hf; rw [← hf.2]; exact fixDigits_dig _ _
  nonempty := .inl (natStr_ne_nil _)
  ex_dig := by intro s d h; simp [fixText] at h

theorem fixText0_wf (neg : Bool) (m : Nat) {n : Nat} (hn : 1 ≤ n) : (fixText0 neg m n).WF where
  ip_dig := by intro c hc; simp [fixText0] at hc
  fp_dig := by
    intro f hf; simp [fixText0, fixText] at hf; rw [← hf.2]; exact fixDigits_dig _ _
  nonempty := by
    right
    refine ⟨fixDigits n (m % 10 ^ n), ?_, ?_⟩
    · simp [fixText0, fixText]; omega
    · intro h
      have := fixDigits_length n (m % 10 ^ n)
      rw [h] at this; simp at this; omega
  ex_dig := by intro s d h; simp [fixText0, fixText] at h

theorem fixText_value (neg : Bool) (m n : Nat) : (fixText neg m n).value = signed neg ((m : ℚ) / 10 ^ n) := by
  have hv : digitsVal ((fixText neg m n).ip ++ (fixText neg m n).fp.getD []) = m := by
    unfold fixText
    by_cases h : n = 0
    · subst h; simp [digitsVal_natStr]
    · simp only [h, if_false, Option.getD_some]; exact digitsVal_mantissa n m
  have hs : (fixText neg m n).scale = n := by
    unfold NumText.scale fixText
    by_cases h : n = 0
    · simp [h]
    · simp [h, fixDigits_length]
  have he : (fixText neg m n).expo = 0 := rfl
  unfold NumText.value
  rw [hv, hs, he, zero_sub, zpow_neg, zpow_natCast, ← div_eq_mul_inv]
  cases neg <;> simp [fixText, Sgn.apply, signed]

theorem fixText0_value (neg : Bool) (m : Nat) {n : Nat} (hn : 1 ≤ n) (hm : m < 10 ^ n) :
    (fixText0 neg m n).value = (fixText neg m n).value := by
  unfold NumText.value
  have : digitsVal ((fixText0 neg m n).ip ++ (fixText0 neg m n).fp.getD []) =
      digitsVal ((fixText neg m n).ip ++ (fixText neg m n).fp.getD []) := by
    have h0 : n ≠ 0 := by omega
    simp only [fixText0, fixText, h0, if_false, Option.getD_some, List.nil_append]
    rw [digitsVal_mantissa, digitsVal_fixDigits, Nat.mod_mod, Nat.mod_eq_of_lt hm]
  rw [this]
  rfl

/-- `v` rounded to `n` digits behind the point, in units of the last digit -/
def decRnd (v : ℚ) (n : Nat) : Nat := (roundHE (|v| * 10 ^ n)).toNat

theorem decRnd_eq (v : ℚ) (n : Nat) : (decRnd v n : Int) = roundHE (|v| * 10 ^ n) := by
  have : 0 ≤ roundHE (|v| * 10 ^ n) := roundHE_nonneg (by positivity)
  unfold decRnd; omega

theorem fmtSigned_text (v : ℚ) (n : Nat) :
    fmtSigned v n = (fixText (decide (v < 0)) (decRnd v n) n).withE 'e' := by
  unfold fmtSigned fmtFixed fixText NumText.withE NumText.mant NumText.expE NumText.frac decRnd
  by_cases hv : v < 0 <;> by_cases hn : n = 0 <;> simp [hv, hn, Sgn.text]

theorem signed_sub_abs (v q : ℚ) : |signed (decide (v < 0)) q - v| = abs (q - |v|) := by
  by_cases hv : v < 0
  · simp only [hv, decide_true, signed, if_true]
    rw [abs_of_neg hv, ← abs_neg]
    congr 1; ring
  · simp only [hv, decide_false, signed, Bool.false_eq_true, if_false]
    rw [abs_of_nonneg (not_lt.1 hv)]

/-- more digits are at least as accurate -/
theorem decRnd_better (v : ℚ) (n : Nat) :
    |(fixText (decide (v < 0)) (decRnd v (n + 1)) (n + 1)).value - v| ≤ |(fixText (decide (v < 0)) (decRnd v n) n).value - v| := by
  rw [fixText_value, fixText_value, signed_sub_abs, signed_sub_abs]
  have h := roundHE_nearest (|v| * 10 ^ (n + 1)) ((decRnd v n : Int) * 10)
  rw [← decRnd_eq] at h
  have hp : (0 : ℚ) < 10 ^ (n + 1) := by positivity
  have e1 : ∀ q : ℚ, abs (q / 10 ^ (n + 1) - |v|) = abs (q - |v| * 10 ^ (n + 1)) / 10 ^ (n + 1) := by
    intro q
    rw [eq_div_iff hp.ne', ← abs_of_pos hp, ← abs_mul, abs_of_pos hp]
    congr 1; field_simp
  have e2 : (decRnd v n : ℚ) / 10 ^ n = ((decRnd v n : ℚ) * 10) / 10 ^ (n + 1) := by
    rw [pow_succ]; field_simp
  rw [e2, e1, e1]
  push_cast at h
  exact div_le_div_of_nonneg_right h hp.le

theorem decRnd_small {v : ℚ} {n : Nat} (h : decRnd v n < 10 ^ n) : decRnd v (n + 1) < 10 ^ (n + 1) := by
  by_contra hc
  push Not at hc
  have h1 := (abs_le.1 (roundHE_err (|v| * 10 ^ (n + 1)))).2
  rw [← decRnd_eq] at h1
  have h2 : ((10 : ℚ) ^ (n + 1)) ≤ ((decRnd v (n + 1) : Nat) : ℚ) := by exact_mod_cast hc
  have h3 : (((10 ^ n : Nat) : Int) : ℚ) - 1 / 2 < |v| * 10 ^ n := by
    push_cast at h1 ⊢
    rw [pow_succ] at h1 h2
    linarith
  have h4 := roundHE_ge h3
  rw [← decRnd_eq] at h4
  have : 10 ^ n ≤ decRnd v n := by exact_mod_cast h4
  omega

/-- which decimal text is made -/
theorem decHelper_text (v : ℚ) (w : Int) (hl : ((decHelper v w).length : Int) ≤ 11) : ∃ n : Nat,
    decHelper v w = fmtSigned v n ∧ decHelper v (w + 1) = fmtSigned v (n + 1) := by
  obtain ⟨s, hs⟩ : ∃ s, fmtSigned v 16 = s := ⟨_, rfl⟩
  obtain ⟨c, hc⟩ : ∃ c : Int, ((s.findIdx (· == '.') : Nat) : Int) = c := ⟨_, rfl⟩
  unfold decHelper at hl ⊢
  simp only [hs, hc] at hl ⊢
  by_cases h1 : w ≤ c
  · exfalso
    rw [if_pos h1, ← hs, fmtSigned_eq v 16 (by norm_num)] at hl
    simp [fixDigits_length] at hl
    omega
  · have h2 : ¬ (w + 1 ≤ c) := by omega
    rw [if_neg h1, if_neg h2]
    refine ⟨_, rfl, ?_⟩
    congr 1
    split <;> omega

theorem findIdx_append_ne {a b : Str} {c : Char} (h : c ∉ a) : (a ++ b).findIdx (· == c) = a.length + b.findIdx (· == c) := by
  induction a with
  | nil => simp
  | cons x a ih =>
    have hx : (x == c) = false := by rw [beq_eq_false_iff_ne]; intro e; subst e; simp at h
    rw [List.cons_append, List.findIdx_cons, hx]
    simp [ih (by intro h'; exact h (by simp [h']))]
    omega

/-- removing the zero in front of the point -/
theorem skip_zero (v : ℚ) (n : Nat) (hm : decRnd v (n + 1) < 10 ^ (n + 1)) :
    (fmtSigned v (n + 1)).findIdx (· == '0') + 1 = (fmtSigned v (n + 1)).findIdx (· == '.') ∧
    (fmtSigned v (n + 1)).eraseIdx ((fmtSigned v (n + 1)).findIdx (· == '0')) =
      (fixText0 (decide (v < 0)) (decRnd v (n + 1)) (n + 1)).withE 'e' ∧
    (fmtSigned v (n + 1)).length = (if v < 0 then 1 else 0) + 3 + n := by
  have e1 : fmtSigned v (n + 1) = (if v < 0 then ['-'] else []) ++ '0' :: '.' :: fixDigits (n + 1) (decRnd v (n + 1) % 10 ^ (n + 1)) := by
    rw [fmtSigned_eq v (n + 1) (by omega)]
    have : natStr ((roundHE (|v| * 10 ^ (n + 1))).toNat / 10 ^ (n + 1)) = ['0'] := by
      rw [show (roundHE (|v| * 10 ^ (n + 1))).toNat = decRnd v (n + 1) from rfl, Nat.div_eq_of_lt hm]; decide
    rw [this]
    simp [decRnd]
  rw [e1]
  unfold fixText0 fixText NumText.withE NumText.mant NumText.expE NumText.frac
  by_cases hv : v < 0 <;> simp [hv, Sgn.text, List.findIdx_cons, fixDigits_length] <;> omega

theorem trunc_zero {neg : Bool} {m n : Nat} (h : truncRat (signed neg ((m : ℚ) / 10 ^ n)) = 0) : m < 10 ^ n := by
  have hp : (0 : ℚ) < 10 ^ n := by positivity
  have hq : (0 : ℚ) ≤ (m : ℚ) / 10 ^ n := by positivity
  have key : (m : ℚ) / 10 ^ n < 1 := by
    unfold truncRat at h
    cases neg with
    | false =>
      simp only [signed, Bool.false_eq_true, if_false, hq, if_true] at h
      have := Int.lt_floor_add_one ((m : ℚ) / 10 ^ n)
      rw [h] at this; simpa using this
    | true =>
      simp only [signed, if_true] at h
      split at h
      · rename_i h2; linarith
      · have := Int.ceil_lt_add_one (-((m : ℚ) / 10 ^ n))
        have h3 := Int.le_ceil (-((m : ℚ) / 10 ^ n))
        rw [Int.ceil_neg, neg_eq_zero] at h
        have := Int.lt_floor_add_one ((m : ℚ) / 10 ^ n)
        rw [h] at this; simpa using this
  rw [div_lt_one hp] at key
  exact_mod_cast key

/-! ### both forms -/

/-- The number written: a number text that is read back, either the exponential form or a decimal form that is at least as
accurate. -/
theorem float2endfstr_char (o : WOpts) (v : ℚ) (h : KeptNum v) : ∃ (t te : NumText) (b : Bool),
    t.WF ∧ (∀ sg d, t.ex = some (sg, d) → sg ≠ .none ∧ t.endsInDigit) ∧ (if b then t.withE 'e' else t.noE).length ≤ 11 ∧
    float2endfstr o v = some (rjust (if b then t.withE 'e' else t.noE) 11) ∧ |t.value - v| ≤ |te.value - v| ∧
    (o.preferNoexp = false → t = te) ∧
    (v = 0 → te.value = 0) ∧ (v ≠ 0 → ∃ n : Nat, (firstDigits o (decide (v < 0)) : Int) + 1 - (natStr (Int.log 10 |v|).natAbs).length = n ∧
      te.value = signed (decide (v < 0)) ((rnd v n : ℚ) * 10 ^ (Int.log 10 |v| - n))) := by
  -- the exponential form
  obtain ⟨k, p, e, hp, hform, hlen, hz, hnz⟩ : ∃ (k p : Nat) (e : Int), 1 ≤ p ∧
      sciForm o v = ((expText (decide (v < 0)) k p e).mant, (expText (decide (v < 0)) k p e).expN) ∧
      (expText (decide (v < 0)) k p e).mant.length + (expText (decide (v < 0)) k p e).expN.length + (if o.keepE then 1 else 0) ≤ 11 ∧
      (v = 0 → (expText (decide (v < 0)) k p e).value = 0) ∧
      (v ≠ 0 → ∃ n : Nat, (firstDigits o (decide (v < 0)) : Int) + 1 - (natStr (Int.log 10 |v|).natAbs).length = n ∧
        (expText (decide (v < 0)) k p e).value = signed (decide (v < 0)) ((rnd v n : ℚ) * 10 ^ (Int.log 10 |v| - n))) := by
    by_cases h0 : v = 0
    · subst h0
      obtain ⟨p, h1, h2, h3⟩ := sciForm_zero o
      refine ⟨0, p, 0, h1, by simpa using h2, by simpa using h3, fun _ => ?_, fun h => absurd rfl h⟩
      rw [expText_value]; simp [signed]
    · rcases h with h | ⟨hk1, hk2⟩
      · exact absurd h h0
      obtain ⟨k, p, n, e, h1, h2, h3, h4, h5⟩ := sciForm_char o h0 hk1 hk2
      exact ⟨k, p, e, h1, h2, h3, fun h => absurd h h0, fun _ => ⟨n, h4, by rw [expText_value, h5]⟩⟩
  obtain ⟨te, hte⟩ : ∃ te, expText (decide (v < 0)) k p e = te := ⟨_, rfl⟩
  have hwf : te.WF := hte ▸ expText_wf _ _ _ _
  have hex : ∀ sg d, te.ex = some (sg, d) → sg ≠ .none ∧ te.endsInDigit := hte ▸ expText_noE_ok _ _ _ _ hp
  rw [hte] at hform hlen hz hnz
  have hE : te.expE 'e' = 'e' :: te.expN := by rw [← hte]; rfl
  have htext : te.mant ++ (if o.keepE then ['e'] else []) ++ te.expN = (if o.keepE then te.withE 'e' else te.noE) := by
    cases o.keepE
    · simp [NumText.noE]
    · simp [NumText.withE, hE]
  have hlen2 : (if o.keepE then te.withE 'e' else te.noE).length ≤ 11 := by
    rw [← htext]
    simp only [List.length_append]
    cases hk : o.keepE <;> simp [hk] at hlen ⊢ <;> omega
  have hexpo : ∃ (t te' : NumText) (b : Bool), t.WF ∧ (∀ sg d, t.ex = some (sg, d) → sg ≠ .none ∧ t.endsInDigit) ∧
      (if b then t.withE 'e' else t.noE).length ≤ 11 ∧
      some (rjust (te.mant ++ (if o.keepE then ['e'] else []) ++ te.expN) 11) = some (rjust (if b then t.withE 'e' else t.noE) 11) ∧
      |t.value - v| ≤ |te'.value - v| ∧ (o.preferNoexp = false → t = te') ∧
      (v = 0 → te'.value = 0) ∧ (v ≠ 0 → ∃ n : Nat, (firstDigits o (decide (v < 0)) : Int) + 1 - (natStr (Int.log 10 |v|).natAbs).length = n ∧
        te'.value = signed (decide (v < 0)) ((rnd v n : ℚ) * 10 ^ (Int.log 10 |v| - n))) :=
    ⟨te, te, o.keepE, hwf, hex, hlen2, by rw [htext], le_refl _, fun _ => rfl, hz, hnz⟩
  unfold float2endfstr
  simp only [hform]
  by_cases hn : o.preferNoexp = true
  swap
  · have : o.preferNoexp = false := by simpa using hn
    simp only [this, Bool.not_false, if_true] at hexpo ⊢
    exact hexpo
  simp only [hn, Bool.not_true, Bool.false_eq_true, if_false] at hexpo ⊢
  by_cases hd : ((decHelper v (numLen o v)).length : Int) ≤ numLen o v + (if v < 0 then 1 else 0)
  swap
  · rw [if_neg hd]; exact hexpo
  rw [if_pos hd]
  have hnl : numLen o v + (if v < 0 then 1 else 0) ≤ 11 := by
    unfold numLen
    by_cases hv : v < 0
    · have : ¬ 0 ≤ v := not_le.2 hv
      simp [hv, this]
    · simp [hv]; split <;> omega
  obtain ⟨n, hd1, hd2⟩ := decHelper_text v (numLen o v) (by omega)
  have hdw := fixText_wf (decide (v < 0)) (decRnd v n) n
  obtain ⟨r, hr1, hr2⟩ := stod_text hwf
  obtain ⟨rd, hrd1, hrd2⟩ := stod_text hdw
  have hE2 : te.mant ++ 'e' :: te.expN = te.withE 'e' := by unfold NumText.withE; rw [hE]
  rw [hE2, hr1, hd1, fmtSigned_text, hrd1]
  simp only [Option.bind_eq_bind, Option.bind_some, hr2, hrd2]
  by_cases hbet : |(fixText (decide (v < 0)) (decRnd v n) n).value - v| ≤ |te.value - v|
  swap
  · rw [if_neg hbet]; exact hexpo
  rw [if_pos hbet]
  by_cases hsk : o.skipIntzero = true ∧ truncRat (fixText (decide (v < 0)) (decRnd v n) n).value = 0
  · rw [if_pos hsk, hd2]
    have hsm := decRnd_small (trunc_zero (by rw [← fixText_value]; exact hsk.2))
    obtain ⟨s1, s2, s3⟩ := skip_zero v n hsm
    rw [if_neg (by rw [s1]; simp), s2]
    refine ⟨fixText0 (decide (v < 0)) (decRnd v (n + 1)) (n + 1), te, true, fixText0_wf _ _ (by omega), ?_, ?_, by simp, ?_, ?_, hz, hnz⟩
    · intro sg d hsd; simp [fixText0, fixText] at hsd
    · simp only [if_true]
      rw [← s2, List.length_eraseIdx]
      have hlt : (fmtSigned v (n + 1)).findIdx (· == '0') < (fmtSigned v (n + 1)).length := by
        have := List.findIdx_le_length (xs := fmtSigned v (n + 1)) (p := (· == '.'))
        omega
      rw [if_pos hlt, s3]
      rw [hd1, fmtSigned_text] at hd
      unfold fixText NumText.withE NumText.mant NumText.expE NumText.frac at hd
      have := natStr_length_pos (decRnd v n / 10 ^ n)
      by_cases hv : v < 0 <;> by_cases hn0 : n = 0 <;> simp [hv, hn0, Sgn.text, fixDigits_length] at hd hnl ⊢ <;> omega
    · rw [fixText0_value _ _ (by omega) hsm]
      exact le_trans (decRnd_better v n) hbet
    · intro h; first | cases h | exact h.elim
  · rw [if_neg hsk]
    refine ⟨fixText (decide (v < 0)) (decRnd v n) n, te, true, hdw, ?_, ?_, by simp, hbet, ?_, hz, hnz⟩
    · intro sg d hsd; simp [fixText] at hsd
    · simp only [if_true]
      rw [← fmtSigned_text, ← hd1]
      omega
    · intro h; first | cases h | exact h.elim

/-! ## C73 width -/

/-- **C73** (partial) Every number is written with exactly eleven columns, for every combination of options.
Missing: numbers with a three-digit exponent that has a zero in the middle; see `C73_fails`. -/
theorem C73_partial (o : WOpts) (pres : Bool) (v : ℚ) (h : KeptNum v) :
    ∃ s, cppFloatField o pres (.flt v) = some s ∧ s.length = 11 := by
  obtain ⟨t, te, b, hwf, hex, hl, hf, _⟩ := float2endfstr_char o v h
  obtain ⟨h1, _⟩ := padded_read hwf hex b hl
  refine ⟨_, ?_, h1⟩
  unfold cppFloatField
  simp only [hf, Option.bind_some, if_pos h1]

/-- **C73** The number -9.999996e109 is not written: the text has twelve characters and an exception is thrown. -/
theorem C73_fails : float2endfstr {} (-9999996 * 10 ^ 103) = some "-1.00000+110".toList ∧
    cppFloatField {} false (.flt (-9999996 * 10 ^ 103)) = none := by decide +kernel

/-- numbers meeting the assumption -/
example : KeptNum (-1234567 / 1000) := keptNum_of_bounds (by rw [abs_of_neg (by norm_num)]; norm_num) (by rw [abs_of_neg (by norm_num)]; norm_num)
example : cppFloatField {} false (.flt (-1234567 / 1000)) = some "-1.234567+3".toList ∧
    cppFloatField { abuseSignpos := true, preferNoexp := true, skipIntzero := true } false (.flt (123456789 / 10 ^ 10)) =
      some ".0123456789".toList ∧
    cppFloatField { keepE := true } false (.flt (10 ^ 112)) = some " 1.000e+112".toList ∧
    cppFloatField {} false (.flt (99999996 / 10)) = some " 1.000000+7".toList := by decide +kernel

/-! ## C74 reading back -/

/-- **C74** (partial) A number written by the compiled parser and read by it again, or by the Python parser, differs from
the original by at most half a unit of the last digit of the exponential form, whatever the options.
Missing: numbers with a three-digit exponent that has a zero in the middle; see `C74_fails`. -/
theorem C74_partial (o : WOpts) (pres : Bool) (v : ℚ) (h : KeptNum v) : ∃ s x,
    cppFloatField o pres (.flt v) = some s ∧ (∀ acc, endfstr2float acc s = some x) ∧
    (∀ r : ROpts, r.width = 11 → ∃ y, readFloat r s = .ok y ∧ y.val = x) ∧
    (v = 0 → x = 0) ∧ (v ≠ 0 → ∃ n : Nat,
      (7 : Int) - (if o.keepE then 1 else 0) + (if 0 < v ∧ o.abuseSignpos = true then 1 else 0) -
        (natStr (Int.log 10 |v|).natAbs).length = n ∧ |x - v| ≤ 1 / 2 * 10 ^ (Int.log 10 |v| - n)) := by
  obtain ⟨t, te, b, hwf, hex, hl, hf, hacc, _, hz, hnz⟩ := float2endfstr_char o v h
  obtain ⟨h1, h2, h3⟩ := padded_read hwf hex b hl
  refine ⟨_, t.value, ?_, h2, h3, fun h0 => ?_, fun h0 => ?_⟩
  · unfold cppFloatField
    simp only [hf, Option.bind_some, if_pos h1]
  · rw [h0] at hacc
    rw [hz h0] at hacc
    simpa using hacc
  · obtain ⟨n, hn, hv⟩ := hnz h0
    refine ⟨n, ?_, le_trans hacc ?_⟩
    · rw [← hn]
      unfold firstDigits
      rcases lt_or_gt_of_ne h0 with hv | hv
      · have hv' : ¬ 0 < v := not_lt.2 hv.le
        cases o.keepE <;> simp [hv, hv']
      · have hv' : ¬ v < 0 := not_lt.2 hv.le
        cases o.keepE <;> cases o.abuseSignpos <;> simp [hv, hv']
    · rw [hv, signed_sub_abs]
      obtain ⟨r1, _⟩ := rnd_round h0 n
      have r2 := roundHE_err (|v / 10 ^ (Int.log 10 |v|)| * 10 ^ n)
      rw [← r1] at r2
      have hp : (0 : ℚ) < 10 ^ (Int.log 10 |v| - n) := ten_zpow_pos _
      have e1 : |v| = |v / 10 ^ (Int.log 10 |v|)| * 10 ^ n * 10 ^ (Int.log 10 |v| - n) := by
        rw [abs_div, abs_of_pos (ten_zpow_pos _), zpow_sub₀ (by norm_num), zpow_natCast]
        have := (ten_zpow_pos (Int.log 10 |v|)).ne'
        field_simp
      have e2 : (rnd v n : ℚ) * 10 ^ (Int.log 10 |v| - n) - |v| =
          ((rnd v n : ℚ) - |v / 10 ^ (Int.log 10 |v|)| * 10 ^ n) * 10 ^ (Int.log 10 |v| - n) := by
        rw [sub_mul, ← e1]
      rw [e2, abs_mul, abs_of_pos hp]
      push_cast at r2
      exact mul_le_mul_of_nonneg_right r2 hp.le

/-- **C74** The number 1e100 is written as 1e10. -/
theorem C74_fails : cppFloatField {} false (.flt (10 ^ 100)) = some " 1.00000+10".toList ∧
    endfstr2float true " 1.00000+10".toList = some (10 ^ 10) := by decide +kernel

/-- so is every number with such an exponent: 2.5e205 becomes 2.5e25, and small numbers become large ones -/
theorem C74_fails_more : cppFloatField {} false (.flt (25 * 10 ^ 204)) = some " 2.50000+25".toList ∧
    cppFloatField {} false (.flt (1 / 10 ^ 101)) = some " 1.00000-11".toList := by decide +kernel

/-- a number meeting the assumption: six of the seven digits behind the point are kept -/
example : KeptNum (1234567 * 10 ^ 105) := by
  have hl : Int.log 10 |(1234567 * 10 ^ 105 : ℚ)| = 111 := by
    rw [abs_of_pos (by norm_num)]
    exact log_of_range (by norm_num) (by norm_num)
  right; rw [hl]; exact ⟨.inr (by decide), .inr (by decide)⟩
example : cppFloatField {} false (.flt (1234567 * 10 ^ 105)) = some " 1.2346+111".toList ∧
    endfstr2float false " 1.2346+111".toList = some (12346 * 10 ^ 107) := by decide +kernel

/-! ## C75 agreement with the Python writer -/

/-- **C75** (partial) Both writers write the same number in the exponential form: the two texts are read as the same value.
Missing: option `prefer_noexp`; numbers with a three-digit exponent that has a zero in the middle (`C74_fails`); equality of
the texts, see `C75_text_fails`. -/
theorem C75_partial (o : WOpts) (ho : o.width = 11) (hp : o.preferNoexp = false) (pres : Bool) (v : ℚ) (h : KeptNum v) :
    ∃ s s' x, cppFloatField o pres (.flt v) = some s ∧ float2fortstr o (.flt v) = .ok s' ∧ s.length = 11 ∧ s'.length = 11 ∧
      (∀ acc, endfstr2float acc s = some x) ∧ (∀ acc, endfstr2float acc s' = some x) ∧
      ∀ r : ROpts, r.width = 11 → ∃ y y', readFloat r s = .ok y ∧ readFloat r s' = .ok y' ∧ y.val = x ∧ y'.val = x := by
  obtain ⟨t, te, b, hwf, hex, hl, hf, hacc, hte, hz, hnz⟩ := float2endfstr_char o v h
  obtain rfl := hte hp
  obtain ⟨h1, h2, h3⟩ := padded_read hwf hex b hl
  have hpy : float2fortstr o (.flt v) = float2expformstr o v := by
    unfold float2fortstr
    cases hx : float2expformstr o v with
    | error e => simp [bind, Except.bind, hx]
    | ok x => simp [bind, Except.bind, hx, hp, pure, Except.pure]
  -- the field of the Python writer
  obtain ⟨k, n, e, hn, hlen, hval, hw⟩ : ∃ (k n : Nat) (e : Int), 1 ≤ n ∧ (fieldOf o (decide (v < 0)) k n e).length = 11 ∧
      signed (decide (v < 0)) ((k : ℚ) * 10 ^ (e - n)) = t.value ∧
      float2expformstr o v = .ok (fieldOf o (decide (v < 0)) k n e) := by
    by_cases h0 : v = 0
    · subst h0
      obtain ⟨n, a1, a2, a3, a4⟩ := expform_zero o (by omega) 1
      refine ⟨0, n, 0, a1, ?_, ?_, ?_⟩
      · simpa [ho] using a3
      · rw [hz rfl]; simp [signed]
      · unfold float2expformstr; simpa using a4
    · rcases h with h | ⟨hk1, hk2⟩
      · exact absurd h h0
      have hav : 0 < |v| := abs_pos.2 h0
      have hb1 : (10 : ℚ) ^ (-999 : Int) ≤ |v| := by
        have := (Int.zpow_le_iff_le_log (R := ℚ) (b := 10) (by norm_num) (x := -999) hav).2 (by rcases hk1 with h | h <;> omega)
        exact_mod_cast this
      have hb2 : |v| ≤ (10 : ℚ) ^ (999 : Int) := by
        have := (Int.lt_zpow_iff_log_lt (R := ℚ) (b := 10) (by norm_num) (x := 999) hav).2 (by rcases hk2 with h | h <;> omega)
        exact_mod_cast this.le
      obtain ⟨k, n, e, a1, a2, a3, a4, a5, a6, a7, a8, N, a9, a10⟩ := expform_nonzero o (by omega) h0 hb1 hb2
      obtain ⟨m, hm1, hm2⟩ := hnz h0
      have hNm : N = m := by
        unfold digitsFor at a9
        unfold firstDigits at hm1
        rw [ho] at a9
        rcases lt_or_gt_of_ne h0 with hv | hv
        · cases hk : o.keepE <;> cases ha : o.abuseSignpos <;> simp [hv, hk, ha] at a9 hm1 <;> omega
        · have hv' : ¬ v < 0 := not_lt.2 hv.le
          cases hk : o.keepE <;> cases ha : o.abuseSignpos <;> simp [hv', hk, ha] at a9 hm1 <;> omega
      obtain ⟨x1, x2, _⟩ := expform_exact o (by omega) (decide (v < 0)) k n e a1 a2 a3 a4 a5 0
      refine ⟨k, n, e, x1, by rw [x2, ho], ?_, a8 0⟩
      rw [hm2, a10, hNm]
      rfl
  have hread : ∀ a p, ∃ y, fortstr2float (some 11) a p (fieldOf o (decide (v < 0)) k n e) = .ok y ∧ y.val = t.value := by
    intro a p
    rw [read_fieldOf o _ k n e hn (some 11) a p (by intro m hm; cases hm; omega)]
    exact ⟨_, rfl, by rw [← hval]; split <;> rfl⟩
  refine ⟨_, _, t.value, ?_, by rw [hpy, hw], h1, hlen, h2, fun acc => ?_, fun r hr => ?_⟩
  · unfold cppFloatField
    simp only [hf, Option.bind_some, if_pos h1]
  · obtain ⟨y, hy1, hy2⟩ := hread acc false
    rw [← hy2]
    have hchars : ∀ c ∈ fieldOf o (decide (v < 0)) k n e, (isWs c = true → c = ' ') ∧ c ≠ '_' := by
      intro c hc
      have hwf' := expText_wf (decide (v < 0)) k n e
      unfold fieldOf textOf at hc
      rcases List.mem_append.1 hc with hc | hc
      · have := List.eq_of_mem_replicate hc; subst this; decide
      · split at hc
        · have hnw : isWs c = false := NumText.noWs hwf' (.inr rfl) c hc
          exact ⟨fun hw => absurd hw (by simp [hnw]), fun hu => NumText.noUnd hwf' (.inr rfl) (hu ▸ hc)⟩
        · have hnw : isWs c = false := NumText.noE_noWs hwf' c hc
          refine ⟨fun hw => absurd hw (by simp [hnw]), fun hu => NumText.noUnd hwf' (.inr rfl) (e := 'E') ?_⟩
          subst hu
          unfold NumText.noE at hc
          unfold NumText.withE
          rcases List.mem_append.1 hc with hc | hc
          · exact List.mem_append_left _ hc
          · exact List.mem_append_right _ (List.mem_cons_of_mem _ hc)
    exact C66_partial acc false _ hlen (fun c hc => (hchars c hc).1) (fun hu => (hchars _ hu).2 rfl) y hy1
  · obtain ⟨y, g1, g2⟩ := h3 r hr
    obtain ⟨y', g3, g4⟩ := hread r.acceptSpaces r.preserve
    refine ⟨y, y', g1, ?_, g2, g4⟩
    unfold readFloat
    rw [hr]
    exact g3

/-- **C75** The texts differ: a number rounded up to 1e-9 gets one digit less from the compiled parser, and the exponent
character that `keep_E` asks for is a small letter. -/
theorem C75_text_fails : cppFloatField {} false (.flt (9999996 / 10 ^ 16)) = some "  1.00000-9".toList ∧
    float2fortstr {} (.flt (9999996 / 10 ^ 16)) = .ok " 1.000000-9".toList ∧
    cppFloatField { keepE := true } false (.flt 5) = some " 5.00000e+0".toList ∧
    float2fortstr { keepE := true } (.flt 5) = .ok " 5.00000E+0".toList := by decide +kernel

/-- numbers meeting the assumptions -/
example : (cppFloatField { abuseSignpos := true } false (.flt (31415926535 / 10 ^ 22))) = some "3.141593-12".toList ∧
    float2fortstr { abuseSignpos := true } (.flt (31415926535 / 10 ^ 22)) = .ok "3.141593-12".toList := by decide +kernel

end Verif
