import Verif.Lemmas.Basic
/- Helper lemmas: characterisation of the number writer without exponent. -/
namespace Verif
open Spec

theorem rjust_pad (j w : Nat) (s : Str) (h : j + s.length ≤ w) :
    rjust (List.replicate j ' ' ++ s) w = rjust s w := by
  unfold rjust
  rw [← List.append_assoc, List.replicate_append_replicate]
  congr 2
  simp; omega

theorem rjust_form (s : Str) (w : Nat) : ∃ j, rjust s w = List.replicate j ' ' ++ s := ⟨_, rfl⟩

theorem rjust_self {s : Str} {w : Nat} (h : w ≤ s.length) : rjust s w = s := by
  unfold rjust; rw [Nat.sub_eq_zero_of_le h]; rfl

theorem isIntOf_iff (val : ℚ) : isIntOf val = true ↔ (truncRat val : ℚ) = val := by simp [isIntOf]

/-- nonzero integer part in the branch printing integers -/
theorem basicInt_ne_zero {o : WOpts} (hw : 9 ≤ o.width) {val : ℚ} (h0 : val ≠ 0)
    (hb : ¬ (0 < fwOf o val ∧ (!isIntOf val) = true)) : truncRat val ≠ 0 := by
  intro hz
  by_cases hi : isIntOf val = true
  · rw [isIntOf_iff, hz] at hi; exact h0 (by simpa using hi.symm)
  · apply hb
    refine ⟨?_, by simpa using hi⟩
    unfold fwOf effOf
    rw [hz]
    have : (natStr (Int.natAbs 0)).length = 1 := by decide
    rw [this]
    simp only [hi, Bool.false_eq_true, if_false]
    split <;> split <;> omega

/-- sign column used for positive numbers -/
def signCol (o : WOpts) (val : ℚ) : Nat := if 0 < val ∧ (!o.abuseSignpos) = true then 1 else 0

theorem intStr_no_dot (n : Int) : '.' ∉ intStr n := by
  rw [intStr_eq]
  intro h
  rcases List.mem_append.1 h with h | h
  · split at h <;> simp at h
  · exact absurd (natStr_dig _ _ h) (by decide)

theorem basicInt_strip {o : WOpts} (hw : 9 ≤ o.width) {val : ℚ} (h0 : val ≠ 0)
    (hb : ¬ (0 < fwOf o val ∧ (!isIntOf val) = true)) :
    ∃ j, basicStripped o val = List.replicate j ' ' ++ intStr (truncRat val) ∧
      ((basicStripped o val).length ≤ o.width ↔
        signCol o val + (intStr (truncRat val)).length ≤ o.width) := by
  have hne := basicInt_ne_zero hw h0 hb
  have hnd := intStr_no_dot (truncRat val)
  have hlen1 := List.length_pos_iff.2 (intStr_ne_nil (truncRat val))
  set I := intStr (truncRat val) with hI
  have hIne : I ≠ [] := intStr_ne_nil _
  have ht : (if 0 < val ∧ (!o.abuseSignpos) = true then ' ' :: I else I) =
      List.replicate (signCol o val) ' ' ++ I := by
    unfold signCol; split <;> simp
  have hnd' : '.' ∉ List.replicate (signCol o val) ' ' ++ I := by
    intro h
    rcases List.mem_append.1 h with h | h
    · have := List.eq_of_mem_replicate h; revert this; decide
    · exact hnd h
  unfold basicStripped
  rw [basic_eq o val h0, if_neg hb]
  simp only [basicInt, ← hI, ht]
  set T := List.replicate (signCol o val) ' ' ++ I with hT
  have hTl : T.length = signCol o val + I.length := by simp [hT]
  by_cases hl : (T.length : Int) ≤ (o.width : Int) - 2
  · rw [if_pos hl]
    have hfull : rjust (T ++ ['.'] ++ List.replicate (o.width - (T ++ ['.']).length) '0') o.width =
        T ++ '.' :: List.replicate (o.width - (T ++ ['.']).length) '0' := by
      rw [rjust_self]
      · simp
      · simp; omega
    rw [hfull]
    have hc : (T ++ '.' :: List.replicate (o.width - (T ++ ['.']).length) '0').contains '.' = true := by
      simp
    simp only [hc, if_true]
    have hz : rstripChar '0' (List.replicate (o.width - (T ++ ['.']).length) '0') = [] := by
      have := rstripChar_append_replicate '0' [] (o.width - (T ++ ['.']).length)
      rw [List.nil_append] at this; exact this
    rw [strip_decimal (rstripChar_of_not_mem hnd') (by
      intro c hc; rw [List.eq_of_mem_replicate hc]; decide), if_pos hz, List.append_nil]
    have hIw : ∀ c ∈ I, isWs c = false := intStr_noWs _
    have hspecial : ¬ (T = ['+'] ∨ T = ['-'] ∨ T = []) := by
      have hdig : ∃ c ∈ T, isDig c = true := by
        have : natStr (truncRat val).natAbs ≠ [] := natStr_ne_nil _
        obtain ⟨c, r, hcr⟩ := List.exists_cons_of_ne_nil this
        refine ⟨c, ?_, natStr_dig _ c (by rw [hcr]; simp)⟩
        rw [hT, hI, intStr_eq, hcr]; simp
      obtain ⟨c, hc, hd⟩ := hdig
      rintro (h | h | h) <;> rw [h] at hc <;> simp at hc <;> subst hc <;> revert hd <;> decide
    rw [if_neg hspecial]
    refine ⟨signCol o val, rfl, by rw [hTl]⟩
  · rw [if_neg hl]
    obtain ⟨j, hj⟩ := rjust_form T o.width
    have hc : (rjust T o.width).contains '.' = false := by
      rw [hj]
      rw [Bool.eq_false_iff]
      intro h
      rw [List.contains_iff_mem] at h
      rcases List.mem_append.1 h with h | h
      · have := List.eq_of_mem_replicate h; revert this; decide
      · exact hnd' h
    simp only [hc, Bool.false_eq_true, if_false]
    refine ⟨j + signCol o val, ?_, ?_⟩
    · rw [hj, hT, ← List.append_assoc, List.replicate_append_replicate]
    · rw [rjust_length, hTl]; omega

/-! ### the branch with digits behind the point -/

/-- the rounded multiple of `10^-fw` -/
def kOf (o : WOpts) (val : ℚ) : Nat := (roundHE (|val| * 10 ^ (fwOf o val).toNat)).toNat

theorem roundHE_nonneg {x : ℚ} (h : 0 ≤ x) : 0 ≤ roundHE x := le_roundHE (by simpa using h)

theorem fmtSigned_eq (val : ℚ) (n : Nat) (hn : 1 ≤ n) :
    fmtSigned val n = (if val < 0 then ['-'] else []) ++
      natStr ((roundHE (|val| * 10 ^ n)).toNat / 10 ^ n) ++ '.' ::
      fixDigits n ((roundHE (|val| * 10 ^ n)).toNat % 10 ^ n) := by
  unfold fmtSigned fmtFixed
  have h0 : n ≠ 0 := by omega
  simp only [h0, if_false]
  split <;> simp

theorem findIdx_dot {a f : Str} (h : '.' ∉ a) : (a ++ '.' :: f).findIdx (· == '.') = a.length := by
  induction a with
  | nil => rfl
  | cons c a ih =>
    have hc : (c == '.') = false := by
      rw [beq_eq_false_iff_ne]; intro e; subst e; simp at h
    rw [List.cons_append, List.findIdx_cons, hc]
    simp [ih (by intro h'; exact h (by simp [h']))]

theorem no_dot_pad {j : Nat} {b : Bool} {s : Str} (hs : AllDig s) :
    '.' ∉ List.replicate j ' ' ++ ((if b then ['-'] else []) ++ s) := by
  intro h
  rcases List.mem_append.1 h with h | h
  · have := List.eq_of_mem_replicate h; revert this; decide
  · rcases List.mem_append.1 h with h | h
    · cases b <;> simp at h
    · exact absurd (hs _ h) (by decide)

/-- shape of the text with digits behind the point: integer digits `ip` -/
theorem basicFrac_shape {o : WOpts} {val : ℚ} (hfw : 0 < fwOf o val) :
    ∃ j, basicFrac o val = List.replicate j ' ' ++ ((if decide (val < 0) then ['-'] else []) ++
      (if skipOf o val then (natStr (kOf o val / 10 ^ (fwOf o val).toNat)).dropLast
        else natStr (kOf o val / 10 ^ (fwOf o val).toNat))) ++ '.' ::
      fixDigits (fwOf o val).toNat (kOf o val % 10 ^ (fwOf o val).toNat) ∧
      j = effOf o val - (fmtSigned val (fwOf o val).toNat).length := by
  have hn : 1 ≤ (fwOf o val).toNat := by omega
  refine ⟨effOf o val - (fmtSigned val (fwOf o val).toNat).length, ?_, rfl⟩
  unfold basicFrac
  simp only
  set j := effOf o val - (fmtSigned val (fwOf o val).toNat).length
  have hr : rjust (fmtSigned val (fwOf o val).toNat) (effOf o val) =
      (List.replicate j ' ' ++ ((if decide (val < 0) then ['-'] else []) ++
        natStr (kOf o val / 10 ^ (fwOf o val).toNat))) ++ '.' ::
        fixDigits (fwOf o val).toNat (kOf o val % 10 ^ (fwOf o val).toNat) := by
    unfold rjust
    rw [fmtSigned_eq val _ hn]
    simp only [kOf, j]
    simp [fmtSigned_eq val _ hn]
  rw [hr]
  by_cases hs : skipOf o val = true
  · simp only [hs, if_true]
    rw [findIdx_dot (no_dot_pad (natStr_dig _))]
    set a := natStr (kOf o val / 10 ^ (fwOf o val).toNat) with ha
    have hane : a ≠ [] := natStr_ne_nil _
    obtain ⟨l, d, hld⟩ : ∃ l d, a = l ++ [d] := by
      rcases List.eq_nil_or_concat a with h | ⟨l, d, h⟩
      · exact absurd h hane
      · exact ⟨l, d, by simpa using h⟩
    rw [List.drop_left, hld]
    have h1 : (List.replicate j ' ' ++ ((if decide (val < 0) = true then ['-'] else []) ++ (l ++ [d])))
        = (List.replicate j ' ' ++ ((if decide (val < 0) = true then ['-'] else []) ++ l)) ++ [d] := by simp
    rw [h1, List.length_append, List.length_singleton, Nat.add_sub_cancel, List.append_assoc _ [d],
      List.take_left]
    simp
  · simp [hs]

/-- value text of the branch with digits behind the point -/
theorem basicFrac_strip {o : WOpts} {val : ℚ} (h0 : val ≠ 0)
    (hb : 0 < fwOf o val ∧ (!isIntOf val) = true) :
    ∃ j, (skipOf o val = false → basicStripped o val = List.replicate j ' ' ++
        (decText (decide (val < 0)) (natStr (kOf o val / 10 ^ (fwOf o val).toNat))
          (fixDigits (fwOf o val).toNat (kOf o val % 10 ^ (fwOf o val).toNat))).withE 'E') ∧
      (skipOf o val = true →
        (rstripChar '0' (fixDigits (fwOf o val).toNat (kOf o val % 10 ^ (fwOf o val).toNat)) ≠ [] →
          basicStripped o val = List.replicate j ' ' ++
          (decText (decide (val < 0)) []
            (fixDigits (fwOf o val).toNat (kOf o val % 10 ^ (fwOf o val).toNat))).withE 'E') ∧
        (rstripChar '0' (fixDigits (fwOf o val).toNat (kOf o val % 10 ^ (fwOf o val).toNat)) = [] →
          basicStripped o val = List.replicate j ' ' ∨ basicStripped o val = ['0'])) := by
  obtain ⟨j, hj, hjdef⟩ := basicFrac_shape hb.1
  obtain ⟨hfw, hnint⟩ := hb
  set n := (fwOf o val).toNat with hn
  have hn1 : 1 ≤ n := by omega
  set K := kOf o val
  set f := fixDigits n (K % 10 ^ n) with hf
  have hfd : AllDig f := fixDigits_dig _ _
  have hbs : ∃ j', float2basicnumstr o val = List.replicate j' ' ' ++ ((if decide (val < 0) then ['-'] else []) ++
      (if skipOf o val then (natStr (K / 10 ^ n)).dropLast else natStr (K / 10 ^ n))) ++ '.' :: f ∧
      (j = 0 → o.width ≤ (basicFrac o val).length → j' = 0) := by
    rw [basic_eq o val h0, if_pos ⟨hfw, hnint⟩]
    refine ⟨(o.width - (basicFrac o val).length) + j, ?_, by intro h1 h2; omega⟩
    unfold rjust
    rw [← List.replicate_append_replicate]
    generalize o.width - (basicFrac o val).length = q
    rw [hj]
    simp only [List.append_assoc]
  obtain ⟨j', hj', hj0⟩ := hbs
  have hip : AllDig (if skipOf o val then (natStr (K / 10 ^ n)).dropLast else natStr (K / 10 ^ n)) := by
    split
    · intro c hc; exact natStr_dig _ c (List.mem_of_mem_dropLast hc)
    · exact natStr_dig _
  have hstrip : basicStripped o val =
      (if (List.replicate j' ' ' ++ ((if decide (val < 0) then ['-'] else []) ++
      (if skipOf o val then (natStr (K / 10 ^ n)).dropLast else natStr (K / 10 ^ n))) ++ (if rstripChar '0' f = [] then [] else '.' :: rstripChar '0' f)) = ['+'] ∨ (List.replicate j' ' ' ++ ((if decide (val < 0) then ['-'] else []) ++
      (if skipOf o val then (natStr (K / 10 ^ n)).dropLast else natStr (K / 10 ^ n))) ++ (if rstripChar '0' f = [] then [] else '.' :: rstripChar '0' f)) = ['-'] ∨ (List.replicate j' ' ' ++ ((if decide (val < 0) then ['-'] else []) ++
      (if skipOf o val then (natStr (K / 10 ^ n)).dropLast else natStr (K / 10 ^ n))) ++ (if rstripChar '0' f = [] then [] else '.' :: rstripChar '0' f)) = [] then ['0'] else
      List.replicate j' ' ' ++ ((if decide (val < 0) then ['-'] else []) ++
      (if skipOf o val then (natStr (K / 10 ^ n)).dropLast else natStr (K / 10 ^ n))) ++ (if rstripChar '0' f = [] then [] else '.' :: rstripChar '0' f)) := by
    unfold basicStripped
    simp only
    rw [hj', if_pos (by simp), strip_decimal (rstripChar_of_not_mem (no_dot_pad hip)) hfd]
  rw [hstrip]
  have digit_special : ∀ {T : Str}, (∃ c ∈ T, isDig c = true) → ¬ (T = ['+'] ∨ T = ['-'] ∨ T = []) := by
    rintro T ⟨c, hc, hd⟩
    rintro (h | h | h) <;> rw [h] at hc <;> simp at hc <;> subst hc <;> revert hd <;> decide
  refine ⟨j', ?_, ?_⟩
  · intro hs
    simp only [hs, Bool.false_eq_true, if_false]
    rw [if_neg, decText_text]
    · simp
    · apply digit_special
      obtain ⟨c, r, hcr⟩ := List.exists_cons_of_ne_nil (natStr_ne_nil (K / 10 ^ n))
      exact ⟨c, by rw [hcr]; simp, natStr_dig (K / 10 ^ n) c (by rw [hcr]; simp)⟩
  · intro hs
    -- the integer digit is a single one
    have hsk := hs
    simp only [skipOf, Bool.and_eq_true, beq_iff_eq] at hsk
    have hlt : |val| < 1 := by
      have := truncRat_natAbs val
      rw [hsk.2] at this
      have h2 := Int.lt_floor_add_one |val|
      rw [← this] at h2; simpa using h2
    have hK : K ≤ 10 ^ n := by
      have : roundHE (|val| * 10 ^ n) ≤ ((10 ^ n : Nat) : Int) := by
        apply roundHE_le
        push_cast
        nlinarith [show (0:ℚ) < 10 ^ n by positivity]
      show (roundHE (|val| * 10 ^ n)).toNat ≤ 10 ^ n
      exact Int.toNat_le.2 this
    have hA : K / 10 ^ n ≤ 1 := by
      calc K / 10 ^ n ≤ 10 ^ n / 10 ^ n := Nat.div_le_div_right hK
        _ = 1 := Nat.div_self (by positivity)
    have hAl : (natStr (K / 10 ^ n)).length = 1 := by
      have := (natStr_length_le 0 (K / 10 ^ n)).2 (by omega)
      have := natStr_length_pos (K / 10 ^ n); omega
    have hdl : (natStr (K / 10 ^ n)).dropLast = [] := by
      rw [← List.length_eq_zero_iff, List.length_dropLast, hAl]
    simp only [hs, if_true, hdl, List.append_nil]
    constructor
    · intro hne
      simp only [hne, if_false]
      rw [if_neg, decText_text]
      · simp [hne]
      · apply digit_special
        obtain ⟨c, r, hcr⟩ := List.exists_cons_of_ne_nil hne
        refine ⟨c, by rw [hcr]; simp, ?_⟩
        exact AllDig.rstrip hfd c (by rw [hcr]; simp)
    · intro he
      simp only [he, if_true, List.append_nil]
      by_cases hneg : val < 0
      · -- negative: no padding
        have hfl : (fmtSigned val n).length = effOf o val := by
          rw [fmtSigned_eq val n hn1]
          have e1 : (roundHE (|val| * 10 ^ n)).toNat = K := rfl
          rw [e1]
          simp only [hneg, if_true, List.length_append, List.length_cons, List.length_nil, hAl,
            fixDigits_length]
          have hfwe : fwOf o val = n := by omega
          unfold fwOf at hfwe
          have hpos : ¬ (val > 0) := by linarith
          have hni : isIntOf val = false := by simpa using hnint
          have hl1 : (natStr (truncRat val).natAbs).length = 1 := by rw [hsk.2]; decide
          simp only [hpos, decide_false, Bool.and_false, Bool.false_eq_true, if_false, hni, hl1] at hfwe
          omega
        have hj0' : j = 0 := by rw [hjdef]; omega
        have hbl : o.width ≤ (basicFrac o val).length := by
          rw [hj, hj0']
          rw [fmtSigned_eq val n hn1] at hfl
          have e1 : (roundHE (|val| * 10 ^ n)).toNat = K := rfl
          rw [e1] at hfl
          simp only [hneg, hs, if_true, decide_true, List.length_append, List.length_cons, List.length_nil, hAl,
            fixDigits_length, hdl, List.length_replicate, effOf] at hfl ⊢
          simp only [hf, fixDigits_length]
          omega
        rw [hj0 hj0' hbl]
        simp only [hneg, decide_true, if_true]
        right; simp
      · simp only [hneg, decide_false, Bool.false_eq_true, if_false, List.append_nil]
        by_cases hj1 : j' = 0
        · right; subst hj1; simp
        · left
          rw [if_neg]
          rintro (h | h | h)
          · have : ('+':Char) ∈ List.replicate j' ' ' := by rw [h]; simp
            have := List.eq_of_mem_replicate this; revert this; decide
          · have : ('-':Char) ∈ List.replicate j' ' ' := by rw [h]; simp
            have := List.eq_of_mem_replicate this; revert this; decide
          · rw [List.replicate_eq_nil_iff] at h; exact hj1 h

end Verif
