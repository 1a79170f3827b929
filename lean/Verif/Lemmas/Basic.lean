import Verif.Lemmas.ExpWrite
/- Helper lemmas: the number writer without exponent. -/
namespace Verif
open Spec

theorem dropWhile_eq_decomp (c : Char) (s : Str) :
    ∃ m, s = List.replicate m c ++ s.dropWhile (· == c) := by
  induction s with
  | nil => exact ⟨0, rfl⟩
  | cons d s ih =>
    obtain ⟨m, hm⟩ := ih
    by_cases h : d = c
    · subst h
      refine ⟨m+1, ?_⟩
      rw [List.dropWhile_cons]; simp only [beq_self_eq_true, if_true]
      rw [List.replicate_succ, List.cons_append, ← hm]
    · exact ⟨0, by simp [h]⟩

theorem rstripChar_decomp (c : Char) (s : Str) : ∃ m, s = rstripChar c s ++ List.replicate m c := by
  obtain ⟨m, hm⟩ := dropWhile_eq_decomp c s.reverse
  refine ⟨m, ?_⟩
  unfold rstripChar
  have := congrArg List.reverse hm
  simpa using this

theorem rstripChar_append_replicate (c : Char) (s : Str) (m : Nat) :
    rstripChar c (s ++ List.replicate m c) = rstripChar c s := by
  unfold rstripChar
  rw [List.reverse_append, List.reverse_replicate]
  congr 1
  induction m with
  | zero => simp
  | succ m ih => rw [List.replicate_succ, List.cons_append, List.dropWhile_cons]; simp [ih]

theorem rstripChar_keep {c d : Char} (h : d ≠ c) (s : Str) : rstripChar c (s ++ [d]) = s ++ [d] := by
  unfold rstripChar
  rw [List.reverse_append]
  simp [h]

theorem rstripChar_of_not_mem {c : Char} {s : Str} (h : c ∉ s) : rstripChar c s = s := by
  rcases List.eq_nil_or_concat s with rfl | ⟨l, d, rfl⟩
  · rfl
  · rw [List.concat_eq_append] at h ⊢
    apply rstripChar_keep
    intro e; subst e; simp at h

/-- stripped text does not end with the character -/
theorem rstripChar_last (c : Char) (s : Str) : rstripChar c s = [] ∨
    ∃ l d, d ≠ c ∧ rstripChar c s = l ++ [d] := by
  rcases List.eq_nil_or_concat (rstripChar c s) with h | ⟨l, d, h⟩
  · exact Or.inl h
  · right
    rw [List.concat_eq_append] at h
    refine ⟨l, d, ?_, h⟩
    intro e; subst e
    obtain ⟨m, hm⟩ := rstripChar_decomp d s
    have h2 : rstripChar d s = rstripChar d l := by
      conv_lhs => rw [hm, h]
      rw [rstripChar_append_replicate]
      have := rstripChar_append_replicate d l 1
      simpa using this
    obtain ⟨m2, hm2⟩ := rstripChar_decomp d l
    have := congrArg List.length h
    have h3 := congrArg List.length hm2
    rw [h2] at this
    simp at this h3
    omega

theorem rstripChar_append_of_ne_nil {c : Char} {s t : Str} (h : rstripChar c t ≠ []) :
    rstripChar c (s ++ t) = s ++ rstripChar c t := by
  obtain ⟨m, hm⟩ := rstripChar_decomp c t
  rcases rstripChar_last c t with h0 | ⟨l, d, hd, hl⟩
  · exact absurd h0 h
  · conv_lhs => rw [hm, hl, ← List.append_assoc, rstripChar_append_replicate, ← List.append_assoc,
      rstripChar_keep hd]
    rw [hl]; simp

theorem rstripChar_append_of_nil {c : Char} {s t : Str} (h : rstripChar c t = []) :
    rstripChar c (s ++ t) = rstripChar c s := by
  obtain ⟨m, hm⟩ := rstripChar_decomp c t
  rw [h, List.nil_append] at hm
  rw [hm, rstripChar_append_replicate]

theorem digitsVal_replicate_zero (m : Nat) : digitsVal (List.replicate m '0') = 0 := by
  induction m with
  | zero => rfl
  | succ m ih =>
    rw [List.replicate_succ', digitsVal_append, ih]; decide

/-- digits after removing trailing zeros -/
theorem digitsVal_rstrip (s : Str) :
    digitsVal s = digitsVal (rstripChar '0' s) * 10 ^ (s.length - (rstripChar '0' s).length) ∧
      (rstripChar '0' s).length ≤ s.length := by
  obtain ⟨m, hm⟩ := rstripChar_decomp '0' s
  have hl := congrArg List.length hm
  simp only [List.length_append, List.length_replicate] at hl
  refine ⟨?_, by omega⟩
  have : s.length - (rstripChar '0' s).length = m := by omega
  rw [this]
  conv_lhs => rw [hm]
  rw [digitsVal_append', digitsVal_replicate_zero]
  simp

theorem AllDig.rstrip {s : Str} (h : AllDig s) : AllDig (rstripChar '0' s) := by
  obtain ⟨m, hm⟩ := rstripChar_decomp '0' s
  intro c hc
  apply h; rw [hm]; simp [hc]

/-- plain decimal: sign, integer digits, digits behind the point without trailing zeros -/
def decText (neg : Bool) (ip f : Str) : NumText :=
  { sgn := if neg then .minus else .none
    ip := ip
    fp := if rstripChar '0' f = [] then none else some (rstripChar '0' f)
    ex := none }

theorem decText_wf {neg : Bool} {ip f : Str} (h1 : AllDig ip) (h2 : AllDig f)
    (h3 : ip ≠ [] ∨ rstripChar '0' f ≠ []) : (decText neg ip f).WF where
  ip_dig := h1
  fp_dig := by
    intro g hg
    simp only [decText] at hg
    by_cases h : rstripChar '0' f = []
    · simp [h] at hg
    · simp [h] at hg; subst hg; exact AllDig.rstrip h2
  nonempty := by
    rcases h3 with h3 | h3
    · exact Or.inl h3
    · right
      exact ⟨rstripChar '0' f, by simp [decText, h3], h3⟩
  ex_dig := by intro s d h; simp [decText] at h

theorem decText_value (neg : Bool) (ip f : Str) :
    (decText neg ip f).value = signed neg ((digitsVal (ip ++ f) : ℚ) / 10 ^ f.length) := by
  have key : (digitsVal (ip ++ (decText neg ip f).fp.getD []) : ℚ) *
      10 ^ ((0:Int) - (decText neg ip f).scale) = (digitsVal (ip ++ f) : ℚ) / 10 ^ f.length := by
    obtain ⟨h1, h2⟩ := digitsVal_rstrip f
    have h3 : (10:ℚ) ^ f.length = 10 ^ (rstripChar '0' f).length * 10 ^ (f.length - (rstripChar '0' f).length) := by
      rw [← pow_add]; congr 1; omega
    have h4 : (decText neg ip f).fp.getD [] = rstripChar '0' f := by
      unfold decText; by_cases h : rstripChar '0' f = [] <;> simp [h]
    have h5 : (decText neg ip f).scale = (rstripChar '0' f).length := by
      unfold NumText.scale decText; by_cases h : rstripChar '0' f = [] <;> simp [h]
    rw [h4, h5, digitsVal_append', digitsVal_append', h1, h3]
    have h6 : ip.length + 0 = ip.length := rfl
    have hpos : (0:ℚ) < 10 ^ (rstripChar '0' f).length := by positivity
    have hpos2 : (0:ℚ) < 10 ^ (f.length - (rstripChar '0' f).length) := by positivity
    rw [zero_sub, zpow_neg, zpow_natCast]
    have h7 : (10:Nat) ^ f.length = 10 ^ (rstripChar '0' f).length * 10 ^ (f.length - (rstripChar '0' f).length) := by
      rw [← pow_add]; congr 1; omega
    rw [h7]
    push_cast
    field_simp
  unfold NumText.value
  have hx : (decText neg ip f).expo = 0 := by simp [NumText.expo, decText]
  rw [hx]
  have hip : (decText neg ip f).ip = ip := rfl
  rw [hip, key]
  cases neg <;> simp [decText, Sgn.apply, signed]

theorem decText_text (neg : Bool) (ip f : Str) : (decText neg ip f).withE 'E' =
    (if neg then ['-'] else []) ++ ip ++
      (if rstripChar '0' f = [] then [] else '.' :: rstripChar '0' f) := by
  unfold NumText.withE NumText.mant NumText.expE NumText.frac decText
  cases neg <;> by_cases h : rstripChar '0' f = [] <;> simp [h, Sgn.text]

/-- stripping zeros and the point from a decimal text -/
theorem strip_decimal {s f : Str} (hs : rstripChar '.' s = s) (hd : AllDig f) :
    rstripChar '.' (rstripChar '0' (s ++ '.' :: f)) =
      s ++ (if rstripChar '0' f = [] then [] else '.' :: rstripChar '0' f) := by
  by_cases h : rstripChar '0' f = []
  · rw [if_pos h]
    have h1 : s ++ '.' :: f = (s ++ ['.']) ++ f := by simp
    rw [h1, rstripChar_append_of_nil h, rstripChar_keep (by decide)]
    have := rstripChar_append_replicate '.' s 1
    simp only [List.replicate_one] at this
    rw [this, hs]; simp
  · rw [if_neg h]
    have h1 : s ++ '.' :: f = (s ++ ['.']) ++ f := by simp
    rw [h1, rstripChar_append_of_ne_nil h]
    have h2 : rstripChar '.' (rstripChar '0' f) = rstripChar '0' f :=
      rstripChar_of_not_mem (not_mem_of_dig (AllDig.rstrip hd) (by decide))
    rw [rstripChar_append_of_ne_nil (by rw [h2]; exact h), h2]; simp

/-! ### truncation -/

theorem truncRat_natAbs (x : ℚ) : ((truncRat x).natAbs : Int) = ⌊|x|⌋ := by
  unfold truncRat
  by_cases h : 0 ≤ x
  · rw [if_pos h, abs_of_nonneg h]
    have : 0 ≤ ⌊x⌋ := Int.floor_nonneg.2 h
    omega
  · rw [if_neg h]
    push Not at h
    rw [abs_of_neg h, Int.floor_neg]
    have : ⌈x⌉ ≤ 0 := by
      rw [Int.ceil_le]; push_cast; exact h.le
    omega

theorem truncRat_sign {x : ℚ} (h : truncRat x ≠ 0) : (0 < truncRat x ↔ 0 < x) ∧ (truncRat x < 0 ↔ x < 0) := by
  unfold truncRat at *
  by_cases hx : 0 ≤ x
  · rw [if_pos hx] at *
    have h1 : 0 ≤ ⌊x⌋ := Int.floor_nonneg.2 hx
    have h2 : (1:ℚ) ≤ x := by
      have h4 : (1:Int) ≤ ⌊x⌋ := by omega
      have h3 : ((1:Int):ℚ) ≤ (⌊x⌋:ℚ) := by exact_mod_cast h4
      have := Int.floor_le x; push_cast at h3; linarith
    constructor
    · constructor
      · intro; linarith
      · intro; omega
    · constructor
      · intro; omega
      · intro; linarith
  · rw [if_neg hx] at *
    push Not at hx
    have h1 : ⌈x⌉ ≤ 0 := by rw [Int.ceil_le]; push_cast; exact hx.le
    constructor
    · constructor
      · intro; omega
      · intro; linarith
    · constructor
      · intro; exact hx
      · intro; omega

theorem truncRat_int (n : Int) : truncRat (n : ℚ) = n := by
  unfold truncRat; split <;> simp

theorem intStr_eq (n : Int) : intStr n = (if n < 0 then ['-'] else []) ++ natStr n.natAbs := by
  cases n with
  | ofNat n => simp [intStr]
  | negSucc n => simp [intStr, Int.negSucc_lt_zero]

theorem intStr_eq_decText (n : Int) : intStr n = (decText (decide (n < 0)) (natStr n.natAbs) []).withE 'E' := by
  rw [decText_text, intStr_eq]
  have : rstripChar '0' [] = [] := rfl
  rw [this]; simp

/-! ### the basic writer, case by case -/

def skipOf (o : WOpts) (val : ℚ) : Bool := o.skipIntzero && truncRat val == 0
def isIntOf (val : ℚ) : Bool := ((truncRat val : ℚ) = val)
def effOf (o : WOpts) (val : ℚ) : Nat := if skipOf o val then o.width + 1 else o.width
def fwOf (o : WOpts) (val : ℚ) : Int :=
  (effOf o val : Int) - (2 - (if o.abuseSignpos && decide (val > 0) then 1 else 0)
    - (if isIntOf val then 1 else 0)) - (natStr (truncRat val).natAbs).length

/-- branch with digits behind the point -/
def basicFrac (o : WOpts) (val : ℚ) : Str :=
  let t := rjust (fmtSigned val (fwOf o val).toNat) (effOf o val)
  if skipOf o val then t.take (t.findIdx (· == '.') - 1) ++ t.drop (t.findIdx (· == '.')) else t

/-- branch printing the truncated value -/
def basicInt (o : WOpts) (val : ℚ) : Str :=
  let t := if 0 < val ∧ !o.abuseSignpos then ' ' :: intStr (truncRat val) else intStr (truncRat val)
  if (t.length : Int) ≤ (o.width : Int) - 2 then
    (t ++ ['.']) ++ List.replicate (o.width - (t ++ ['.']).length) '0'
  else t

theorem basic_eq (o : WOpts) (val : ℚ) (h0 : val ≠ 0) :
    float2basicnumstr o val =
      rjust (if 0 < fwOf o val ∧ !isIntOf val then basicFrac o val else basicInt o val) o.width := by
  have hz : (isIntOf val && truncRat val == 0) = false := by
    by_contra h
    simp [isIntOf] at h
    rw [h.2] at h; simp at h; exact h0 h.symm
  unfold float2basicnumstr
  simp only
  rw [if_neg]
  · rfl
  · simpa [isIntOf] using hz

end Verif
