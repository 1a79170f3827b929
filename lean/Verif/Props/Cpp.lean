import Verif.Model.Cpp
import Verif.Lemmas.FloatInv
import Verif.Props.Fields
import Verif.Spec.Layout

/-! C65–C67: the C++ float reader and the numbering of lines in the C++ writer. -/

namespace Verif
open Spec

/-! ## C65 the buffer -/

theorem cppScan_length (acc : Bool) (s : Str) : ∀ (a b : Bool) (buf : Str),
    (cppScan acc a b s buf).buf.length ≤ buf.length + s.length + (if b then 0 else 1) := by
  induction s with
  | nil => intro a b buf; simp [cppScan]
  | cons c s ih =>
    intro a b buf
    have h1 : ∀ a' b' (x : Str), (if b' then 0 else 1) + x.length ≤ 1 + (if b then 0 else 1) →
        (cppScan acc a' b' s (buf ++ x)).buf.length ≤ buf.length + (c :: s).length + (if b then 0 else 1) := by
      intro a' b' x hx
      have := ih a' b' (buf ++ x)
      simp only [List.length_append, List.length_cons] at this ⊢
      omega
    simp only [cppScan]
    split
    · split
      · have := ih a b buf
        simp only [List.length_cons]
        omega
      · simp only [List.length_cons]; omega
    · split
      · split
        · rename_i hb
          have hb' : b = false := by simpa using hb
          subst hb'
          split
          · rw [List.append_assoc]; exact h1 _ _ _ (by simp)
          · split <;> exact h1 _ _ _ (by simp)
        · rename_i hb
          have hb' : b = true := by simpa using hb
          subst hb'
          exact h1 _ _ _ (by simp)
      · exact h1 _ _ _ (by simp; omega)

theorem cutBlanks_length (s : Str) : (cutBlanks s).length ≤ s.length := by
  unfold cutBlanks
  rw [List.length_reverse]
  exact (List.dropWhile_sublist _).length_le.trans (by rw [List.length_reverse])

/-- **C65** The C++ float reader writes at most 13 characters into its buffer of 13 characters: for every field of eleven
characters, whatever they are, for both settings of `accept_spaces`, and also when it throws. -/
theorem C65 (acc : Bool) (field : Str) (h : field.length = 11) (b : CBuf) (hb : cppBuffer acc field = some b) :
    b.buf.length ≤ 13 := by
  have hc := cutBlanks_length field
  have hs := cppScan_length acc (cutBlanks field) false false []
  simp only [List.length_nil, Bool.false_eq_true, if_false, Nat.zero_add] at hs
  unfold cppBuffer at hb
  dsimp only at hb
  split at hb
  · cases hb
  · split at hb
    · cases hb
      omega
    · cases hb
      dsimp only
      rw [List.length_append, List.length_singleton]
      split
      · simp
      · omega

/-- the bound is attained -/
example : (cppBuffer false "-1.234567+8".toList).map (fun b => b.buf.length) = some 13 ∧
    (cppBuffer true "abc+def-ghi".toList).map (fun b => b.buf.length) = some 12 := by decide +kernel

/-! ## C66 agreement with the Python reader -/

theorem parseExp_cExp {r : Str} {x : Int} (h : parseExp r = some x) : cExp r = x := by
  cases r with
  | nil => cases h; rfl
  | cons c s =>
    simp only [parseExp] at h
    simp only [cExp]
    split at h
    · rename_i hc
      rw [if_pos hc]
      rw [Option.map_eq_some_iff] at h
      obtain ⟨n, hn, hx⟩ := h
      obtain ⟨h1, h2⟩ := parseNat_inv hn
      have ht : (splitSign s).2.takeWhile isDig = (splitSign s).2 := by
        have := takeWhile_dig (r := []) h1 (by simp)
        rwa [List.append_nil] at this
      rw [ht, if_neg h2, ← hx]
      unfold parseNat at hn
      split at hn
      · cases hn; rfl
      · cases hn
    · cases h

theorem cSpace_ws {c : Char} (h : isWs c = false) : cSpace c = false := by
  unfold isWs at h
  unfold cSpace
  simp only [Bool.or_eq_false_iff, decide_eq_false_iff_not, Bool.and_eq_false_iff] at h ⊢
  refine ⟨?_, h.1.2⟩
  rintro rfl
  exact h.1.1 rfl

/-- `std::stod` gives the same number for a text without white space and underscores that Python's `float` accepts -/
theorem stod_of_pyFloat {s : Str} {d : Dec} (hw : NoWs s) (hu : '_' ∉ s) (h : pyFloat s = some d) : stod s = some d := by
  unfold pyFloat at h
  rw [strip_noWs hw, deUnderscore_id _ hu] at h
  simp only [Option.bind_eq_bind, Option.bind_some] at h
  have hd : s.dropWhile cSpace = s := by
    cases s with
    | nil => rfl
    | cons c s => rw [List.dropWhile_cons, if_neg]; simp [cSpace_ws (hw c List.mem_cons_self)]
  unfold stod
  rw [hd]
  dsimp only
  split at h
  · rename_i r' hr
    split at h
    · cases h
    · rename_i hne
      obtain ⟨x, hx, hx2⟩ := Option.bind_eq_some_iff.mp h
      simp only [hr]
      rw [if_neg hne, parseExp_cExp hx]
      exact hx2
  · rename_i hr
    split at h
    · cases h
    · rename_i hne
      obtain ⟨x, hx, hx2⟩ := Option.bind_eq_some_iff.mp h
      split
      · rename_i r' hr'
        exact absurd hr' (hr r')
      · rw [if_neg hne, parseExp_cExp hx]
        exact hx2

theorem cppScan_filter (s : Str) : ∀ (a b : Bool) (buf : Str),
    cppScan true a b s buf = cppScan true a b (s.filter (· ≠ ' ')) buf := by
  induction s with
  | nil => intros; rfl
  | cons c s ih =>
    intro a b buf
    by_cases hc : c = ' '
    · subst hc
      simp only [cppScan, if_true, Bool.true_or, List.filter_cons]
      simpa using ih a b buf
    · have : (c :: s).filter (· ≠ ' ') = c :: s.filter (· ≠ ' ') := by simp [hc]
      rw [this]
      simp only [cppScan, if_neg hc]
      simp only [ih]

theorem cppScan_noSpace {s : Str} (h : ' ' ∉ s) (acc : Bool) : ∀ (a b : Bool) (buf : Str),
    cppScan acc a b s buf = cppScan true a b s buf := by
  induction s with
  | nil => intros; rfl
  | cons c s ih =>
    intro a b buf
    have hc : c ≠ ' ' := fun e => h (by simp [e])
    simp only [cppScan, if_neg hc]
    simp only [ih (fun hm => h (List.mem_cons_of_mem _ hm))]

theorem cppScan_lead (acc : Bool) (k : Nat) (s : Str) : cppScan acc false false (List.replicate k ' ' ++ s) [] =
    cppScan acc false false s [] := by
  induction k with
  | zero => rfl
  | succ k ih =>
    rw [List.replicate_succ, List.cons_append]
    simp only [cppScan, if_true, Bool.not_false, Bool.or_true]
    exact ih

/-- characters of a mantissa behind the first one -/
def plainC (c : Char) : Prop := c ≠ ' ' ∧ c ≠ '+' ∧ c ≠ '-' ∧ c ≠ 'e' ∧ c ≠ 'E'

theorem cppScan_plain {a : Str} (h : ∀ c ∈ a, plainC c) (acc : Bool) (r buf : Str) :
    cppScan acc true false (a ++ r) buf = cppScan acc true false r (buf ++ a) := by
  induction a generalizing buf with
  | nil => simp
  | cons c a ih =>
    obtain ⟨h1, h2, h3, h4, h5⟩ := h c List.mem_cons_self
    simp only [List.cons_append, cppScan, if_neg h1, h2, h3, h4, h5, or_self, if_false, if_true, Bool.not_false]
    rw [ih (fun x hx => h x (List.mem_cons_of_mem _ hx))]
    simp

theorem cppScan_exp {a : Str} (h : ' ' ∉ a) (acc : Bool) (buf : Str) :
    cppScan acc true true a buf = { buf := buf ++ a } := by
  induction a generalizing buf with
  | nil => simp [cppScan]
  | cons c a ih =>
    have hc : c ≠ ' ' := fun e => h (by simp [e])
    simp only [cppScan, if_neg hc, Bool.not_true, Bool.false_eq_true, if_false, if_true]
    rw [ih (fun hm => h (List.mem_cons_of_mem _ hm))]
    simp

theorem plain_dig {c : Char} (h : isDig c = true) : plainC c :=
  ⟨isDig_ne h (by decide), isDig_ne h (by decide), isDig_ne h (by decide), isDig_ne h (by decide), isDig_ne h (by decide)⟩

theorem frac_plain {t : NumText} (h : t.WF) : ∀ c ∈ t.frac, plainC c := by
  intro c hc
  unfold NumText.frac at hc
  cases hf : t.fp with
  | none => rw [hf] at hc; cases hc
  | some f =>
    rw [hf] at hc
    rcases List.mem_cons.mp hc with rfl | hc
    · unfold plainC; decide
    · exact plain_dig (h.fp_dig f hf c hc)

/-- a mantissa: its first character starts a number, the others neither are signs nor exponent characters -/
theorem mant_cons {t : NumText} (h : t.WF) : ∃ x a, t.mant = x :: a ∧ x ≠ ' ' ∧
    (decide (x = '.') || isDig x || decide (x = '-') || decide (x = '+')) = true ∧ ∀ c ∈ a, plainC c := by
  have hbody : ∀ c ∈ t.ip ++ t.frac, plainC c := by
    intro c hc
    rcases List.mem_append.mp hc with hc | hc
    · exact plain_dig (h.ip_dig c hc)
    · exact frac_plain h c hc
  unfold NumText.mant
  cases hs : t.sgn with
  | plus => exact ⟨'+', t.ip ++ t.frac, rfl, by decide, by decide, hbody⟩
  | minus => exact ⟨'-', t.ip ++ t.frac, rfl, by decide, by decide, hbody⟩
  | none =>
    simp only [Sgn.text, List.nil_append]
    cases hip : t.ip with
    | cons x a =>
      have hx := h.ip_dig x (by simp [hip])
      refine ⟨x, a ++ t.frac, rfl, (plain_dig hx).1, by simp [hx], ?_⟩
      intro c hc
      exact hbody c (by rw [hip]; exact List.mem_cons_of_mem _ hc)
    | nil =>
      cases hf : t.fp with
      | none =>
        have := h.nonempty
        simp [hip, hf] at this
      | some f =>
        refine ⟨'.', f, by simp [NumText.frac, hf], by decide, by decide, ?_⟩
        intro c hc
        exact plain_dig (h.fp_dig f hf c hc)

theorem cppScan_mant {t : NumText} (h : t.WF) (acc : Bool) (r : Str) :
    cppScan acc false false (t.mant ++ r) [] = cppScan acc true false r t.mant := by
  obtain ⟨x, a, h1, h2, h3, h4⟩ := mant_cons h
  rw [h1, List.cons_append]
  simp only [cppScan, if_neg h2, Bool.false_eq_true, if_false, h3]
  rw [cppScan_plain h4]
  simp

theorem noSpace_exp {t : NumText} (h : t.WF) {sg : Sgn} {d : Str} (hx : t.ex = some (sg, d)) : ' ' ∉ sg.text ++ d := by
  intro hc
  rcases List.mem_append.mp hc with hc | hc
  · rcases Sgn.text_no hc with h | h <;> cases h
  · exact (plain_dig ((h.ex_dig sg d hx).1 _ hc)).1 rfl

theorem cppScan_withE {t : NumText} (h : t.WF) {e : Char} (he : e = 'e' ∨ e = 'E') (acc : Bool) :
    cppScan acc false false (t.withE e) [] = { buf := t.withE e } := by
  unfold NumText.withE
  rw [cppScan_mant h]
  unfold NumText.expE
  cases hx : t.ex with
  | none => simp [cppScan]
  | some p =>
    obtain ⟨sg, d⟩ := p
    have h1 : e ≠ ' ' ∧ e ≠ '+' ∧ e ≠ '-' := by rcases he with rfl | rfl <;> decide
    simp only [cppScan, if_neg h1.1, if_true, Bool.not_false, h1.2.1, h1.2.2, or_self, if_false, if_pos he]
    rw [cppScan_exp (noSpace_exp h hx)]
    simp

theorem cppScan_noE {t : NumText} (h : t.WF) {sg : Sgn} {d : Str} (hx : t.ex = some (sg, d)) (hsg : sg ≠ .none) (acc : Bool) :
    cppScan acc false false t.noE [] = { buf := t.withE 'e' } := by
  unfold NumText.noE NumText.withE
  rw [cppScan_mant h]
  unfold NumText.expN NumText.expE
  rw [hx]
  have hd := noSpace_exp h hx
  have hd' : ' ' ∉ d := fun hc => hd (List.mem_append.mpr (.inr hc))
  cases sg with
  | none => exact absurd rfl hsg
  | plus =>
    have h1 : ('+' : Char) ≠ ' ' := by decide
    simp only [Sgn.text, List.singleton_append, cppScan, if_neg h1, if_true, Bool.not_false, true_or]
    rw [cppScan_exp hd']
    simp
  | minus =>
    have h1 : ('-' : Char) ≠ ' ' := by decide
    simp only [Sgn.text, List.singleton_append, cppScan, if_neg h1, if_true, Bool.not_false, or_true]
    rw [cppScan_exp hd']
    simp

theorem cutBlanks_decomp (s : Str) : ∃ m, s = cutBlanks s ++ List.replicate m ' ' := by
  refine ⟨(s.reverse.takeWhile (· = ' ')).length, ?_⟩
  have h2 : s.reverse = s.reverse.takeWhile (· = ' ') ++ s.reverse.dropWhile (· = ' ') :=
    (List.takeWhile_append_dropWhile).symm
  have h3 := congrArg List.reverse h2
  rw [List.reverse_reverse, List.reverse_append] at h3
  have h4 : (s.reverse.takeWhile (· = ' ')).reverse = List.replicate (s.reverse.takeWhile (· = ' ')).length ' ' := by
    rw [List.eq_replicate_iff]
    refine ⟨by simp, ?_⟩
    intro c hc
    have := (List.all_eq_true.mp (List.all_takeWhile (p := fun c => decide (c = ' ')) (l := s.reverse))) c
      (List.mem_reverse.mp hc)
    simpa using this
  rw [h4] at h3
  exact h3

/-- what the scan sees: the text of the field that counts -/
theorem cppScan_core {acc : Bool} {f : Str} (hws : ∀ c ∈ f, isWs c = true → c = ' ') (hin : ' ' ∉ coreText acc f) :
    cppScan acc false false (cutBlanks f) [] = cppScan acc false false (coreText acc f) [] := by
  cases acc with
  | true =>
    unfold coreText
    rw [if_pos rfl, cppScan_filter]
    congr 1
    obtain ⟨m, hm⟩ := cutBlanks_decomp f
    conv_rhs => rw [hm]
    rw [List.filter_append]
    simp
  | false =>
    unfold coreText at hin ⊢
    rw [if_neg (by simp)] at hin ⊢
    obtain ⟨p, q, h1, h2, h3⟩ := strip_decomp f
    have rep : ∀ l : Str, (∀ c ∈ l, c ∈ f) → (∀ c ∈ l, isWs c = true) → l = List.replicate l.length ' ' := by
      intro l hl hl'
      rw [List.eq_replicate_iff]
      exact ⟨rfl, fun c hc => hws c (hl c hc) (hl' c hc)⟩
    have hp := rep p (fun c hc => by rw [h1]; simp [hc]) h2
    have hq := rep q (fun c hc => by rw [h1]; simp [hc]) h3
    by_cases hs : strip f = []
    · have : cutBlanks f = [] := by
        rw [h1, hs, hp, hq]
        unfold cutBlanks
        rw [List.append_nil, List.replicate_append_replicate]
        simp
      rw [this, hs]
    · have : cutBlanks f = p ++ strip f := by
        rw [h1]
        unfold cutBlanks
        conv_lhs => rw [hq]
        rw [List.reverse_append, List.reverse_replicate, List.dropWhile_append_of_pos (by simp), List.reverse_append]
        have hne : (strip f).reverse ≠ [] := by simpa using hs
        obtain ⟨x, r, hr⟩ := List.exists_cons_of_ne_nil hne
        have hx : x ≠ ' ' := by
          rintro rfl
          exact hin (List.mem_reverse.mp (by rw [hr]; simp))
        rw [← h1]
        rw [hr, List.cons_append, List.dropWhile_cons, if_neg (by simpa using hx), ← List.cons_append, ← hr, List.reverse_append]
        simp
      rw [this, hp, cppScan_lead]

/-- **C66** (partial) On every field of eleven columns the Python float reader accepts, the C++ reader gives the same
number, for both settings of `accept_spaces`; in particular both read a blank field as zero.
Missing: fields with underscores between digits or with other white space than blanks; see `C66_underscore_fails` and
`C66_tab_fails`. -/
theorem C66_partial (acc pres : Bool) (f : Str) (hf : f.length = 11) (hws : ∀ c ∈ f, isWs c = true → c = ' ')
    (hu : '_' ∉ f) (x : Num) (h : fortstr2float (some 11) acc pres f = .ok x) : endfstr2float acc f = some x.val := by
  by_cases hne : strip f = []
  · have hx : x.val = 0 := by
      have hcut : cutWidth (some 11) f = f := List.take_of_length_le (by omega)
      unfold fortstr2float at h
      rw [hcut, if_pos hne] at h
      cases h; rfl
    have hc : cutBlanks f = [] := by
      obtain ⟨p, q, h1, h2, h3⟩ := strip_decomp f
      have hall : f = List.replicate f.length ' ' := by
        rw [List.eq_replicate_iff]
        refine ⟨rfl, fun c hc => hws c hc ?_⟩
        rw [h1, hne, List.append_nil] at hc
        rcases List.mem_append.mp hc with h | h
        · exact h2 c h
        · exact h3 c h
      rw [hall]
      unfold cutBlanks
      simp
    unfold endfstr2float cppBuffer
    rw [hc, hx]
    rfl
  · obtain ⟨t, e, t1, t2, t3, t4⟩ := fortstr2float_inv (fun n hn => by cases hn; omega) hws hu hne h
    have key : ∃ e', (e' = 'e' ∨ e' = 'E') ∧ cppScan acc false false (cutBlanks f) [] = { buf := t.withE e' } := by
      rcases t4 with h1 | ⟨h1, _, sg, d, h3, h4⟩
      · refine ⟨e, t2, ?_⟩
        rw [cppScan_core hws, h1, cppScan_withE t1 t2]
        rw [h1]
        intro hc
        exact absurd (NumText.noWs t1 t2 _ hc) (by decide)
      · refine ⟨'e', .inl rfl, ?_⟩
        rw [cppScan_core hws, h1, cppScan_noE t1 h3 h4]
        rw [h1]
        intro hc
        exact absurd (NumText.noE_noWs t1 _ hc) (by decide)
    obtain ⟨e', he', hk⟩ := key
    have hne2 : t.withE e' ≠ [] := by
      unfold NumText.withE
      intro hc
      exact NumText.mant_ne_nil t1 (List.append_eq_nil_iff.mp hc).1
    have hcut : cutBlanks f ≠ [] := by
      intro hc
      rw [hc] at hk
      simp only [cppScan, CBuf.mk.injEq, true_and] at hk
      exact hne2 hk.symm
    have hst : stod (t.withE e') = some (NumText.dec t) :=
      stod_of_pyFloat (NumText.noWs t1 he') (NumText.noUnd t1 he') (pyFloat_core t1 he' (strip_noWs (NumText.noWs t1 he')))
    unfold endfstr2float cppBuffer
    rw [if_neg hcut, hk]
    simp only [Bool.false_eq_true, if_false, if_neg hne2, List.dropLast_concat, hst, Option.map_some]
    rw [NumText.dec_toRat, t3]

/-- **C66** Python allows underscores between digits; `std::stod` stops at them. -/
theorem C66_underscore_fails : (fortstr2float (some 11) true false "       1_0.".toList).map Num.val = .ok 10 ∧
    endfstr2float true "       1_0.".toList = some 1 := by decide +kernel

/-- **C66** A field of tabs is blank in Python and an error in C++. -/
theorem C66_tab_fails : (fortstr2float (some 11) true false (List.replicate 11 '\t')).map Num.val = .ok 0 ∧
    endfstr2float true (List.replicate 11 '\t') = none := by decide +kernel

/-- the C++ reader accepts more: an exponent behind the decimal point without `E` -/
theorem C66_more : fortstr2float (some 11) true false "       1.+3".toList = .error .invalidFloat ∧
    endfstr2float true "       1.+3".toList = some 1000 := by decide +kernel

/-- fields meeting the assumptions of `C66_partial` -/
example : (fortstr2float (some 11) true false " 1.23 45- 2".toList).map Num.val = .ok (2469 / 200000) ∧
    endfstr2float true " 1.23 45- 2".toList = some (2469 / 200000) ∧
    (fortstr2float (some 11) false true "  -1.5E+03 ".toList).map Num.val = .ok (-1500) ∧
    endfstr2float false "  -1.5E+03 ".toList = some (-1500) ∧
    endfstr2float false "  1.5 +03  ".toList = none := by decide +kernel

/-! ## C67 line numbers -/

/-- a line of MAT 125, MF 3, MT 102 -/
def exNum (t : String) : Str := ljust t.toList 66 ++ " 125 3102".toList

/-- the five columns of the line number -/
def numCols (l : Str) : Str := (l.drop 75).take 5

theorem natStr_len5 {n : Nat} (h : n ≤ 99999) : (natStr n).length ≤ 5 := by
  rw [natStr_length_le 4 n]; omega

theorem intStr_nat (n : Nat) : intStr (n : Int) = natStr n := by
  rw [intStr_eq]
  simp

theorem take_intField {s : Str} {start len : Nat} {v : Int} (hs : start ≤ s.length) :
    (cppIntField s start len v).take start = s.take start := by
  unfold cppIntField
  rw [List.append_assoc, List.take_append_of_le_length (by simp [hs]), List.take_take, Nat.min_self]

theorem numCols_intField {s : Str} {v : Nat} (hs : 75 ≤ s.length) (hv : v ≤ 99999) :
    numCols (cppIntField s 75 5 v) = rjust (natStr v) 5 := by
  unfold numCols cppIntField
  rw [intStr_nat]
  have h1 : (s.take 75).length = 75 := by rw [List.length_take]; omega
  rw [List.append_assoc, List.drop_append_of_le_length (by omega), List.drop_of_length_le (by omega), List.nil_append]
  have h2 : (rjust (natStr v) 5).length = 5 := rjust_length_le (natStr_len5 hv)
  rw [List.take_append_of_le_length (by omega), List.take_of_length_le (by omega)]

theorem intField_length {s : Str} {start len : Nat} {v : Int} (hs : start + len ≤ s.length) (hv : (intStr v).length ≤ len) :
    (cppIntField s start len v).length = s.length := by
  unfold cppIntField
  rw [List.length_append, List.length_append, rjust_length_le hv, List.length_take, List.length_drop]
  omega

theorem prepareLine_num {c : Ctrl} (hc : FitsCtrl c.mat c.mf c.mt) (k : Nat) :
    numCols (cppPrepareLine true c (k : Int)).1 = rjust (natStr (k % 99999 + 1)) 5 := by
  have hm : (Int.tmod (k : Int) 99999 + 1) = ((k % 99999 + 1 : Nat) : Int) := by
    have : Int.tmod (k : Int) ((99999 : Nat) : Int) = ((k % 99999 : Nat) : Int) := rfl
    push_cast
    exact congrArg (· + 1) this
  have hb : k % 99999 + 1 ≤ 99999 := by
    have := Nat.mod_lt k (show 0 < 99999 by decide)
    omega
  simp only [cppPrepareLine, if_true]
  rw [hm]
  generalize k % 99999 + 1 = v at hb
  apply numCols_intField _ hb
  have e1 : (List.replicate 80 ' ').length = 80 := by simp
  generalize List.replicate 80 ' ' = l at e1
  have f1 : (intStr c.mat).length ≤ 4 := by
    rw [C02_fits_iff c.mat 2]
    have := hc.1; norm_num; omega
  have f2 : (intStr c.mf).length ≤ 2 := by
    rw [C02_fits_iff c.mf 0]
    have := hc.2.1; norm_num; omega
  have f3 : (intStr c.mt).length ≤ 3 := by
    rw [C02_fits_iff c.mt 1]
    have := hc.2.2; norm_num; omega
  have g1 : (cppIntField l 66 4 c.mat).length = 80 := by rw [intField_length (by omega) f1, e1]
  have g2 : (cppIntField (cppIntField l 66 4 c.mat) 70 2 c.mf).length = 80 := by rw [intField_length (by omega) f2, g1]
  rw [intField_length (by omega) f3, g2]
  omega

theorem prepare_num {c : Ctrl} (hc : FitsCtrl c.mat c.mf c.mt) (n : Nat) : ∀ (k : Nat),
    (cppPrepare true c n (k : Int)).map numCols = (List.range n).map fun i => rjust (natStr ((k + i) % 99999 + 1)) 5 := by
  induction n with
  | zero => intro k; rfl
  | succ n ih =>
    intro k
    have h1 : (cppPrepareLine true c (k : Int)).2 = ((k + 1 : Nat) : Int) := rfl
    have h2 : cppPrepare true c (n + 1) (k : Int) =
        (cppPrepareLine true c (k : Int)).1 :: cppPrepare true c n ((k + 1 : Nat) : Int) := rfl
    have h3 : ∀ i, k + 1 + i = k + (i + 1) := by omega
    rw [h2, List.map_cons, prepareLine_num hc, ih (k + 1), List.range_succ_eq_map, List.map_cons, List.map_map]
    simp only [h3, Nat.add_zero, Function.comp_def, Nat.succ_eq_add_one]

/-- the numbers the Python writer gives -/
theorem python_num {c : Ctrl} {o : WOpts} (ho : o.width = 11) (hnum : o.includeLinenum = true) {lines out : List Str}
    (hl : ∀ l ∈ lines, 75 ≤ l.length) (hctrl : ∀ l ∈ lines, readCtrl 11 l = .ok c)
    (hout : addLinenumbers o lines = .ok out) :
    out = lines.mapIdx fun i l => l.take 75 ++ rjust (natStr (i % 99999 + if c.mf ≠ 0 then 1 else 0)) 5 := by
  unfold addLinenumbers at hout
  cases lines with
  | nil =>
    simp only [lineAt, List.getElem?_nil] at hout
    cases hout
  | cons l0 ls =>
    have h0 : lineAt (l0 :: ls) 0 = .ok l0 := rfl
    rw [ho] at hout
    simp only [h0, hctrl l0 List.mem_cons_self, hnum, bind, Except.bind, Bool.not_true, Bool.false_eq_true, if_false,
      pure, Except.pure, Except.ok.injEq] at hout
    rw [← hout]
    have e5 : 10 ^ 5 - 1 = 99999 := by norm_num
    have e75 : 11 * 6 + 9 = 75 := by norm_num
    rw [e5, e75]
    apply List.ext_getElem
    · simp
    · intro i h1 h2
      simp only [List.getElem_mapIdx, List.getElem_map]

theorem numCols_append {l : Str} {v : Nat} (hl : 75 ≤ l.length) (hv : v ≤ 99999) :
    numCols (l.take 75 ++ rjust (natStr v) 5) = rjust (natStr v) 5 := by
  unfold numCols
  have e1 : (l.take 75).length = 75 := by rw [List.length_take]; omega
  rw [List.drop_append_of_le_length (by omega), List.drop_of_length_le (by omega), List.nil_append,
    List.take_of_length_le (by rw [rjust_length_le (natStr_len5 hv)])]

/-- **C67** A section with MF ≠ 0 and any number of lines that is written with a recipe: the lines get the same line
numbers from the C++ writer as from the Python writer. -/
theorem C67_recipe (c : Ctrl) (hc : FitsCtrl c.mat c.mf c.mt) (hmf : c.mf ≠ 0) (o : WOpts) (ho : o.width = 11)
    (hnum : o.includeLinenum = true) (lines out : List Str) (hl : ∀ l ∈ lines, 75 ≤ l.length)
    (hctrl : ∀ l ∈ lines, readCtrl 11 l = .ok c) (hout : addLinenumbers o lines = .ok out) :
    (cppPrepare true c lines.length (cppFirst c.mf c.mt)).map numCols = out.map numCols := by
  have hfirst : cppFirst c.mf c.mt = ((0 : Nat) : Int) := by
    unfold cppFirst
    rw [if_neg (fun h => hmf h.1)]
    rfl
  rw [hfirst, prepare_num hc, python_num ho hnum hl hctrl hout]
  apply List.ext_getElem
  · simp
  · intro i h1 h2
    have hi : i < lines.length := by simpa using h2
    have hb : i % 99999 + 1 ≤ 99999 := by
      have := Nat.mod_lt i (show 0 < 99999 by decide)
      omega
    simp only [List.getElem_map, List.getElem_range, List.getElem_mapIdx, if_pos hmf, Nat.zero_add]
    rw [numCols_append (hl _ (List.getElem_mem hi)) hb]

theorem cppVerbLine_num {l : Str} (hl : 75 ≤ l.length) (v : Nat) :
    cppVerbLine true l v = some (l.take 75 ++ rjust (natStr v) 5) := by
  unfold cppVerbLine cppIntField resize
  rw [if_pos rfl, intStr_nat]
  have e1 : (l.take 80 ++ List.replicate (80 - l.length) (Char.ofNat 0)).length = 80 := by
    rw [List.length_append, List.length_take, List.length_replicate]; omega
  rw [List.drop_of_length_le (by omega), List.append_nil, List.take_append_of_le_length (by rw [List.length_take]; omega),
    List.take_take]
  rfl

theorem cppVerbLines_num {ls : List Str} (hl : ∀ l ∈ ls, 75 ≤ l.length) : ∀ k : Nat, k + ls.length ≤ 100000 →
    cppVerbLines true ls k = some (ls.mapIdx fun i l => l.take 75 ++ rjust (natStr (k + i)) 5) := by
  induction ls with
  | nil => intro k _; rfl
  | cons l ls ih =>
    intro k hk
    rw [List.length_cons] at hk
    have h1 := cppVerbLine_num (hl l List.mem_cons_self) k
    have h2 := ih (fun x hx => hl x (List.mem_cons_of_mem _ hx)) (k + 1) (by omega)
    have h3 : ((k : Int) + 1) = ((k + 1 : Nat) : Int) := by push_cast; rfl
    simp only [cppVerbLines, h1, h3, h2, List.mapIdx_cons]
    have h4 : ∀ i, k + 1 + i = k + (i + 1) := by omega
    simp only [h4, Nat.add_zero]
    rfl

/-- **C67** (partial) Sections that are not parsed, of at most 99999 lines: the C++ writer gives the same lines as the
Python writer.  Missing: longer sections; see `C67_verbatim_fails`. -/
theorem C67_verbatim_partial (c : Ctrl) (o : WOpts) (ho : o.width = 11) (hnum : o.includeLinenum = true)
    (lines out : List Str) (hl : ∀ l ∈ lines, 75 ≤ l.length) (hctrl : ∀ l ∈ lines, readCtrl 11 l = .ok c)
    (hn : lines.length ≤ 99999) (hout : addLinenumbers o lines = .ok out) : cppVerbatim true c.mf lines = some out := by
  rw [python_num ho hnum hl hctrl hout]
  unfold cppVerbatim
  have h1 : (if c.mf ≠ 0 then 1 else 0 : Int) = (((if c.mf ≠ 0 then 1 else 0 : Nat)) : Int) := by split <;> rfl
  rw [h1, cppVerbLines_num hl _ (by split <;> omega)]
  congr 1
  apply List.ext_getElem
  · simp
  · intro i a b
    have hi : i < lines.length := by simpa using a
    simp only [List.getElem_mapIdx]
    rw [Nat.mod_eq_of_lt (by omega), Nat.add_comm]

/-- **C67** Longer sections that are not parsed: line 100000 gets the number 100000 from the C++ writer, which also makes
the line longer by one column, and the number 1 from the Python writer. -/
theorem C67_verbatim_fails (c : Ctrl) (hmf : c.mf ≠ 0) (o : WOpts) (ho : o.width = 11) (hnum : o.includeLinenum = true)
    (lines out : List Str) (hl : ∀ l ∈ lines, 75 ≤ l.length) (hctrl : ∀ l ∈ lines, readCtrl 11 l = .ok c)
    (hn : 100000 ≤ lines.length) (hout : addLinenumbers o lines = .ok out) :
    ∃ out', cppVerbatim true c.mf lines = some out' ∧ (out[99999]?).map List.length = some 80 ∧
      (out'[99999]?).map List.length = some 81 := by
  have hgen : ∀ (ls : List Str) (k : Int), (∀ l ∈ ls, 75 ≤ l.length) → ∃ out', cppVerbLines true ls k = some out' ∧
      out'.length = ls.length ∧ ∀ i (h : i < ls.length), out'[i]? = some ((ls[i].take 75) ++ rjust (intStr (k + i)) 5) := by
    intro ls
    induction ls with
    | nil => intro k _; exact ⟨[], rfl, rfl, fun i h => by simp at h⟩
    | cons l ls ih =>
      intro k h
      obtain ⟨o1, a1, a2, a3⟩ := ih (k + 1) (fun x hx => h x (List.mem_cons_of_mem _ hx))
      have hl1 := h l List.mem_cons_self
      have h1 : cppVerbLine true l k = some (l.take 75 ++ rjust (intStr k) 5) := by
        unfold cppVerbLine cppIntField resize
        rw [if_pos rfl]
        have e1 : (l.take 80 ++ List.replicate (80 - l.length) (Char.ofNat 0)).length = 80 := by
          rw [List.length_append, List.length_take, List.length_replicate]; omega
        rw [List.drop_of_length_le (by omega), List.append_nil,
          List.take_append_of_le_length (by rw [List.length_take]; omega), List.take_take]
        rfl
      refine ⟨(l.take 75 ++ rjust (intStr k) 5) :: o1, ?_, by simp [a2], ?_⟩
      · simp only [cppVerbLines, h1, a1]
        rfl
      · intro i hi
        cases i with
        | zero => simp
        | succ i =>
          have := a3 i (by simpa using hi)
          rw [List.getElem?_cons_succ, this]
          simp only [List.getElem_cons_succ]
          rw [show k + 1 + (i : Int) = k + ((i + 1 : Nat) : Int) by push_cast; ring]
  obtain ⟨out', b1, b2, b3⟩ := hgen lines 1 hl
  refine ⟨out', by unfold cppVerbatim; rw [if_pos hmf]; exact b1, ?_, ?_⟩
  · rw [python_num ho hnum hl hctrl hout, List.getElem?_mapIdx, List.getElem?_eq_getElem (by omega)]
    simp only [Option.map_some, Option.some.injEq, List.length_append, if_pos hmf]
    have := hl _ (List.getElem_mem (show 99999 < lines.length by omega))
    rw [List.length_take, rjust_length_le (natStr_len5 (by norm_num))]
    omega
  · rw [b3 99999 (by omega)]
    have := hl _ (List.getElem_mem (show 99999 < lines.length by omega))
    simp only [Option.map_some, Option.some.injEq, List.length_append]
    rw [List.length_take]
    have h6 : (rjust (intStr (1 + ((99999 : Nat) : Int))) 5).length = 6 := by decide +kernel
    omega

/-- lines meeting the assumptions -/
example : (cppVerbatim true 3 [exNum "a", exNum "b"]) = (addLinenumbers { includeLinenum := true } [exNum "a", exNum "b"]).toOption
    ∧ readCtrl 11 (exNum "a") = .ok ⟨125, 3, 102⟩ ∧ (exNum "a").length = 75 := by decide +kernel

end Verif
