import Verif.Spec.NumText
import Verif.Lemmas.Digits
import Mathlib.Tactic.FieldSimp
import Mathlib.Tactic.Positivity
/- Helper lemmas: reading decimal number texts. -/
namespace Verif
open Spec

theorem takeWhile_dig {s r : Str} (h : AllDig s) (hr : ∀ c, r.head? = some c → isDig c = false) :
    (s ++ r).takeWhile isDig = s := by
  induction s with
  | nil =>
    cases r with
    | nil => rfl
    | cons c r => simp [hr c rfl]
  | cons c s ih =>
    have hc : isDig c = true := h c (by simp)
    simp [hc, ih (fun d hd => h d (by simp [hd]))]

theorem dropWhile_dig {s r : Str} (h : AllDig s) (hr : ∀ c, r.head? = some c → isDig c = false) :
    (s ++ r).dropWhile isDig = r := by
  induction s with
  | nil =>
    cases r with
    | nil => rfl
    | cons c r => simp [hr c rfl]
  | cons c s ih =>
    have hc : isDig c = true := h c (by simp)
    simp [hc, ih (fun d hd => h d (by simp [hd]))]

theorem AllDig.noUnderscore {s : Str} (h : AllDig s) : '_' ∉ s := not_mem_of_dig h (by decide)

theorem Sgn.text_no {s : Sgn} {c : Char} (h : c ∈ s.text) : c = '+' ∨ c = '-' := by
  cases s <;> simp [Sgn.text] at h <;> simp [h]

/-- decimal value of a number text as the model represents it -/
def NumText.dec (t : NumText) : Dec :=
  ⟨applySign (t.sgn == .minus) (digitsVal (t.ip ++ t.fp.getD [])), t.expo - t.scale⟩

theorem NumText.dec_toRat (t : NumText) : (NumText.dec t).toRat = t.value := by
  unfold NumText.dec Dec.toRat NumText.value applySign
  cases h : t.sgn <;> simp [Sgn.apply]

theorem parseExp_ok {t : NumText} (h : t.WF) {e : Char} (he : e = 'e' ∨ e = 'E') :
    parseExp (t.expE e) = some t.expo := by
  unfold NumText.expo NumText.expE
  cases hx : t.ex with
  | none => simp [parseExp]
  | some p =>
    obtain ⟨s, d⟩ := p
    obtain ⟨hd, hn⟩ := h.ex_dig s d hx
    simp only [parseExp, he, if_true]
    cases s with
    | none => simp [Sgn.text, splitSign_dig hd, parseNat_of_dig hd hn, applySign]
    | plus => simp [Sgn.text, splitSign, parseNat_of_dig hd hn, applySign]
    | minus => simp [Sgn.text, splitSign, parseNat_of_dig hd hn, applySign]

theorem NumText.chars {t : NumText} (h : t.WF) {e : Char} (c : Char) (hc : c ∈ t.withE e) :
    isDig c = true ∨ c = '+' ∨ c = '-' ∨ c = '.' ∨ c = e := by
  unfold NumText.withE NumText.mant NumText.frac NumText.expE at hc
  simp only [List.mem_append] at hc
  rcases hc with ((hc | hc) | hc) | hc
  · rcases Sgn.text_no hc with h | h <;> simp [h]
  · left; exact h.ip_dig c hc
  · cases hf : t.fp with
    | none => simp [hf] at hc
    | some f =>
      simp [hf] at hc
      rcases hc with hc | hc
      · simp [hc]
      · left; exact h.fp_dig f hf c hc
  · cases hx : t.ex with
    | none => simp [hx] at hc
    | some p =>
      obtain ⟨s, d⟩ := p
      simp [hx] at hc
      rcases hc with hc | hc | hc
      · simp [hc]
      · rcases Sgn.text_no hc with h | h <;> simp [h]
      · left; exact (h.ex_dig s d hx).1 c hc

theorem NumText.noWs {t : NumText} (h : t.WF) {e : Char} (he : e = 'e' ∨ e = 'E') :
    NoWs (t.withE e) := by
  intro c hc
  rcases NumText.chars h c hc with h | h | h | h | h
  · exact isDig_not_ws h
  all_goals subst h
  · decide
  · decide
  · decide
  · rcases he with h | h <;> subst h <;> decide

theorem NumText.noUnd {t : NumText} (h : t.WF) {e : Char} (he : e = 'e' ∨ e = 'E') :
    '_' ∉ t.withE e := by
  intro hc
  rcases NumText.chars h _ hc with h | h | h | h | h
  · revert h; decide
  · revert h; decide
  · revert h; decide
  · revert h; decide
  · rcases he with h' | h' <;> subst h' <;> revert h <;> decide

/-- the tail after the mantissa never starts with a digit -/
theorem expTail_head {t : NumText} {e : Char} (he : e = 'e' ∨ e = 'E') :
    ∀ c, (t.expE e).head? = some c →
      isDig c = false := by
  intro c hc
  unfold NumText.expE at hc
  cases hx : t.ex with
  | none => simp [hx] at hc
  | some p =>
    simp [hx] at hc
    subst hc
    rcases he with h | h <;> subst h <;> decide

theorem splitSign_unsigned {s : Str} (h1 : s.head? ≠ some '+') (h2 : s.head? ≠ some '-') :
    splitSign s = (false, s) := by
  unfold splitSign
  split
  · simp at h1
  · simp at h2
  · rfl

/-- core of the number reader on a stripped text -/
theorem pyFloat_core {t : NumText} (h : t.WF) {e : Char} (he : e = 'e' ∨ e = 'E') {s : Str}
    (hs : strip s = t.withE e) : pyFloat s = some (NumText.dec t) := by
  unfold pyFloat
  rw [hs, deUnderscore_id _ (NumText.noUnd h he)]
  have hsplit : splitSign (t.withE e) = (t.sgn == .minus,
      t.ip ++ (t.frac ++
        (t.expE e))) := by
    unfold NumText.withE NumText.mant
    cases hsg : t.sgn with
    | plus => simp [Sgn.text, splitSign]
    | minus => simp [Sgn.text, splitSign]
    | none =>
      simp only [Sgn.text, List.nil_append, List.append_assoc]
      have key : ∀ x, (x = '+' ∨ x = '-') →
        (t.ip ++ (t.frac ++
        (t.expE e))).head? ≠ some x := by
        intro x hx hh
        cases hip : t.ip with
        | cons c cs =>
          rw [hip] at hh; simp at hh; subst hh
          have := h.ip_dig c (by simp [hip])
          rcases hx with h | h <;> subst h <;> revert this <;> decide
        | nil =>
          rw [hip] at hh
          cases hfp : t.fp with
          | some f =>
            simp [NumText.frac, hfp] at hh; subst hh; revert hx; decide
          | none =>
            have := h.nonempty
            simp [hip, hfp] at this
      rw [splitSign_unsigned (key _ (.inl rfl)) (key _ (.inr rfl))]
      rfl
  simp only [Option.bind_eq_bind, Option.bind_some, hsplit]
  have hhead1 : ∀ c, (t.frac ++
        (t.expE e)).head? = some c →
        isDig c = false := by
    intro c hc
    cases hfp : t.fp with
    | none => exact expTail_head (t := t) he c (by simpa [NumText.frac, hfp] using hc)
    | some f => simp [NumText.frac, hfp] at hc; subst hc; decide
  rw [takeWhile_dig h.ip_dig hhead1, dropWhile_dig h.ip_dig hhead1]
  have hpe := parseExp_ok h he
  cases hfp : t.fp with
  | some f =>
    simp only [NumText.frac, hfp, List.cons_append]
    rw [takeWhile_dig (h.fp_dig f hfp) (expTail_head he), dropWhile_dig (h.fp_dig f hfp) (expTail_head he)]
    have hne : ¬ (t.ip = [] ∧ f = []) := by
      rintro ⟨h1, h2⟩
      have := h.nonempty
      simp [h1, hfp, h2] at this
    rw [if_neg hne, hpe]
    simp [NumText.dec, hfp, NumText.scale]
  | none =>
    have hne : t.ip ≠ [] := by
      intro h1
      have := h.nonempty
      simp [h1, hfp] at this
    simp only [NumText.frac, hfp, List.nil_append]
    split
    · rename_i r' heq
      exfalso
      cases hx : t.ex with
      | none => simp [NumText.expE, hx] at heq
      | some p =>
        simp [NumText.expE, hx] at heq
        rcases he with h | h <;> subst h <;> simp at heq
    · rw [if_neg hne, hpe]
      simp [NumText.dec, hfp, NumText.scale]

/-! ### the scan that inserts `E` -/

/-- the text ends with a digit -/
def lastDig (s : Str) : Bool := (s.getLast?).any isDig

/-- scanning `r` behind the unmodified prefix `pre` -/
def scanFrom (pre r : Str) : Str := scanE pre.length r (pre ++ r)

theorem scanFrom_cons (pre : Str) (c : Char) (r : Str) :
    scanFrom pre (c :: r) =
      if isSign c = true ∧ lastDig pre = true then scanE (pre.length + 1) r (pre ++ 'E' :: c :: r)
      else scanFrom (pre ++ [c]) r := by
  unfold scanFrom
  rw [scanE]
  have hiff : (0 < pre.length ∧ isSign c = true ∧ ((pre ++ c :: r)[pre.length - 1]?).any isDig = true)
      ↔ (isSign c = true ∧ lastDig pre = true) := by
    unfold lastDig
    cases hp : pre with
    | nil => simp
    | cons x xs =>
      have : (x :: xs ++ c :: r)[(x :: xs).length - 1]? = (x :: xs).getLast? := by
        rw [List.getElem?_append_left (by simp), List.getLast?_eq_getElem?]
      rw [this]
      simp
  simp only [hiff]
  split
  · simp
  · simp

theorem scanFrom_pass {a : Str} (h : ∀ c ∈ a, isSign c = false) (pre r : Str) :
    scanFrom pre (a ++ r) = scanFrom (pre ++ a) r := by
  induction a generalizing pre with
  | nil => simp
  | cons c a ih =>
    have hc : isSign c = false := h c (by simp)
    rw [List.cons_append, scanFrom_cons, if_neg (by simp [hc]), ih (fun d hd => h d (by simp [hd]))]
    simp

theorem scanFrom_skip {pre : Str} (h : lastDig pre = false) (c : Char) (r : Str) :
    scanFrom pre (c :: r) = scanFrom (pre ++ [c]) r := by
  rw [scanFrom_cons, if_neg (by simp [h])]

theorem scanE_noSign {rest : Str} (h : ∀ c ∈ rest, isSign c = false) (i : Nat) (cur : Str) :
    scanE i rest cur = cur := by
  induction rest generalizing i cur with
  | nil => rfl
  | cons c rest ih =>
    have hc : isSign c = false := h c (by simp)
    simp [scanE, hc, ih (fun d hd => h d (by simp [hd]))]

theorem scanFrom_insert {pre : Str} (h : lastDig pre = true) {c : Char} (hc : isSign c = true)
    {r : Str} (hr : ∀ c ∈ r, isSign c = false) :
    scanFrom pre (c :: r) = pre ++ 'E' :: c :: r := by
  rw [scanFrom_cons, if_pos ⟨hc, h⟩, scanE_noSign hr]

theorem scanFrom_end {pre r : Str} (hr : ∀ c ∈ r, isSign c = false) : scanFrom pre r = pre ++ r := by
  unfold scanFrom; rw [scanE_noSign hr]

theorem isSign_dig {c : Char} (h : isDig c = true) : isSign c = false := by
  unfold isSign
  have h1 : c ≠ '+' := isDig_ne h (by decide)
  have h2 : c ≠ '-' := isDig_ne h (by decide)
  simp [h1, h2]

theorem AllDig.noSign {s : Str} (h : AllDig s) : ∀ c ∈ s, isSign c = false :=
  fun c hc => isSign_dig (h c hc)

theorem replicate_noSign (k : Nat) : ∀ c ∈ List.replicate k ' ', isSign c = false := by
  intro c hc; rw [List.eq_of_mem_replicate hc]; decide

theorem lastDig_replicate (k : Nat) : lastDig (List.replicate k ' ') = false := by
  unfold lastDig
  cases k with
  | zero => rfl
  | succ k => simp [List.getLast?_replicate, isDig]

theorem NumText.frac_noSign {t : NumText} (h : t.WF) : ∀ c ∈ t.frac, isSign c = false := by
  intro c hc
  unfold NumText.frac at hc
  cases hf : t.fp with
  | none => simp [hf] at hc
  | some f =>
    simp [hf] at hc
    rcases hc with rfl | hc
    · decide
    · exact isSign_dig (h.fp_dig f hf c hc)

/-- scanning over leading blanks and the mantissa inserts nothing -/
theorem scan_mant {t : NumText} (h : t.WF) (k : Nat) (r : Str) :
    scanFrom [] (List.replicate k ' ' ++ (t.mant ++ r)) = scanFrom (List.replicate k ' ' ++ t.mant) r := by
  rw [scanFrom_pass (replicate_noSign k)]
  unfold NumText.mant
  simp only [List.nil_append, List.append_assoc]
  have key : scanFrom (List.replicate k ' ') (t.sgn.text ++ (t.ip ++ (t.frac ++ r))) =
      scanFrom (List.replicate k ' ' ++ t.sgn.text) (t.ip ++ (t.frac ++ r)) := by
    cases hs : t.sgn with
    | none => simp [Sgn.text]
    | plus => simp only [Sgn.text, List.cons_append, List.nil_append]; rw [scanFrom_skip (lastDig_replicate k)]
    | minus => simp only [Sgn.text, List.cons_append, List.nil_append]; rw [scanFrom_skip (lastDig_replicate k)]
  rw [key, scanFrom_pass (AllDig.noSign h.ip_dig), scanFrom_pass (NumText.frac_noSign h)]
  simp [List.append_assoc]

theorem lastDig_append_ne {a b : Str} (hb : b ≠ []) : lastDig (a ++ b) = lastDig b := by
  unfold lastDig
  rw [List.getLast?_append]
  cases h : b.getLast? with
  | none => simp at h; exact absurd h hb
  | some x => simp

theorem lastDig_dig {s : Str} (h : AllDig s) (hn : s ≠ []) : lastDig s = true := by
  unfold lastDig
  rw [List.getLast?_eq_getLast_of_ne_nil hn]
  simpa using h _ (List.getLast_mem hn)

theorem NumText.lastDig_mant {t : NumText} (h : t.WF) (he : t.endsInDigit) (k : Nat) :
    lastDig (List.replicate k ' ' ++ t.mant) = true := by
  unfold NumText.mant NumText.frac
  cases hf : t.fp with
  | none =>
    have hne : t.ip ≠ [] := by
      have := h.nonempty
      simpa [hf] using this
    simp only [List.append_nil, ← List.append_assoc]
    rw [lastDig_append_ne hne, lastDig_dig h.ip_dig hne]
  | some f =>
    have hne : f ≠ [] := by
      intro e; subst e; exact he hf
    simp only [← List.append_assoc]
    rw [lastDig_append_ne (by simp), show ('.' :: f) = ['.'] ++ f from rfl, lastDig_append_ne hne,
      lastDig_dig (h.fp_dig f hf) hne]

theorem scanFrom_nil (s : Str) : scanE 0 s s = scanFrom [] s := by simp [scanFrom]

/-- tail behind a number without sign characters -/
theorem scan_noE {t : NumText} (h : t.WF) (he : t.endsInDigit) {sg : Sgn} {d : Str}
    (hex : t.ex = some (sg, d)) (hsg : sg ≠ .none) (k m : Nat) :
    scanE 0 (List.replicate k ' ' ++ t.noE ++ List.replicate m ' ')
      (List.replicate k ' ' ++ t.noE ++ List.replicate m ' ')
    = List.replicate k ' ' ++ t.withE 'E' ++ List.replicate m ' ' := by
  have hd : ∀ c ∈ d ++ List.replicate m ' ', isSign c = false := by
    intro c hc
    rcases List.mem_append.1 hc with hc | hc
    · exact isSign_dig ((h.ex_dig sg d hex).1 c hc)
    · exact replicate_noSign m c hc
  have hl := NumText.lastDig_mant h he k
  rw [scanFrom_nil]
  unfold NumText.noE NumText.withE NumText.expN NumText.expE
  simp only [hex]
  simp only [List.append_assoc]
  rw [scan_mant h]
  cases sg with
  | none => exact absurd rfl hsg
  | plus =>
    simp only [Sgn.text, List.cons_append, List.nil_append]
    rw [scanFrom_insert hl (by decide) hd]
    simp [List.append_assoc]
  | minus =>
    simp only [Sgn.text, List.cons_append, List.nil_append]
    rw [scanFrom_insert hl (by decide) hd]
    simp [List.append_assoc]

theorem scan_withE {t : NumText} (h : t.WF) {e : Char} (he : e = 'e' ∨ e = 'E') (k m : Nat) :
    scanE 0 (List.replicate k ' ' ++ t.withE e ++ List.replicate m ' ')
      (List.replicate k ' ' ++ t.withE e ++ List.replicate m ' ')
    = List.replicate k ' ' ++ t.withE e ++ List.replicate m ' ' := by
  rw [scanFrom_nil]
  unfold NumText.withE NumText.expE
  simp only [List.append_assoc]
  rw [scan_mant h]
  cases hex : t.ex with
  | none =>
    simp only [List.nil_append]
    rw [scanFrom_end (replicate_noSign m)]; simp
  | some p =>
    obtain ⟨sg, d⟩ := p
    have hd : ∀ c ∈ d ++ List.replicate m ' ', isSign c = false := by
      intro c hc
      rcases List.mem_append.1 hc with hc | hc
      · exact isSign_dig ((h.ex_dig sg d hex).1 c hc)
      · exact replicate_noSign m c hc
    have hse : ∀ c ∈ [e], isSign c = false := by
      intro c hc; simp at hc; subst hc
      rcases he with h | h <;> subst h <;> decide
    simp only [List.cons_append, List.append_assoc]
    rw [show ∀ x : Str, e :: x = [e] ++ x from fun _ => rfl, scanFrom_pass hse]
    have hle : lastDig (List.replicate k ' ' ++ t.mant ++ [e]) = false := by
      rw [lastDig_append_ne (by simp)]
      rcases he with h | h <;> subst h <;> decide
    cases sg with
    | none => simp only [Sgn.text, List.nil_append]; rw [scanFrom_end hd]; simp
    | plus =>
      simp only [Sgn.text, List.cons_append, List.nil_append]
      rw [scanFrom_skip hle, scanFrom_end hd]; simp
    | minus =>
      simp only [Sgn.text, List.cons_append, List.nil_append]
      rw [scanFrom_skip hle, scanFrom_end hd]; simp

theorem filter_pad {s : Str} (h : NoWs s) (k m : Nat) :
    (List.replicate k ' ' ++ s ++ List.replicate m ' ').filter (· ≠ ' ') = s := by
  have hs : s.filter (· ≠ ' ') = s := by
    rw [List.filter_eq_self]
    intro c hc
    have := h c hc
    simp only [decide_eq_true_eq]
    intro e; subst e; rw [isWs_space] at this; cases this
  have hr : ∀ k, (List.replicate k ' ').filter (· ≠ ' ') = [] := by
    intro k
    rw [List.filter_eq_nil_iff]
    intro c hc; rw [List.eq_of_mem_replicate hc]; simp
  rw [List.filter_append, List.filter_append, hs, hr, hr]; simp

theorem NumText.mant_ne_nil {t : NumText} (h : t.WF) : t.mant ≠ [] := by
  unfold NumText.mant NumText.frac
  intro hm
  rw [List.append_eq_nil_iff, List.append_eq_nil_iff] at hm
  have := h.nonempty
  obtain ⟨⟨_, h2⟩, h3⟩ := hm
  cases hf : t.fp with
  | none => simp [h2, hf] at this
  | some f => simp [hf] at h3

theorem NumText.noE_noWs {t : NumText} (h : t.WF) : NoWs t.noE := by
  intro c hc
  apply NumText.noWs (t := t) h (e := 'E') (Or.inr rfl) c
  unfold NumText.noE NumText.expN at hc
  unfold NumText.withE NumText.expE
  cases hx : t.ex with
  | none => simpa [hx] using hc
  | some p =>
    simp [hx] at hc ⊢
    tauto

/-- the reader on blank-padded number texts, before the final conversion -/
theorem fortstr2float_pad {t : NumText} (h : t.WF) {T : Str} {e : Char} (he : e = 'e' ∨ e = 'E')
    (hT : NoWs T) (hTne : T ≠ [])
    (hscan : ∀ k m, scanE 0 (List.replicate k ' ' ++ T ++ List.replicate m ' ')
      (List.replicate k ' ' ++ T ++ List.replicate m ' ')
      = List.replicate k ' ' ++ t.withE e ++ List.replicate m ' ')
    (w : Option Nat) (a p : Bool) (k m : Nat)
    (hw : ∀ n, w = some n → k + T.length + m ≤ n) :
    fortstr2float w a p (List.replicate k ' ' ++ T ++ List.replicate m ' ') =
      .ok (if p then .endf t.value (List.replicate k ' ' ++ T ++ List.replicate m ' ')
           else .flt t.value) := by
  unfold fortstr2float
  have h1 : cutWidth w (List.replicate k ' ' ++ T ++ List.replicate m ' ') =
      List.replicate k ' ' ++ T ++ List.replicate m ' ' := by
    cases w with
    | none => rfl
    | some n =>
      have := hw n rfl
      rw [cutWidth, List.take_of_length_le]
      simp; omega
  simp only [h1]
  rw [if_neg (by rw [strip_pad hT]; exact hTne)]
  have hpf : pyFloat (scanE 0 (if a = true then (List.replicate k ' ' ++ T ++ List.replicate m ' ').filter (· ≠ ' ') else List.replicate k ' ' ++ T ++ List.replicate m ' ')
      (if a = true then (List.replicate k ' ' ++ T ++ List.replicate m ' ').filter (· ≠ ' ') else List.replicate k ' ' ++ T ++ List.replicate m ' ')) = some (NumText.dec t) := by
    apply pyFloat_core h he
    cases a with
    | true =>
      simp only [if_true]
      rw [filter_pad hT]
      have := hscan 0 0
      simp at this
      rw [this, strip_noWs (NumText.noWs h he)]
    | false =>
      simp only [Bool.false_eq_true, if_false]
      rw [hscan, strip_pad (NumText.noWs h he)]
  simp only [hpf, NumText.dec_toRat]

/-- reading a number text with exponent character or without exponent -/
theorem fortstr2float_withE {t : NumText} (h : t.WF) {e : Char} (he : e = 'e' ∨ e = 'E')
    (w : Option Nat) (a p : Bool) (k m : Nat)
    (hw : ∀ n, w = some n → k + (t.withE e).length + m ≤ n) :
    fortstr2float w a p (List.replicate k ' ' ++ t.withE e ++ List.replicate m ' ') =
      .ok (if p then .endf t.value (List.replicate k ' ' ++ t.withE e ++ List.replicate m ' ')
           else .flt t.value) :=
  fortstr2float_pad h he (NumText.noWs h he)
    (by unfold NumText.withE; simp [NumText.mant_ne_nil h]) (fun k m => scan_withE h he k m) w a p k m hw

/-- reading a Fortran style number text (no exponent character) -/
theorem fortstr2float_noE {t : NumText} (h : t.WF)
    (hex : ∀ sg d, t.ex = some (sg, d) → sg ≠ .none ∧ t.endsInDigit)
    (w : Option Nat) (a p : Bool) (k m : Nat)
    (hw : ∀ n, w = some n → k + t.noE.length + m ≤ n) :
    fortstr2float w a p (List.replicate k ' ' ++ t.noE ++ List.replicate m ' ') =
      .ok (if p then .endf t.value (List.replicate k ' ' ++ t.noE ++ List.replicate m ' ')
           else .flt t.value) := by
  apply fortstr2float_pad h (Or.inr rfl) (NumText.noE_noWs h)
    (by unfold NumText.noE; simp [NumText.mant_ne_nil h]) _ w a p k m hw
  intro k m
  cases hx : t.ex with
  | none =>
    have h1 : t.noE = t.withE 'E' := by simp [NumText.noE, NumText.withE, NumText.expN, NumText.expE, hx]
    rw [h1]; exact scan_withE h (Or.inr rfl) k m
  | some q =>
    obtain ⟨sg, d⟩ := q
    obtain ⟨h1, h2⟩ := hex sg d hx
    exact scan_noE h h2 hx h1 k m

end Verif
