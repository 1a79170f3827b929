import Verif.Model.CppLib
import Verif.Props.CppWrite
import Verif.Lemmas.Records

/-! Properties C76–C78: fields, integers and tables of the compiled parser. -/

namespace Verif
open Spec

theorem cbind_ok {α β : Type} (a : α) (f : α → CRes β) : (CRes.ok a >>= f) = f a := rfl
theorem cbind_undef {α β : Type} (f : α → CRes β) : ((CRes.undef : CRes α) >>= f) = .undef := rfl
theorem cbind_throw {α β : Type} (f : α → CRes β) : ((CRes.throw : CRes α) >>= f) = .throw := rfl

/-! ## C76 only the line itself is accessed -/

theorem cppBytes_ok {line : Str} {i n : Nat} (h : i + n ≤ line.length) : cppBytes line i n = .ok (slice line i (i + n)) := by
  unfold cppBytes slice
  rw [if_pos (by omega), List.drop_append_of_le_length (by omega), List.take_append_of_le_length (by simp; omega), List.drop_take]
  congr 2
  omega

theorem digitsVal_lt {s : Str} (h : AllDig s) : digitsVal s < 10 ^ s.length := by
  induction s using List.reverseRecOn with
  | nil => simp [digitsVal]
  | append_singleton s c ih =>
    rw [digitsVal_append, List.length_append, List.length_singleton, pow_succ]
    have h1 := ih (fun x hx => h x (by simp [hx]))
    have h2 : digVal c ≤ 9 := by
      have := h c (by simp)
      unfold isDig at this
      unfold digVal
      simp only [Bool.and_eq_true, decide_eq_true_eq] at this
      have h3 : c.toNat ≤ 57 := this.2
      omega
    omega

theorem takeWhile_len {s : Str} : (s.takeWhile isDig).length ≤ s.length := (List.takeWhile_prefix _).length_le

theorem splitSign_len (s : Str) : (splitSign s).2.length ≤ s.length := by
  unfold splitSign
  split <;> simp

/-- numbers of at most nine columns can be represented -/
theorem cppIntOf_short {b : Str} (h : b.length ≤ 9) : cppIntOf b ≠ .undef := by
  unfold cppIntOf
  split
  · simp
  · unfold atoi
    have h1 : ((splitSign (b.dropWhile cSpace)).2.takeWhile isDig).length ≤ 9 := by
      have a := takeWhile_len (s := (splitSign (b.dropWhile cSpace)).2)
      have b1 := splitSign_len (b.dropWhile cSpace)
      have c := (List.dropWhile_suffix (l := b) cSpace).length_le
      omega
    have h2 := digitsVal_lt (s := (splitSign (b.dropWhile cSpace)).2.takeWhile isDig)
      (fun c hc => List.all_eq_true.1 (List.all_takeWhile (p := isDig)) c hc)
    have h3 : (10 : Nat) ^ ((splitSign (b.dropWhile cSpace)).2.takeWhile isDig).length ≤ 10 ^ 9 := Nat.pow_le_pow_right (by norm_num) h1
    dsimp only
    generalize digitsVal ((splitSign (b.dropWhile cSpace)).2.takeWhile isDig) = d at *
    have h4 : d < 1000000000 := by
      have : (10 : Nat) ^ 9 = 1000000000 := by norm_num
      omega
    rw [if_pos]
    · simp
    · unfold applySign intMin intMax
      split <;> omega

theorem slice_len {s : Str} {i n : Nat} : (slice s i (i + n)).length ≤ n := by
  unfold slice; simp; omega

/-- **C76** (partial) In a line of at least 74 characters all fields and control numbers can be read without an access
behind the end of the line.
Missing: shorter lines; see `C76_fails`. -/
theorem C76_partial (line : Str) (h : 74 ≤ line.length) :
    (∀ acc, ∀ i < 6, cppFloat acc line i ≠ .undef) ∧ (∀ i < 6, ∃ b, b.length = 11 ∧ cppInt line i = cppIntOf b) ∧
    cppMat line ≠ .undef ∧ cppMf line ≠ .undef ∧ cppMt line ≠ .undef := by
  refine ⟨fun acc i hi => ?_, fun i hi => ?_, ?_, ?_, ?_⟩
  · unfold cppFloat
    rw [cppBytes_ok (by omega), cbind_ok]
    cases endfstr2float acc (slice line (11 * i) (11 * i + 11)) <;> simp [CRes.ofOption]
  · unfold cppInt
    rw [cppBytes_ok (by omega), cbind_ok]
    refine ⟨_, ?_, rfl⟩
    unfold slice; simp; omega
  · unfold cppMat cppCustomInt
    rw [cppBytes_ok (by omega), cbind_ok]
    exact cppIntOf_short (by have := slice_len (s := line) (i := 66) (n := 4); omega)
  · unfold cppMf cppCustomInt
    rw [cppBytes_ok (by omega), cbind_ok]
    exact cppIntOf_short (by have := slice_len (s := line) (i := 70) (n := 2); omega)
  · unfold cppMt cppCustomInt cppBytes
    rw [if_pos (by omega), cbind_ok]
    exact cppIntOf_short (by simp)

/-- **C76** Every line shorter than 74 characters is accessed behind its end: already the control numbers, which are read
from every line of a file, also from empty ones. -/
theorem C76_fails (line : Str) (h : line.length < 74) : cppMt line = .undef := by
  unfold cppMt cppCustomInt cppBytes
  rw [if_neg (by omega)]
  rfl

/-- a line meeting the assumption, and an integer that cannot be represented -/
example : 74 ≤ (ljust " 1.234567+3          0        -12".toList 66 ++ "9237 3102".toList).length ∧
    cppFloat true (ljust " 1.234567+3          0        -12".toList 66 ++ "9237 3102".toList) 0 = .ok (1234567 / 1000) ∧
    cppInt (ljust " 1.234567+3          0        -12".toList 66 ++ "9237 3102".toList) 2 = .ok (-12) ∧
    cppMat (ljust " 1.234567+3          0        -12".toList 66 ++ "9237 3102".toList) = .ok 9237 ∧
    cppIntOf "99999999999".toList = .undef := by decide +kernel

/-! ## C77 integers -/

theorem dropWhile_idem {α : Type} (p : α → Bool) (l : List α) : (l.dropWhile p).dropWhile p = l.dropWhile p := by
  induction l with
  | nil => rfl
  | cons a l ih =>
    rw [List.dropWhile_cons]
    split
    · exact ih
    · rename_i h; rw [List.dropWhile_cons, if_neg h]

theorem rstrip_head {a : Char} (ha : isWs a = false) (l : Str) : ∃ r, rstrip (a :: l) = a :: r := by
  unfold rstrip
  rw [List.reverse_cons]
  generalize l.reverse = x
  induction x with
  | nil => exact ⟨[], by simp [List.dropWhile, ha]⟩
  | cons b x ih =>
    rw [List.cons_append, List.dropWhile_cons]
    split
    · exact ih
    · exact ⟨(b :: x).reverse, by simp⟩

theorem strip_strip (s : Str) : strip (strip s) = strip s := by
  have h1 : lstrip (strip s) = strip s := by
    unfold strip
    cases hl : lstrip s with
    | nil => rfl
    | cons a l =>
      have ha : isWs a = false := by
        have := dropWhile_idem isWs s
        unfold lstrip at hl
        rw [hl, List.dropWhile_cons] at this
        split at this
        · exfalso
          have hlen := congrArg List.length this
          have := (List.dropWhile_suffix (l := l) isWs).length_le
          simp at hlen
          omega
        · rename_i hx; simpa using hx
      obtain ⟨r, hr⟩ := rstrip_head ha l
      rw [hr]
      unfold lstrip
      rw [List.dropWhile_cons, if_neg (by simp [ha])]
  show rstrip (lstrip (strip s)) = _
  rw [h1]
  unfold strip rstrip
  rw [List.reverse_reverse, dropWhile_idem]

theorem blanks_of_ws {f l : Str} (hws : ∀ c ∈ f, isWs c = true → c = ' ') (hl : ∀ c ∈ l, c ∈ f) (hl' : ∀ c ∈ l, isWs c = true) :
    l = List.replicate l.length ' ' := by
  rw [List.eq_replicate_iff]
  exact ⟨rfl, fun c hc => hws c (hl c hc) (hl' c hc)⟩

theorem takeWhile_dig_blanks {u : Str} (h : AllDig u) (m : Nat) : (u ++ List.replicate m ' ').takeWhile isDig = u := by
  rw [List.takeWhile_append_of_pos (by intro c hc; exact h c hc)]
  cases m with
  | zero => simp
  | succ m => rw [List.replicate_succ, List.takeWhile_cons_of_neg (by decide)]; simp

/-- a signed number between blanks -/
theorem atoi_text' {s t : Str} {n : Int} (h : pyInt s = some n) (hs : strip s = t) (hu : '_' ∉ t) (k m : Nat) :
    t.all (· == ' ') = false ∧
    applySign (splitSign ((List.replicate k ' ' ++ t ++ List.replicate m ' ').dropWhile cSpace)).1
      (digitsVal ((splitSign ((List.replicate k ' ' ++ t ++ List.replicate m ' ').dropWhile cSpace)).2.takeWhile isDig)) = n ∧
    (splitSign ((List.replicate k ' ' ++ t ++ List.replicate m ' ').dropWhile cSpace)).2.takeWhile isDig ≠ [] := by
  unfold pyInt at h
  rw [hs, deUnderscore_id _ hu] at h
  simp only [Option.bind_eq_bind, Option.bind_some] at h
  cases hp : parseNat (splitSign t).2 with
  | none => rw [hp] at h; cases h
  | some d =>
    rw [hp] at h
    obtain ⟨h1, h2⟩ := parseNat_inv hp
    have hd : d = digitsVal (splitSign t).2 := by
      unfold parseNat at hp; split at hp <;> cases hp; rfl
    have hn : applySign (splitSign t).1 d = n := by simpa using h
    -- the first character
    obtain ⟨c, r, hc⟩ : ∃ c r, t = c :: r := by
      cases t with
      | nil => exact absurd rfl h2
      | cons c r => exact ⟨c, r, rfl⟩
    have hcs : c ≠ ' ' ∧ cSpace c = false ∧ ∀ x : Str, splitSign (c :: r ++ x) = ((splitSign (c :: r)).1, (splitSign (c :: r)).2 ++ x) := by
      by_cases hm : c = '-'
      · subst hm; exact ⟨by decide, by decide, fun x => rfl⟩
      by_cases hpl : c = '+'
      · subst hpl; exact ⟨by decide, by decide, fun x => rfl⟩
      have e1 : ∀ x : Str, splitSign (c :: x) = (false, c :: x) := by
        intro x
        unfold splitSign
        split
        · rename_i h3; cases h3; exact absurd rfl hpl
        · rename_i h3; cases h3; exact absurd rfl hm
        · rfl
      rw [hc, e1] at h1
      have hcd : isDig c = true := h1 c (by simp)
      refine ⟨?_, ?_, fun x => ?_⟩
      · rintro rfl; revert hcd; decide
      · unfold isDig at hcd
        simp only [Bool.and_eq_true, decide_eq_true_eq] at hcd
        have h5 : 48 ≤ c.toNat := hcd.1
        unfold cSpace
        simp only [Bool.or_eq_false_iff, decide_eq_false_iff_not, Bool.and_eq_false_imp, decide_eq_true_eq]
        refine ⟨?_, fun _ => by omega⟩
        rintro rfl; revert h5; decide
      · rw [List.cons_append, e1, e1]; rfl
    obtain ⟨hc1, hc2, hc3⟩ := hcs
    refine ⟨?_, ?_⟩
    · rw [hc, List.all_cons]; simp [hc1]
    · have hdw : (List.replicate k ' ' ++ t ++ List.replicate m ' ').dropWhile cSpace = t ++ List.replicate m ' ' := by
        rw [List.append_assoc, List.dropWhile_append_of_pos (by intro x hx; rw [List.eq_of_mem_replicate hx]; decide), hc,
          List.cons_append, List.dropWhile_cons, if_neg (by simp [hc2])]
      rw [hdw, hc, hc3, ← hc]
      dsimp only
      rw [takeWhile_dig_blanks h1, ← hd]
      exact ⟨hn, h2⟩

theorem atoi_text {s t : Str} {n : Int} (h : pyInt s = some n) (hs : strip s = t) (hu : '_' ∉ t) (k m : Nat) :
    t.all (· == ' ') = false ∧
    applySign (splitSign ((List.replicate k ' ' ++ t ++ List.replicate m ' ').dropWhile cSpace)).1
      (digitsVal ((splitSign ((List.replicate k ' ' ++ t ++ List.replicate m ' ').dropWhile cSpace)).2.takeWhile isDig)) = n :=
  ⟨(atoi_text' h hs hu k m).1, (atoi_text' h hs hu k m).2.1⟩

/-- **C77** (partial) Every integer field the Python reader accepts is read as the same number by the compiled parser.
Missing: fields with underscores or with other white space than blanks, and numbers that do not fit into four bytes, where
the behaviour is undefined; see `C77_underscore_fails`, `C77_range_fails`. -/
theorem C77_partial (f : Str) (hws : ∀ c ∈ f, isWs c = true → c = ' ') (hu : '_' ∉ f) (n : Int) (hn : intMin ≤ n ∧ n ≤ intMax)
    (h : readFortInt f = .ok n) : cppIntOf f = .ok n := by
  obtain ⟨p, q, h1, h2, h3⟩ := strip_decomp f
  have hp := blanks_of_ws hws (l := p) (fun c hc => by rw [h1]; simp [hc]) h2
  have hq := blanks_of_ws hws (l := q) (fun c hc => by rw [h1]; simp [hc]) h3
  unfold readFortInt at h
  split at h
  · rename_i hs
    cases h
    unfold cppIntOf
    rw [if_pos]
    rw [h1, hs, hp, hq]
    simp
  · cases hpi : pyInt f with
    | none => rw [hpi] at h; cases h
    | some m =>
      rw [hpi] at h
      cases h
      have hu' : '_' ∉ strip f := fun hc => hu (by rw [h1]; simp [hc])
      obtain ⟨a1, a2⟩ := atoi_text hpi rfl hu' p.length q.length
      rw [← hp, ← hq, ← h1] at a2
      unfold cppIntOf atoi
      rw [if_neg]
      · simp only [a2]; rw [if_pos hn]
      · intro hall
        rw [h1, List.all_append, List.all_append] at hall
        simp [a1] at hall

/-- the same for control numbers -/
theorem ctrlNum_agree (f : Str) (hws : ∀ c ∈ f, isWs c = true → c = ' ') (hu : '_' ∉ f) (n : Int) (hl : f.length ≤ 9)
    (h : readCtrlNum f = .ok n) : cppIntOf f = .ok n := by
  have hf : readFortInt f = .ok n := by
    unfold readCtrlNum at h
    unfold readFortInt
    by_cases hs : strip f = []
    · simpa [hs] using h
    · simp only [ne_eq, hs, not_false_eq_true, if_true, if_false] at h ⊢
      have : pyInt (strip f) = pyInt f := by unfold pyInt; rw [strip_strip]
      rw [this] at h
      cases hp : pyInt f with
      | none => rw [hp] at h; cases h
      | some m => rw [hp] at h; exact h
  by_cases hn : intMin ≤ n ∧ n ≤ intMax
  · exact C77_partial f hws hu n hn hf
  · -- such numbers have more than nine digits
    exfalso
    have hne := cppIntOf_short hl
    obtain ⟨p, q, h1, h2, h3⟩ := strip_decomp f
    have hp := blanks_of_ws hws (l := p) (fun c hc => by rw [h1]; simp [hc]) h2
    have hq := blanks_of_ws hws (l := q) (fun c hc => by rw [h1]; simp [hc]) h3
    unfold readFortInt at hf
    split at hf
    · cases hf; exact hn (by decide)
    · cases hpi : pyInt f with
      | none => rw [hpi] at hf; cases hf
      | some m =>
        rw [hpi] at hf
        cases hf
        have hu' : '_' ∉ strip f := fun hc => hu (by rw [h1]; simp [hc])
        obtain ⟨a1, a2⟩ := atoi_text hpi rfl hu' p.length q.length
        rw [← hp, ← hq, ← h1] at a2
        unfold cppIntOf atoi at hne
        rw [if_neg] at hne
        · simp only [a2] at hne; rw [if_neg hn] at hne; exact hne rfl
        · intro hall
          rw [h1, List.all_append, List.all_append] at hall
          simp [a1] at hall

/-- **C77** Underscores between digits end the number. -/
theorem C77_underscore_fails : readFortInt "        1_0".toList = .ok 10 ∧ cppIntOf "        1_0".toList = .ok 1 := by decide +kernel

/-- **C77** Numbers above 2147483647 are read by the Python parser; in the compiled parser the behaviour is undefined. -/
theorem C77_range_fails : readFortInt " 2147483648".toList = .ok 2147483648 ∧ cppIntOf " 2147483648".toList = .undef := by
  decide +kernel

/-- the compiled parser accepts fields that are not integers, and takes the part in front -/
theorem C77_more : readFortInt "      1.5+3".toList = .error .invalidInteger ∧ cppIntOf "      1.5+3".toList = .ok 1 ∧
    readFortInt "     12abc ".toList = .error .invalidInteger ∧ cppIntOf "     12abc ".toList = .ok 12 ∧
    readFortInt "        abc".toList = .error .invalidInteger ∧ cppIntOf "        abc".toList = .ok 0 := by decide +kernel

/-- fields meeting the assumptions -/
example : readFortInt "       -125".toList = .ok (-125) ∧ cppIntOf "       -125".toList = .ok (-125) ∧
    readFortInt "  +7       ".toList = .ok 7 ∧ cppIntOf "  +7       ".toList = .ok 7 := by decide +kernel

end Verif
