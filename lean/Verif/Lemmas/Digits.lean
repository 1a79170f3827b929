import Verif.Model.Py
import Mathlib.Tactic.Ring
import Mathlib.Tactic.Linarith
import Mathlib.Tactic.IntervalCases
/- Helper lemmas on digit strings and stripping. -/
namespace Verif

theorem toNat_ofNat_small {n : Nat} (h : n < 0xd800) : (Char.ofNat n).toNat = n := by
  have hv : n.isValidChar := Or.inl h
  rw [Char.ofNat, dif_pos hv]
  rfl

@[simp] theorem digChar_toNat {d : Nat} (h : d < 10) : (digChar d).toNat = 48 + d := by
  unfold digChar; exact toNat_ofNat_small (by omega)

theorem isDig_digChar {d : Nat} (h : d < 10) : isDig (digChar d) = true := by
  simp [isDig, digChar_toNat h]; omega

theorem digVal_digChar {d : Nat} (h : d < 10) : digVal (digChar d) = d := by
  simp [digVal, digChar_toNat h]

theorem isDig_not_ws {c : Char} (h : isDig c = true) : isWs c = false := by
  simp [isDig] at h
  simp [isWs]; omega

theorem isDig_ne {c d : Char} (h : isDig c = true) (hd : isDig d = false) : c ≠ d := by
  intro e; subst e; rw [h] at hd; cases hd

theorem natStrF_eq (f : Nat) : ∀ (g n : Nat), n < f → n < g → natStrF f n = natStrF g n := by
  induction f with
  | zero => intro g n h; omega
  | succ f ih =>
    intro g n hf hg
    cases g with
    | zero => omega
    | succ g =>
      simp only [natStrF]
      split
      · rfl
      · rename_i h10
        rw [ih g (n/10) (by omega) (by omega)]

theorem natStr_rec (n : Nat) :
    natStr n = if n < 10 then [digChar n] else natStr (n/10) ++ [digChar (n % 10)] := by
  rw [natStr, natStrF]
  split
  · rfl
  · rename_i h
    rw [natStr, natStrF_eq n (n/10+1) (n/10) (by omega) (by omega)]

theorem natStr_ne_nil (n : Nat) : natStr n ≠ [] := by
  rw [natStr_rec]; split <;> simp

theorem natStr_dig (n : Nat) : ∀ c ∈ natStr n, isDig c = true := by
  induction n using Nat.strong_induction_on with
  | _ n ih =>
    rw [natStr_rec]
    split
    · rename_i h; simp [isDig_digChar h]
    · rename_i h
      intro c hc
      simp at hc
      rcases hc with hc | hc
      · exact ih _ (by omega) c hc
      · subst hc; exact isDig_digChar (Nat.mod_lt _ (by norm_num))

theorem digitsVal_append (s : Str) (c : Char) : digitsVal (s ++ [c]) = 10 * digitsVal s + digVal c := by
  simp [digitsVal]

theorem digitsVal_natStr (n : Nat) : digitsVal (natStr n) = n := by
  induction n using Nat.strong_induction_on with
  | _ n ih =>
    rw [natStr_rec]
    split
    · rename_i h; simp [digitsVal, digVal_digChar h]
    · rename_i h
      rw [digitsVal_append, ih _ (by omega), digVal_digChar (Nat.mod_lt _ (by norm_num))]
      omega

theorem natStr_length_le (k : Nat) : ∀ n : Nat, (natStr n).length ≤ k + 1 ↔ n < 10 ^ (k+1) := by
  induction k with
  | zero =>
    intro n
    rw [natStr_rec]
    split
    · rename_i h; simp; omega
    · rename_i h
      have := natStr_ne_nil (n/10)
      have h1 : 0 < (natStr (n/10)).length := List.length_pos_iff.2 this
      simp only [List.length_append, List.length_singleton]; omega
  | succ k ih =>
    intro n
    rw [natStr_rec]
    split
    · rename_i h
      simp
      calc n < 10 := h
        _ ≤ 10 ^ (k+2) := by
          have : 1 ≤ 10 ^ (k+1) := Nat.one_le_pow _ _ (by norm_num)
          rw [pow_succ]; omega
    · rename_i h
      have := ih (n/10)
      simp only [List.length_append, List.length_singleton]
      rw [pow_succ]
      constructor
      · intro h2
        have := this.1 (by omega)
        omega
      · intro h2
        have := this.2 (by omega)
        omega

theorem natStr_length_pos (n : Nat) : 0 < (natStr n).length := List.length_pos_iff.2 (natStr_ne_nil n)

/-- exact number of digits -/
theorem natStr_length_eq {n k : Nat} (h1 : 10 ^ k ≤ n) (h2 : n < 10 ^ (k+1)) :
    (natStr n).length = k + 1 := by
  have a := (natStr_length_le k n).2 h2
  cases k with
  | zero => have := natStr_length_pos n; omega
  | succ k =>
    have b := (natStr_length_le k n).not.2 (by omega)
    omega

/-- no white space in the text -/
def NoWs (s : Str) : Prop := ∀ c ∈ s, isWs c = false

theorem NoWs.of_dig {s : Str} (h : ∀ c ∈ s, isDig c = true) : NoWs s :=
  fun c hc => isDig_not_ws (h c hc)

theorem isWs_space : isWs ' ' = true := by decide

theorem dropWhile_ws_replicate (k : Nat) (s : Str) :
    (List.replicate k ' ' ++ s).dropWhile isWs = s.dropWhile isWs := by
  induction k with
  | zero => simp
  | succ k ih => simp [List.replicate_succ, isWs_space, ih]

theorem dropWhile_noWs {s : Str} (h : NoWs s) : s.dropWhile isWs = s := by
  cases s with
  | nil => rfl
  | cons c s =>
    have : isWs c = false := h c (by simp)
    simp [List.dropWhile, this]

theorem NoWs.reverse {s : Str} (h : NoWs s) : NoWs s.reverse := by
  intro c hc; exact h c (by simpa using hc)

theorem strip_noWs {s : Str} (h : NoWs s) : strip s = s := by
  unfold strip rstrip lstrip
  rw [dropWhile_noWs h, dropWhile_noWs h.reverse, List.reverse_reverse]

theorem strip_pad {s : Str} (h : NoWs s) (k m : Nat) :
    strip (List.replicate k ' ' ++ s ++ List.replicate m ' ') = s := by
  unfold strip rstrip lstrip
  rw [List.append_assoc, dropWhile_ws_replicate]
  cases s with
  | nil =>
    have : (List.replicate m ' ').dropWhile isWs = [] := by
      have := dropWhile_ws_replicate m []
      simpa using this
    simp [this]
  | cons c s =>
    have hc : isWs c = false := h c (by simp)
    have : ((c :: s) ++ List.replicate m ' ').dropWhile isWs = (c :: s) ++ List.replicate m ' ' := by
      simp [hc]
    rw [this, List.reverse_append, List.reverse_replicate, dropWhile_ws_replicate,
      dropWhile_noWs h.reverse, List.reverse_reverse]

theorem strip_rjust {s : Str} (h : NoWs s) (w : Nat) : strip (rjust s w) = s := by
  have := strip_pad h (w - s.length) 0
  simpa [rjust] using this

theorem strip_replicate (m : Nat) : strip (List.replicate m ' ') = [] := by
  have := strip_pad (s := []) (by intro c hc; cases hc) m 0
  simpa using this

theorem deUnderscore_id (b : Bool) {s : Str} (h : '_' ∉ s) : deUnderscore b s = some s := by
  induction s generalizing b with
  | nil => simp [deUnderscore]
  | cons c s ih =>
    simp at h
    rw [deUnderscore.eq_def]
    simp only [if_neg (fun e => h.1 (Eq.symm e) : ¬ c = '_'), ih _ h.2]
    rfl

theorem not_mem_of_dig {s : Str} (h : ∀ c ∈ s, isDig c = true) {d : Char} (hd : isDig d = false) :
    d ∉ s := by
  intro hm; have := h d hm; rw [hd] at this; cases this

theorem parseNat_of_dig {s : Str} (h : ∀ c ∈ s, isDig c = true) (hn : s ≠ []) :
    parseNat s = some (digitsVal s) := by
  unfold parseNat
  rw [if_pos]
  exact ⟨hn, by simpa [List.all_eq_true] using h⟩

theorem splitSign_dig {s : Str} (h : ∀ c ∈ s, isDig c = true) : splitSign s = (false, s) := by
  unfold splitSign
  split
  · have := h '+' (by simp); simp [isDig] at this
  · have := h '-' (by simp); simp [isDig] at this
  · rfl

theorem intStr_noWs (n : Int) : NoWs (intStr n) := by
  cases n with
  | ofNat n => exact NoWs.of_dig (natStr_dig n)
  | negSucc n =>
    intro c hc
    simp [intStr] at hc
    rcases hc with rfl | hc
    · decide
    · exact isDig_not_ws (natStr_dig _ c hc)

theorem intStr_ne_nil (n : Int) : intStr n ≠ [] := by
  cases n with
  | ofNat n => exact natStr_ne_nil n
  | negSucc n => simp [intStr]

theorem intStr_no_underscore (n : Int) : '_' ∉ intStr n := by
  cases n with
  | ofNat n => exact not_mem_of_dig (natStr_dig n) (by decide)
  | negSucc n =>
    simp only [intStr, List.mem_cons, not_or]
    exact ⟨by decide, not_mem_of_dig (natStr_dig _) (by decide)⟩

/-- texts whose stripped form is a printed integer are read as this integer -/
theorem pyInt_of_strip {s : Str} {n : Int} (h : strip s = intStr n) : pyInt s = some n := by
  unfold pyInt
  rw [h, deUnderscore_id _ (intStr_no_underscore n)]
  cases n with
  | ofNat n =>
    simp [intStr, splitSign_dig (natStr_dig n), parseNat_of_dig (natStr_dig n) (natStr_ne_nil n),
      digitsVal_natStr, applySign]
  | negSucc n =>
    simp [intStr, splitSign, parseNat_of_dig (natStr_dig _) (natStr_ne_nil _),
      digitsVal_natStr, applySign]
    omega

theorem pyInt_intStr_rjust (n : Int) (w : Nat) : pyInt (rjust (intStr n) w) = some n :=
  pyInt_of_strip (strip_rjust (intStr_noWs n) w)

theorem rjust_length (s : Str) (w : Nat) : (rjust s w).length = max w s.length := by
  simp [rjust]; omega

theorem rjust_length_le {s : Str} {w : Nat} (h : s.length ≤ w) : (rjust s w).length = w := by
  rw [rjust_length]; omega

theorem ljust_length (s : Str) (w : Nat) : (ljust s w).length = max w s.length := by
  simp [ljust]; omega

theorem ljust_length_le {s : Str} {w : Nat} (h : s.length ≤ w) : (ljust s w).length = w := by
  rw [ljust_length]; omega

end Verif
