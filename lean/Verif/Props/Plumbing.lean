import Verif.Model.Plumbing
import Mathlib.Tactic.Linarith
import Mathlib.Data.List.Basic
import Mathlib.Data.List.Induction
/-
C53 description editing.
-/
namespace Verif

/-! ## C53 -/

/-- a line: no line break inside -/
def Spec.IsLine (l : Str) : Prop := ∀ c ∈ l, isBreak c = false

open Spec

theorem splitAcc_line {l : Str} (h : IsLine l) (acc s : Str) :
    splitAcc acc (l ++ '\n' :: s) = (acc ++ l) :: splitAcc [] s := by
  induction l generalizing acc with
  | nil =>
    simp only [List.nil_append, List.append_nil]
    rw [splitAcc]
    · rfl
    · intro _ h1; simp at h1
  | cons c l ih =>
    have hc := h c (by simp)
    simp only [List.cons_append]
    rw [splitAcc]
    · rw [hc]
      simp only [Bool.false_eq_true, if_false]
      rw [ih (fun c hc => h c (by simp [hc]))]
      simp
    · intro s' h1
      subst h1
      simp [isBreak] at hc

theorem splitAcc_end {l : Str} (h : IsLine l) (acc : Str) :
    splitAcc acc l = if acc ++ l = [] then [] else [acc ++ l] := by
  induction l generalizing acc with
  | nil => simp [splitAcc]
  | cons c l ih =>
    have hc := h c (by simp)
    rw [splitAcc]
    · rw [hc]
      simp only [Bool.false_eq_true, if_false]
      rw [ih (fun c hc => h c (by simp [hc]))]
      simp
    · intro s' h1
      subst h1
      simp [isBreak] at hc

/-- lines joined by newlines are found again, except for an empty last one -/
theorem splitlines_join {ls : List Str} (h : ∀ l ∈ ls, IsLine l) :
    splitlines (joinLines ls) = if ls.getLast? = some [] then ls.dropLast else ls := by
  unfold splitlines
  induction ls with
  | nil => simp [joinLines, splitAcc]
  | cons l ls ih =>
    cases ls with
    | nil =>
      simp only [joinLines, splitAcc_end (h l (by simp)), List.nil_append, List.getLast?_singleton, Option.some.injEq,
        List.dropLast_singleton]
    | cons l2 ls =>
      rw [joinLines, splitAcc_line (h l (by simp)), ih (fun x hx => h x (by simp [hx]))]
      · simp only [List.nil_append, List.getLast?_cons_cons]
        split
        · simp
        · rfl
      · simp

theorem splitlines_join_newline {ls : List Str} (h : ∀ l ∈ ls, IsLine l) (hne : ls ≠ []) :
    splitlines (joinLines ls ++ ['\n']) = ls := by
  unfold splitlines
  induction ls with
  | nil => exact absurd rfl hne
  | cons l ls ih =>
    cases ls with
    | nil =>
      simp only [joinLines]
      rw [splitAcc_line (h l (by simp))]
      simp [splitAcc]
    | cons l2 ls =>
      rw [joinLines]
      · simp only [List.append_assoc, List.cons_append]
        rw [splitAcc_line (h l (by simp)), ih (fun x hx => h x (by simp [hx])) (by simp)]
        simp
      · simp

theorem splitAcc_isLine (s acc : Str) (hacc : IsLine acc) : ∀ l ∈ splitAcc acc s, IsLine l := by
  induction acc, s using splitAcc.induct with
  | case1 => intro l hl; simp [splitAcc] at hl
  | case2 acc h0 =>
    intro l hl
    simp only [splitAcc, if_neg h0] at hl
    rw [List.mem_singleton] at hl; subst hl; exact hacc
  | case3 acc s ih =>
    intro l hl
    rw [splitAcc] at hl
    rcases List.mem_cons.mp hl with rfl | hl
    · exact hacc
    · exact ih (by intro c hc; simp at hc) l hl
  | case4 acc c s h1 h2 ih =>
    intro l hl
    rw [splitAcc, if_pos h2] at hl
    · rcases List.mem_cons.mp hl with rfl | hl
      · exact hacc
      · exact ih (by intro c hc; simp at hc) l hl
    · exact h1
  | case5 acc c s h1 h2 ih =>
    intro l hl
    rw [splitAcc, if_neg h2] at hl
    · refine ih ?_ l hl
      intro x hx
      rcases List.mem_append.mp hx with hx | hx
      · exact hacc x hx
      · rw [List.mem_singleton] at hx; subst hx; simpa using h2
    · exact h1

theorem splitlines_isLine (s : Str) : ∀ l ∈ splitlines s, IsLine l :=
  splitAcc_isLine s [] (by intro c hc; simp at hc)

theorem dKeys_numberFrom {α : Type} (k : Int) (l : List α) :
    dKeys (numberFrom k l) = (List.range l.length).map fun i : Nat => k + (i : Int) := by
  induction l generalizing k with
  | nil => rfl
  | cons x l ih =>
    have := ih (k + 1)
    simp only [dKeys] at this
    simp only [numberFrom, dKeys, List.map_cons, this, List.length_cons, List.range_succ_eq_map, List.map_map,
      Nat.cast_zero, add_zero, List.cons.injEq, true_and]
    apply List.map_congr_left
    intro i _
    simp only [Function.comp]
    push_cast
    ring

theorem dGet_numberFrom {α : Type} (k : Int) (l : List α) (n : Nat) : dGet (k + n) (numberFrom k l) = l[n]? := by
  induction l generalizing k n with
  | nil => simp [numberFrom, dGet]
  | cons x l ih =>
    simp only [numberFrom, dGet]
    cases n with
    | zero => simp
    | succ n =>
      rw [if_neg (by push_cast; omega)]
      have := ih (k + 1) n
      rw [show k + ((n + 1 : Nat) : Int) = k + 1 + (n : Int) by push_cast; ring, this]
      simp

theorem sortedKeys_numberFrom {α : Type} (k : Int) (l : List α) :
    sortedKeys (numberFrom k l) = (List.range l.length).map fun i : Nat => k + (i : Int) := by
  unfold sortedKeys
  rw [dKeys_numberFrom]
  apply List.Pairwise.insertionSort_eq
  rw [List.pairwise_map]
  exact (List.pairwise_lt_range).imp (by intro a b h; omega)

theorem getDescription_numberFrom {s : Sec451} {k : Int} {ls : List Str} (h : s.descr = some (numberFrom k ls)) :
    getDescription s = .ok (joinLines ls) := by
  simp only [getDescription, h, sortedKeys_numberFrom]
  have : ((List.range ls.length).map fun i : Nat => k + (i : Int)).mapM (fun k' => dItem k' (numberFrom k ls)) = .ok ls := by
    rw [List.mapM_map]
    have key : ∀ n ≤ ls.length, ((List.range' (ls.length - n) n).mapM ((fun k' => dItem k' (numberFrom k ls)) ∘ fun i : Nat => k + (i : Int))) = .ok (ls.drop (ls.length - n)) := by
      intro n
      induction n with
      | zero => intro _; simp [List.range']; rfl
      | succ n ih =>
        intro hn
        rw [List.range'_succ, List.mapM_cons]
        have e : ls.length - (n + 1) + 1 = ls.length - n := by omega
        rw [e, ih (by omega)]
        have hlt : ls.length - (n + 1) < ls.length := by omega
        simp only [Function.comp, dItem, dGet_numberFrom, List.getElem?_eq_getElem hlt, bind, Except.bind]
        rw [List.drop_eq_getElem_cons hlt, e]
        rfl
    have := key ls.length (le_refl _)
    simpa [List.range_eq_range'] using this
  rw [this]
  rfl

/-- C53, first part: the description set is the description got, its lines padded to 66 columns, and NWD counts its
lines plus the five lines of text in front of it. `ls` are any lines without line breaks, the last one not empty. -/
theorem C53_set (s : Sec451) (ls : List Str) (h : ∀ l ∈ ls, IsLine l) (hlast : ls.getLast? ≠ some []) :
    getDescription (setDescription s (joinLines ls)) = .ok (joinLines (ls.map (ljust · 66))) ∧
    (setDescription s (joinLines ls)).nwd = ls.length + 5 ∧
    (setDescription s (joinLines ls)).descr = some (numberFrom 1 (ls.map (ljust · 66))) := by
  have hs : splitlines (joinLines ls) = ls := by rw [splitlines_join h, if_neg hlast]
  refine ⟨?_, ?_, ?_⟩
  · rw [getDescription_numberFrom (k := 1) (ls := ls.map (ljust · 66))]
    simp [setDescription, hs]
  · simp [setDescription, hs]
  · simp [setDescription, hs]

/-- the same for a text ending in a newline; here the last line may be empty -/
theorem C53_set_newline (s : Sec451) (ls : List Str) (h : ∀ l ∈ ls, IsLine l) (hne : ls ≠ []) :
    getDescription (setDescription s (joinLines ls ++ ['\n'])) = .ok (joinLines (ls.map (ljust · 66))) ∧
    (setDescription s (joinLines ls ++ ['\n'])).nwd = ls.length + 5 := by
  have hs := splitlines_join_newline h hne
  refine ⟨?_, ?_⟩
  · rw [getDescription_numberFrom (k := 1) (ls := ls.map (ljust · 66))]
    simp [setDescription, hs]
  · simp [setDescription, hs]

theorem isLine_ljust {l : Str} (h : IsLine l) (n : Nat) : IsLine (ljust l n) := by
  intro c hc
  unfold ljust at hc
  rcases List.mem_append.mp hc with hc | hc
  · exact h c hc
  · rw [(List.mem_replicate.mp hc).2]; rfl

/-- C53, second part: inserting the lines `new` after the first `n` lines of the description `old` gives exactly these
lines in between, and NWD is right. A negative position counts from the end. The lines of `old` are those of any description with at least one column and no
line breaks, e.g. one set before or one read from a file.
Missing: a text whose last line is empty, at the end of the description: see `C53_insert_fails`. -/
theorem C53_insert_partial (s : Sec451) (old new : List Str) (after : Int) (n : Nat)
    (hn : n = if 0 ≤ after then after.toNat else (old.length + after).toNat) (hd : s.descr = some (numberFrom 1 old))
    (hold : ∀ l ∈ old, IsLine l ∧ l ≠ []) (hnew : ∀ l ∈ new, IsLine l) (text : Str) (htext : splitlines text = new)
    (hlast : n < old.length ∨ new.getLast? ≠ some []) :
    ∃ s', insertDescription s text after = .ok s' ∧
      s'.descr = some (numberFrom 1 ((old.take n ++ new ++ old.drop n).map (ljust · 66))) ∧
      s'.nwd = old.length + new.length + 5 := by
  have hlold : old.getLast? ≠ some [] := by
    intro hc
    exact (hold [] (List.mem_of_getLast? hc)).2 rfl
  have hsold : splitlines (joinLines old) = old := by
    rw [splitlines_join (fun l hl => (hold l hl).1), if_neg hlold]
  have hnl : (if after < (old.length : Int) then sliceTo after old ++ new ++ sliceFrom after old
      else sliceTo after old ++ new) = old.take n ++ new ++ old.drop n := by
    by_cases h0 : 0 ≤ after
    · rw [if_pos h0] at hn
      simp only [sliceTo, sliceFrom, if_pos h0, ← hn]
      split
      · rfl
      · rename_i hc
        rw [List.drop_eq_nil_of_le (by omega), List.append_nil]
    · rw [if_neg h0] at hn
      rw [if_pos (by omega)]
      simp only [sliceTo, sliceFrom, if_neg h0, ← hn]
  have hlines : ∀ l ∈ old.take n ++ new ++ old.drop n, IsLine l := by
    intro l hl
    simp only [List.mem_append] at hl
    rcases hl with (hl | hl) | hl
    · exact (hold l (List.mem_of_mem_take hl)).1
    · exact hnew l hl
    · exact (hold l (List.mem_of_mem_drop hl)).1
  have hl : (old.take n ++ new ++ old.drop n).getLast? ≠ some [] := by
    intro hc
    rw [List.getLast?_append] at hc
    by_cases hn : n < old.length
    · have : (old.drop n).getLast? = old.getLast? := by
        rw [List.getLast?_drop, if_neg (by omega)]
      rw [this] at hc
      cases ho : old.getLast? with
      | none => rw [List.getLast?_eq_none_iff] at ho; subst ho; simp at hn
      | some x =>
        rw [ho] at hc
        simp only [Option.some_or, Option.some.injEq] at hc
        exact hlold (by rw [ho, hc])
    · rw [List.drop_eq_nil_of_le (by omega), List.getLast?_nil, Option.none_or, List.getLast?_append] at hc
      cases hnw : new.getLast? with
      | some x =>
        rw [hnw] at hc
        simp only [Option.some_or, Option.some.injEq] at hc
        rcases hlast with hx | hx
        · exact hn hx
        · exact hx (by rw [hnw, hc])
      | none =>
        rw [hnw, Option.none_or] at hc
        exact (hold [] (List.mem_of_mem_take (List.mem_of_getLast? hc))).2 rfl
  have hsplit : splitlines (joinLines (old.take n ++ new ++ old.drop n)) = old.take n ++ new ++ old.drop n := by
    rw [splitlines_join hlines, if_neg hl]
  refine ⟨setDescription s (joinLines (old.take n ++ new ++ old.drop n)), ?_, ?_, ?_⟩
  · simp only [insertDescription, getDescription_numberFrom hd, bind, Except.bind, hsold, htext, hnl]
    rfl
  · simp only [setDescription, hsplit]
  · simp only [setDescription, hsplit, List.length_append, List.length_take, List.length_drop]
    omega

def ex451 : Sec451 := 
  { nwd := 7, descr := some [(1, "one".toList), (2, "two".toList)], nxc := 0, mfx := none, mtx := [], ncx := [], mod := [] }

example : (∀ l ∈ ["one".toList, "two".toList], IsLine l ∧ l ≠ []) ∧
    ex451.descr = some (numberFrom 1 ["one".toList, "two".toList]) ∧
    splitlines "new\n\nlines\n".toList = ["new".toList, [], "lines".toList] := by
  refine ⟨?_, rfl, by decide +kernel⟩
  intro l hl
  simp only [List.mem_cons, List.not_mem_nil, or_false] at hl
  rcases hl with rfl | rfl <;> exact ⟨by unfold IsLine; decide +kernel, by decide⟩

/-- C53 fails for a blank line at the end: inserting the two lines `a` and an empty one after the last line inserts
only the first -/
theorem C53_insert_fails : splitlines "a\n\n".toList = ["a".toList, []] ∧
    (match insertDescription ex451 "a\n\n".toList 2 with
      | .ok s' => decide (s'.descr.map (·.length) = some 3) && decide (s'.nwd = 8)
      | .error _ => false) = true := by decide +kernel

/-- lines with more than 66 columns are not trimmed, in contrast to the documentation of `set_description` -/
theorem C53_long (s : Sec451) (l : Str) (h : IsLine l) (hl : 66 < l.length) :
    getDescription (setDescription s l) = .ok l := by
  have h1 := (C53_set s [l] (by intro x hx; rw [List.mem_singleton] at hx; subst hx; exact h)
    (by intro hc; simp only [List.getLast?_singleton, Option.some.injEq] at hc; subst hc; simp at hl)).1
  have h2 : ljust l 66 = l := by unfold ljust; rw [Nat.sub_eq_zero_of_le (by omega)]; simp
  simpa [joinLines, h2] using h1

end Verif
