import Verif.Model.Records
import Verif.Lemmas.RereadRec
/-
Texts of numbers with a decimal point are not read as integers.
-/
namespace Verif

theorem mem_strip {s : Str} {ch : Char} (h : ch ∈ s) (hw : isWs ch = false) : ch ∈ strip s := by
  obtain ⟨p, q, e, hp, hq⟩ := strip_decomp s
  rw [e] at h
  simp only [List.mem_append] at h
  rcases h with (h | h) | h
  · rw [hp ch h] at hw; cases hw
  · exact h
  · rw [hq ch h] at hw; cases hw

theorem mem_deUnderscore {ch : Char} (hc : ch ≠ '_') : ∀ (s : Str) (b : Bool) (t : Str), deUnderscore b s = some t → ch ∈ s → ch ∈ t := by
  intro s
  induction s with
  | nil => intro b t _ hm; cases hm
  | cons x s ih =>
    intro b t h hm
    rw [deUnderscore.eq_def] at h
    dsimp only at h
    split at h
    · rename_i hx
      have hm' : ch ∈ s := by
        rcases List.mem_cons.1 hm with rfl | hm
        · exact absurd hx hc
        · exact hm
      cases s with
      | nil => cases hm'
      | cons y s =>
        dsimp only at h
        split at h
        · exact ih _ _ h hm'
        · cases h
    · rw [Option.map_eq_some_iff] at h
      obtain ⟨u, hu, rfl⟩ := h
      rcases List.mem_cons.1 hm with rfl | hm
      · exact List.mem_cons_self
      · exact List.mem_cons_of_mem _ (ih _ _ hu hm)

theorem readFortInt_dot {s : Str} (h : '.' ∈ s) : readFortInt s = .error .invalidInteger := by
  have hs : '.' ∈ strip s := mem_strip h (by decide)
  unfold readFortInt
  rw [if_neg (by intro e; rw [e] at hs; cases hs)]
  have : pyInt s = none := by
    unfold pyInt
    cases ht : deUnderscore false (strip s) with
    | none => rfl
    | some t =>
      have hd := mem_deUnderscore (by decide) _ _ _ ht hs
      have key : ∀ u : Str, '.' ∈ u → parseNat u = none := by
        intro u hu
        unfold parseNat
        rw [if_neg]
        intro ⟨_, ha⟩
        have := List.all_eq_true.1 ha '.' hu
        exact absurd this (by decide)
      have hu : '.' ∈ (splitSign t).2 := by
        unfold splitSign
        split
        · rcases List.mem_cons.1 hd with h | h
          · exact absurd h (by decide)
          · exact h
        · rcases List.mem_cons.1 hd with h | h
          · exact absurd h (by decide)
          · exact h
        · exact hd
      simp only [Option.bind_eq_bind, Option.bind_some, key _ hu, Option.bind_none]
  rw [this]

theorem expform_dot {o : WOpts} (ho : o.width = 11) : ∀ (fuel : Nat) (v : ℚ) (s : Str), float2expformstrF fuel o v = .ok s → '.' ∈ s := by
  intro fuel
  induction fuel with
  | zero => intro v s h; cases h
  | succ fuel ih =>
    intro v s h
    rw [float2expformstrF] at h
    dsimp only at h
    split at h
    · cases h
    generalize (if decide (0 ≤ v) = true then (if o.abuseSignpos = true then [] else [' ']) else ['-'] : Str) = sg at h
    generalize (if o.keepE = true then ['E'] else [] : Str) = es at h
    generalize (if decide (0 ≤ exponentOf |v|) = true then ['+'] else ['-'] : Str) = xs at h
    split at h
    · split at h
      · exact ih _ _ h
      · cases h
    · cases h
      have hn : 1 ≤ (mantissaDigits o v).toNat := by
        have : 3 ≤ mantissaDigits o v := by
          unfold mantissaDigits nexpOf
          rw [ho]
          split <;> split <;> (try split) <;> (try split) <;> (try split) <;> norm_num
        omega
      simp only [List.mem_append]
      refine .inl (.inl (.inl (.inr ?_)))
      unfold fmtFixed
      dsimp only
      rw [if_neg (by omega)]
      simp

theorem readFortInt_float {o : WOpts} (ho : o.width = 11) (hp : o.preferNoexp = false) {v : ℚ} {s : Str}
    (h : float2fortstr o (.flt v) = .ok s) (n : Int) : readFortInt s ≠ .ok n := by
  have : '.' ∈ s := by
    unfold float2fortstr at h
    cases hx : float2expformstr o v with
    | error e => simp [bind, Except.bind, hx] at h
    | ok x =>
      simp [bind, Except.bind, hx, hp, pure, Except.pure] at h
      subst h
      exact expform_dot ho 2 v x hx
  rw [readFortInt_dot this]
  intro h
  cases h

/-- a line with control numbers is not blank -/
theorem notBlank_of_ctrl {l : Str} {a b : Nat} {c : Ctrl} (h : slice l a b = writeCtrl c) : isBlankLine l = false := by
  obtain ⟨ch, hm, hw⟩ : ∃ ch ∈ writeCtrl c, isWs ch = false := by
    obtain ⟨ch, hm⟩ := List.exists_mem_of_ne_nil _ (intStr_ne_nil c.mt)
    exact ⟨ch, by unfold writeCtrl rjust; simp [hm], intStr_noWs c.mt ch hm⟩
  have hl : ch ∈ l := by
    rw [← h] at hm
    unfold slice at hm
    exact List.mem_of_mem_take (List.mem_of_mem_drop hm)
  have := mem_strip hl hw
  unfold isBlankLine
  simp only [decide_eq_false_iff_not]
  intro e
  rw [e] at this
  cases this

end Verif
