import Verif.Model.Ring
import Verif.Lemmas.Eval
/-
C51: the ring buffer returns the last entries.
-/
namespace Verif

/-- what holds after the entries `es` -/
structure RingInv {α : Type} (r : Ring α) (es : List α) : Prop where
  cap : 0 < r.capacity
  len : r.buffer.length = r.capacity
  count : r.enqueued = es.length
  le : r.next ≤ r.capacity
  few : es.length ≤ r.capacity → r.next = es.length ∧ r.buffer.take r.next = es.map some
  many : r.capacity ≤ es.length → 0 < r.next ∧
    r.buffer.drop r.next ++ r.buffer.take r.next = (es.drop (es.length - r.capacity)).map some

theorem RingInv.step {α : Type} {r r' : Ring α} {es : List α} {x : α} (h : RingInv r es) (he : r.enqueue x = .ok r') :
    RingInv r' (es ++ [x]) := by
  obtain ⟨c, buf, nx, n⟩ := r
  obtain ⟨cap, len, count, le, few, many⟩ := h
  simp only at cap len count le few many
  simp only [Ring.enqueue, Nat.ne_of_gt cap, if_false, Except.ok.injEq] at he
  subst he
  have hm : nx % c < c := Nat.mod_lt _ cap
  refine ⟨cap, by simpa using len, by simp [count], hm, ?_, ?_⟩
  · simp only [List.length_append, List.length_cons, List.length_nil]
    intro hle
    obtain ⟨h1, h2⟩ := few (by omega)
    have hlt : nx % c = nx := Nat.mod_eq_of_lt (by omega)
    refine ⟨by omega, ?_⟩
    rw [hlt, List.take_add_one, List.getElem?_set_self (by omega), List.take_set_of_le (Nat.le_refl _), h2]
    simp
  · simp only [List.length_append, List.length_cons, List.length_nil]
    intro hge
    refine ⟨by omega, ?_⟩
    by_cases hc : c ≤ es.length
    · obtain ⟨h0, h1⟩ := many hc
      have hd : (es ++ [x]).drop (es.length + (0 + 1) - c) = (es.drop (es.length - c)).tail ++ [x] := by
        rw [List.drop_append_of_le_length (by omega), ← List.drop_one, List.drop_drop]
        congr 2
        omega
      rw [hd, List.map_append, List.map_tail, ← h1]
      by_cases hlt : nx < c
      · have hmm : nx % c = nx := Nat.mod_eq_of_lt hlt
        rw [hmm]
        have hb : buf = buf.take nx ++ buf[nx]'(by omega) :: buf.drop (nx + 1) := by
          rw [List.getElem_cons_drop, List.take_append_drop]
        generalize hA : buf.take nx = A at *
        generalize hB : buf.drop (nx + 1) = B at *
        generalize buf[nx]'(by omega) = y at *
        have hl : A.length = nx := by rw [← hA, List.length_take]; omega
        subst hl
        rw [hb]
        have ht : (A ++ some x :: B).take (A.length + 1) = A ++ [some x] := by
          rw [List.take_append, List.take_of_length_le (by omega)]; simp
        simp [ht]
      · have hnc : nx = c := by omega
        subst hnc
        rw [Nat.mod_self]
        cases buf with
        | nil => simp at len; omega
        | cons y B =>
          simp only [List.length_cons] at len
          rw [← len]
          simp
    · have hn : es.length + 1 = c := by omega
      obtain ⟨h1, h2⟩ := few (by omega)
      have hlt : nx % c = nx := Nat.mod_eq_of_lt (by omega)
      rw [hlt, List.drop_eq_nil_of_le (by simp; omega), List.take_add_one, List.getElem?_set_self (by omega),
        List.take_set_of_le (Nat.le_refl _), h2]
      have : es.length + (0 + 1) - c = 0 := by omega
      rw [this]
      simp

theorem RingInv.all {α : Type} {r : Ring α} {es : List α} (h : RingInv r es) (xs : List α) :
    ∃ r', r.enqueueAll xs = .ok r' ∧ RingInv r' (es ++ xs) ∧ r'.capacity = r.capacity := by
  induction xs generalizing r es with
  | nil => exact ⟨r, rfl, by simpa using h, rfl⟩
  | cons x xs ih =>
    have hr : ∃ r1, r.enqueue x = .ok r1 ∧ r1.capacity = r.capacity := by
      unfold Ring.enqueue; rw [if_neg (Nat.ne_of_gt h.cap)]; exact ⟨_, rfl, rfl⟩
    obtain ⟨r1, h1, h2⟩ := hr
    obtain ⟨r', h3, h4, h5⟩ := ih (h.step h1)
    refine ⟨r', ?_, by simpa using h4, by rw [h5, h2]⟩
    rw [Ring.enqueueAll, h1]; exact h3

theorem RingInv.new {α : Type} {c : Nat} (h : 0 < c) : RingInv (Ring.new c : Ring α) [] where
  cap := h
  len := by simp [Ring.new]
  count := rfl
  le := by simp [Ring.new]
  few := fun _ => by simp [Ring.new]
  many := fun hc => by simp [Ring.new] at hc; omega

/-- C51: after any sequence of entries, the queue consists of the last `min n capacity` of them in order -/
theorem C51_last {α : Type} (c : Nat) (hc : 0 < c) (es : List α) :
    ∃ r, (Ring.new c).enqueueAll es = .ok r ∧ r.queue = (es.drop (es.length - c)).map some := by
  obtain ⟨r, h1, h2, h3⟩ := (RingInv.new hc : RingInv (Ring.new c : Ring α) []).all es
  refine ⟨r, h1, ?_⟩
  have hcap : r.capacity = c := h3
  simp only [List.nil_append] at h2
  unfold Ring.queue
  rw [h2.count, hcap]
  by_cases h : es.length > c
  · rw [if_pos h]
    have := (h2.many (by omega)).2
    rwa [hcap] at this
  · rw [if_neg h, (h2.few (by omega)).2, Nat.sub_eq_zero_of_le (by omega), List.drop_zero]

/-- C51: the number of entries returned -/
theorem C51_length {α : Type} (c : Nat) (hc : 0 < c) (es : List α) (r : Ring α) (h : (Ring.new c).enqueueAll es = .ok r) :
    r.queue.length = min es.length c := by
  obtain ⟨r', h1, h2⟩ := C51_last c hc es
  rw [h] at h1; cases h1
  rw [h2]; simp; omega

/-- C51: `get_last_entry` returns the last entry -/
theorem C51_last_entry {α : Type} (c : Nat) (hc : 0 < c) (es : List α) (x : α) (r : Ring α)
    (h : (Ring.new c).enqueueAll (es ++ [x]) = .ok r) : r.last = some (some x) := by
  obtain ⟨r1, h1, h2, h3⟩ := (RingInv.new hc : RingInv (Ring.new c : Ring α) []).all es
  have happ : ∀ (r0 : Ring α) (as bs : List α), r0.enqueueAll (as ++ bs) = r0.enqueueAll as >>= fun r => r.enqueueAll bs := by
    intro r0 as
    induction as generalizing r0 with
    | nil => intro bs; rfl
    | cons a as ih =>
      intro bs
      simp only [List.cons_append, Ring.enqueueAll]
      cases r0.enqueue a with
      | error e => rfl
      | ok r2 => exact ih r2 bs
  rw [happ, h1] at h
  simp only [bind, Except.bind, Ring.enqueueAll] at h
  unfold Ring.enqueue at h
  rw [if_neg (Nat.ne_of_gt h2.cap)] at h
  simp only [Except.ok.injEq] at h
  subst h
  unfold Ring.last
  simp only [Nat.add_eq_zero_iff, Nat.one_ne_zero, and_false, if_false, Nat.add_sub_cancel]
  rw [List.getElem?_set_self]
  rw [h2.len]; exact Nat.mod_lt _ h2.cap

/-- **C51 fails** for capacity 0: logging raises a ZeroDivisionError -/
theorem C51_zero_fails {α : Type} (x : α) : (Ring.new 0).enqueue x = .error .zeroDivision := rfl

/-- C51: five entries in a buffer for three -/
example : ((Ring.new 3).enqueueAll [1, 2, 3, 4, 5]).toOption.map Ring.queue = some [some 3, some 4, some 5] := by decide +kernel

end Verif
