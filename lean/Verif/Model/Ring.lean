import Verif.Model.Py
/-
The ring buffer of log entries (`endf_parserpy/interpreter/logging_utils.py`).
-/
namespace Verif

/-- logging_utils.py:76-80; `next` is the attribute `tail` plus one, so that it is a natural number -/
structure Ring (α : Type) where
  capacity : Nat
  buffer : List (Option α)
  next : Nat
  enqueued : Nat

/-- logging_utils.py:76-80 `__init__` -/
def Ring.new {α : Type} (c : Nat) : Ring α := ⟨c, List.replicate c none, 0, 0⟩

/-- logging_utils.py:82-85 `enqueue`; `% 0` is a ZeroDivisionError -/
def Ring.enqueue {α : Type} (r : Ring α) (x : α) : Res (Ring α) :=
  if r.capacity = 0 then .error .zeroDivision
  else
    let tail := r.next % r.capacity
    .ok { r with next := tail + 1, buffer := r.buffer.set tail (some x), enqueued := r.enqueued + 1 }

/-- logging_utils.py:87-91 `get_queue` -/
def Ring.queue {α : Type} (r : Ring α) : List (Option α) :=
  if r.enqueued > r.capacity then r.buffer.drop r.next ++ r.buffer.take r.next
  else r.buffer.take r.next

/-- a sequence of calls of `enqueue` -/
def Ring.enqueueAll {α : Type} : Ring α → List α → Res (Ring α)
  | r, [] => .ok r
  | r, x :: xs => do (← r.enqueue x).enqueueAll xs

/-- logging_utils.py:129-132 `get_last_entry`: the entry itself; `buffer[-1]` before the first entry -/
def Ring.last {α : Type} (r : Ring α) : Option (Option α) :=
  if r.next = 0 then r.buffer.getLast? else r.buffer[r.next - 1]?

end Verif
