import Verif.Model.Recipe
/-
Notions for stating what a run of the interpreter does, independent of the interpreter.
-/
namespace Verif.Spec

/-- entries of dictionaries that are for internal use only -/
def Key.Internal (k : Key) : Prop := k = .up ∨ k = .abbrevs ∨ k = .startidcs

/-- A value that contains, at any depth, neither internal entries nor abbreviated expressions, and whose dictionaries have
distinct keys. -/
inductive Clean : Val → Prop
  | num (x) : Clean (.num x)
  | txt (s) : Clean (.txt s)
  | lst (l) : Clean (.lst l)
  | dic (d : DDic) : DNodup d → (∀ k v, dGet k d = some v → ¬ Key.Internal k) →
      (∀ k v, dGet k d = some v → Clean v) → Clean (.dic d)

/-- all lines from `a` to `b` are blank -/
def BlankFrom (lines : List Str) (a b : Nat) : Prop :=
  a ≤ b ∧ ∀ j, a ≤ j → j < b → ∀ h : j < lines.length, strip lines[j] = []

/-- `Covers lines a spans b`: the ranges of lines `spans` follow each other from `a` to `b` with at most blank lines
before, between and behind them; no range is empty. -/
inductive Covers (lines : List Str) : Nat → List (Nat × Nat) → Nat → Prop
  | nil {a b} : BlankFrom lines a b → Covers lines a [] b
  | cons {a x y sp b} : BlankFrom lines a x → x < y → Covers lines y sp b → Covers lines a ((x, y) :: sp) b

/-- `Loop step stop i s s'`: executing `step i`, `step (i+1)`, ..., `step stop` one after the other leads from `s` to
`s'`; nothing is executed for `stop < i`. -/
inductive Loop {σ : Type} (step : Int → σ → σ → Prop) (stop : Int) : Int → σ → σ → Prop
  | done {i s} : stop < i → Loop step stop i s s
  | next {i s s1 s2} : i ≤ stop → step i s s1 → Loop step stop (i + 1) s1 s2 → Loop step stop i s s2

/-- `BodyRun c body pos s vs s'`: the body of a LIST record that begins at number `pos` of the list takes exactly the
numbers `vs`, one per expression and in this order; PADLINE takes the numbers up to the next multiple of six.  How the
number is given to the expression is the matter of `mapRead`. -/
def BodyRun (c : RCtx) : LBody → Nat → RSt → List PyNum → RSt → Prop
  | .nil, _, s, vs, s' => vs = [] ∧ s' = s
  | .seq a b, pos, s, vs, s' => ∃ v1 v2 s1, vs = v1 ++ v2 ∧ BodyRun c a pos s v1 s1 ∧ BodyRun c b (pos + v1.length) s1 v2 s'
  | .expr e, _, s, vs, s' => ∃ v cur, vs = [v] ∧
      mapRead c.fuel (s.po c) s.outer s.lv [e] [.num v] s.cur = .ok cur ∧ s' = { s with cur := cur }
  | .pad, pos, s, vs, s' => (∃ k, pos + vs.length = 6 * k) ∧ vs.length < 6 ∧ s' = s
  | .loop v a b body, pos, s, vs, s' => ∃ x y s1, loopHead c.fuel s.env v a b = .ok (x, y) ∧
      Loop (fun i (p q : List PyNum × RSt) => ∃ ws, q.1 = p.1 ++ ws ∧
        BodyRun c body (pos + p.1.length) { p.2 with lv := dSet v i p.2.lv } ws q.2) y x ([], s) (vs, s1) ∧
      s' = { s1 with lv := s.lv }

/-- no PADLINE in a list body -/
def NoPad : LBody → Prop
  | .nil | .expr _ => True
  | .pad => False
  | .seq a b => NoPad a ∧ NoPad b
  | .loop _ _ _ body => NoPad body

end Verif.Spec
