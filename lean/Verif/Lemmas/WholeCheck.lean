import Verif.Lemmas.TidyCheck
import Verif.Spec.Whole
/-
A computation that decides whether every record can be written right after it has been read.
-/
namespace Verif
open Spec

def wholeB (c : RCtx) : Prog → RSt → Bool
  | .skip, _ | .abbr _ _, _ => true
  | .seq a b, s => wholeB c a s && ifRun (readProg c a s) (wholeB c b)
  | .act a, s => ifRun (readAct c a s) fun s' => resOk (writeAct c.fuel (asW s') a)
  | .sect r body, s => ifOk (openR s r) fun s1 => wholeB c body { s1 with cur := initWork s1.cur }
  | .loop v a b body, s => ifOk (loopHead c.fuel s.env v a b) fun (x, y) =>
      allIterB (RSt.setVar v) (readProg c body) (wholeB c body) (intRange x y) s
  | .ite cond none t e, s => ifOk (evalCond c.fuel s.env cond) fun b => if b then wholeB c t s else wholeB c e s
  | .ite cond (some n) t e, s => ifRun (readProg c (.ite cond (some n) t e) s) fun s' =>
      ifOk (evalCond c.fuel s'.env cond) fun b => if b then wholeB c t s else wholeB c e s

theorem wholeB_ok {c : RCtx} {p : Prog} {s : RSt} (h : wholeB c p s = true) : Whole c p s := by
  induction p generalizing s with
  | skip => trivial
  | abbr n e => trivial
  | seq a b i1 i2 =>
    simp only [wholeB, Bool.and_eq_true] at h
    exact ⟨i1 h.1, fun s1 h1 => i2 (ifRun_ok h.2 h1)⟩
  | act a =>
    intro s' hr
    simp only [wholeB] at h
    have := ifRun_ok h hr
    exact resOk_ok this
  | sect r body ih =>
    intro s1 h1
    simp only [wholeB] at h
    have := ifOk_ok h h1
    exact ih this
  | loop v a b body ih =>
    intro x y hxy
    simp only [wholeB] at h
    have := ifOk_ok h hxy
    exact allIterB_ok (fun s hs => ih hs) _ this
  | ite cond look t e i1 i2 =>
    cases look with
    | none =>
      simp only [wholeB] at h
      exact ⟨fun hc => i1 (by simpa using ifOk_ok h hc), fun hc => i2 (by simpa using ifOk_ok h hc)⟩
    | some n =>
      simp only [wholeB] at h
      intro s' hr
      have h := ifRun_ok h hr
      exact ⟨fun hc => i1 (by simpa using ifOk_ok h hc), fun hc => i2 (by simpa using ifOk_ok h hc)⟩

end Verif
