import Verif.Spec.Tidy
import Verif.Model.RecipeWrite
/-
Conditions under which writing what has been read succeeds.
-/
namespace Verif.Spec

/-- names of loop variables in a list body -/
def bodyLoops : LBody → List Name
  | .nil | .expr _ | .pad => []
  | .seq a b => bodyLoops a ++ bodyLoops b
  | .loop v _ _ body => v :: bodyLoops body

/-- names of loop variables -/
def loopVars : Prog → List Name
  | .skip | .abbr _ _ => []
  | .seq a b => loopVars a ++ loopVars b
  | .act (.list _ _ body _) => bodyLoops body
  | .act _ => []
  | .sect _ body => loopVars body
  | .loop v _ _ body => v :: loopVars body
  | .ite _ _ t e => loopVars t ++ loopVars e

/-- a writing state with what is known in a reading state -/
def asW (s : RSt) : WSt := { cur := s.cur, ups := s.ups, lv := s.lv }

/-- Along the run: every record could be written with what is known right after it has been read. -/
def Whole (c : RCtx) : Prog → RSt → Prop
  | .skip, _ | .abbr _ _, _ => True
  | .seq a b, s => Whole c a s ∧ ∀ s1, readProg c a s = .ok s1 → Whole c b s1
  | .act a, s => ∀ s', readAct c a s = .ok s' → ∃ r, writeAct c.fuel (asW s') a = .ok r
  | .sect r body, s => ∀ s1, openR s r = .ok s1 → Whole c body { s1 with cur := initWork s1.cur }
  | .loop v a b body, s => ∀ x y, loopHead c.fuel s.env v a b = .ok (x, y) →
      AllIter (RSt.setVar v) (readProg c body) (Whole c body) (intRange x y) s
  | .ite cond none t e, s => (evalCond c.fuel s.env cond = .ok true → Whole c t s) ∧
      (evalCond c.fuel s.env cond = .ok false → Whole c e s)
  | .ite cond (some n) t e, s => ∀ s', readProg c (.ite cond (some n) t e) s = .ok s' →
      (evalCond c.fuel s'.env cond = .ok true → Whole c t s) ∧ (evalCond c.fuel s'.env cond = .ok false → Whole c e s)

end Verif.Spec
