import Verif.Model.Recipe
import Verif.Spec.Linear
/-
What variable references, flags in expressions and conditions mean, independent of the interpreter.
-/
namespace Verif

/-- variable references written in an expression -/
def Expr.refs : Expr → List VarRef
  | .num _ | .desired _ => []
  | .var r | .incons r => [r]
  | .neg e => e.refs
  | .add a b | .sub a b | .mul a b | .div a b | .mod a b => a.refs ++ b.refs

namespace Spec

/-- `At u is v`: following the indices `is` from `u` leads to `v`. -/
inductive At : Val → List Int → Val → Prop
  | here (v : Val) : At v [] v
  | step {d : DDic} {i : Int} {is : List Int} {u v : Val} :
      dGet (.idx i) d = some u → At u is v → At (.dic d) (i :: is) v

/-- an index written as number or loop variable has the value `i` -/
inductive IdxIs (lv : Dict Name Int) : Idx → Int → Prop
  | num (i : Int) : IdxIs lv (.num i) i
  | var {n : Name} {i : Int} : dGet n lv = some i → IdxIs lv (.var n) i

/-- `Sub a e`: `a` occurs in `e`. -/
inductive Sub : Expr → Expr → Prop
  | refl (e : Expr) : Sub e e
  | neg {a e} : Sub a e → Sub a (.neg e)
  | addL {a e f} : Sub a e → Sub a (.add e f)
  | addR {a e f} : Sub a f → Sub a (.add e f)
  | subL {a e f} : Sub a e → Sub a (.sub e f)
  | subR {a e f} : Sub a f → Sub a (.sub e f)
  | mulL {a e f} : Sub a e → Sub a (.mul e f)
  | mulR {a e f} : Sub a f → Sub a (.mul e f)
  | divL {a e f} : Sub a e → Sub a (.div e f)
  | divR {a e f} : Sub a f → Sub a (.div e f)
  | modL {a e f} : Sub a e → Sub a (.mod e f)
  | modR {a e f} : Sub a f → Sub a (.mod e f)

/-- `Linear K U u e`: `e` is built from numbers, known variables (`K`) and at most one unknown (`U`) factor by factor
and term by term; `u` tells whether the unknown occurs. -/
inductive Linear (K U : VarRef → Prop) : Bool → Expr → Prop
  | int (n : Int) : Linear K U false (.num (.int n))
  | flt (q : ℚ) : Linear K U false (.num (.num (.flt q)))
  | known {r} : K r → Linear K U false (.var r)
  | unknown {r} : U r → Linear K U true (.var r)
  | incons {u r} : Linear K U u (.var r) → Linear K U u (.incons r)
  | neg {u e} : Linear K U u e → Linear K U u (.neg e)
  | add {u v a b} : Linear K U u a → Linear K U v b → (u && v) = false → Linear K U (u || v) (.add a b)
  | sub {u v a b} : Linear K U u a → Linear K U v b → (u && v) = false → Linear K U (u || v) (.sub a b)
  | mul {u v a b} : Linear K U u a → Linear K U v b → (u && v) = false → Linear K U (u || v) (.mul a b)

/-- the relation a comparison sign stands for -/
def relTrue : Rel → ℚ → ℚ → Prop
  | .gt, x, y => y < x
  | .lt, x, y => x < y
  | .ne, x, y => x ≠ y
  | .eq, x, y => x = y
  | .ge, x, y => y ≤ x
  | .le, x, y => x ≤ y

/-- Truth of a condition, given the values of the compared expressions; `none` for an expression that refers to an
undefined variable. -/
def Truth (V : Expr → Option ℚ) : Cond → Prop
  | .cmp r a b => ∃ x y, V a = some x ∧ V b = some y ∧ relTrue r x y
  | .and a b => Truth V a ∧ Truth V b
  | .or a b => Truth V a ∨ Truth V b

/-- expressions compared in a condition -/
def condExprs : Cond → List Expr
  | .cmp _ a b => [a, b]
  | .and a b | .or a b => condExprs a ++ condExprs b

end Spec

end Verif
