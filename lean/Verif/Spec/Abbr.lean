import Verif.Model.CppAbbr
import Verif.Spec.CppFit
/-
Conditions on a recipe under which its abbreviations can be written out.  They are decidable.
-/
namespace Verif.Spec
open Verif

/-- the abbreviations introduced in a part of a recipe, without those in inner sections -/
def abbrsOf : Prog → List Name
  | .skip | .act _ | .sect _ _ => []
  | .seq a b => abbrsOf a ++ abbrsOf b
  | .loop _ _ _ body => abbrsOf body
  | .ite _ _ t e => abbrsOf t ++ abbrsOf e
  | .abbr n _ => [n]

/-- the abbreviations that are introduced in any case -/
def always (D : List (Name × Expr)) : Prog → List (Name × Expr)
  | .seq a b => always (always D a) b
  | .abbr n e => (n, e) :: D
  | _ => D

/-- no variable of the expression has one of the names -/
def without (N : List Name) (e : Expr) : Bool := e.vars.all fun r => !N.contains r.name

/-- A variable of an expression: none of the names `N`, which may be abbreviations, or an abbreviation that is introduced in any
case, and which the generator knows with the same expression. -/
def refA (N : List Name) (A : Abbs) (D : List (Name × Expr)) (r : VarRef) : Bool :=
  match A.get r with
  | none => !N.contains r.name
  | some x => decide (dGet r.name D = some x) && without N x && !x.hasDesired && !x.hasIncons

def exprA (N : List Name) (A : Abbs) (D : List (Name × Expr)) : Expr → Bool
  | .num _ | .desired _ => true
  | .var r => refA N A D r
  | .incons r => (A.get r).isNone && !N.contains r.name
  | .neg e => exprA N A D e
  | .add a b | .sub a b | .mul a b | .div a b | .mod a b => exprA N A D a && exprA N A D b

/-- `N` are the possible abbreviations of the current section, `O` those of the sections around it -/
def bodyA (N O : List Name) (A : Abbs) (D : List (Name × Expr)) : LBody → Bool
  | .nil | .pad => true
  | .seq a b => bodyA N O A D a && bodyA N O A D b
  | .expr e => exprA N A D e
  | .loop v a b c => !(N ++ O).contains v && exprA (N ++ O) A D a && exprA (N ++ O) A D b && bodyA N O A D c

def nameA (N : List Name) (r : VarRef) : Bool := !N.contains r.name
def ctlA (N : List Name) : Bool := ctlNames.all fun n => !N.contains n

def actA (N O : List Name) (A : Abbs) (D : List (Name × Expr)) : Act → Bool
  | .text _ fs => ctlA N && fs.all fun f => f.ref.all (nameA N)
  | .cont h _ fs => (!h || ctlA N) && fs.all (exprA N A D)
  | .dir _ fs => fs.all (exprA N A D)
  | .intg _ fs nd => fs.all (exprA N A D) && without (N ++ O) nd
  | .tab1 _ fs x y name => fs.all (exprA N A D) && match name with
    | none => nameA N x && nameA N y && !N.contains "NBT" && !N.contains "INT"
    | some r => nameA N r
  | .tab2 _ fs name => fs.all (exprA N A D) && match name with
    | none => !N.contains "NBT" && !N.contains "INT"
    | some r => nameA N r
  | .list _ fs body name => fs.all (exprA N A D) && match name with
    | none => bodyA N O A D body
    | some r => nameA N r && bodyA [] (N ++ O) none [] body
  | .send | .stop => true

def condA (N : List Name) : Cond → Bool
  | .cmp _ a b => without N a && without N b
  | .and a b | .or a b => condA N a && condA N b

/-- Abbreviations are used behind their definition only, not in conditions and not in inner sections, there is no other variable of
the same name in the section, and they are not used in each other.  `L` are the loop variables. -/
def abbrA (N O : List Name) (A : Abbs) (D : List (Name × Expr)) (L : List Name) : Prog → Bool
  | .skip => true
  | .seq a b => abbrA N O A D L a && abbrA (N ++ abbrsOf a) O (A.after a) (always D a) L b
  | .act a => actA N O A D a
  | .sect r body => nameA N r && abbrA [] (N ++ O) none [] L body
  | .loop v a b body => !(N ++ O).contains v && exprA (N ++ O) A D a && exprA (N ++ O) A D b &&
      abbrA (N ++ abbrsOf body) O A D (v :: L) body
  | .ite c l t e => condA (N ++ abbrsOf t ++ O) c && l.all (without (N ++ O)) && abbrA N O A D L t &&
      abbrA N O (if A.isSome then A.after t else none) D L e
  | .abbr n _ => !L.contains n && (dGet n D).isNone

/-- the names of texts -/
def textRefs : Act → List Name
  | .text _ fs => fs.filterMap fun f => f.ref.map VarRef.name
  | _ => []

/-- the names of texts in a recipe -/
def textNames : Prog → List Name
  | .skip | .abbr _ _ => []
  | .act a => textRefs a
  | .seq a b => textNames a ++ textNames b
  | .sect _ b => textNames b
  | .loop _ _ _ b => textNames b
  | .ite _ _ a b => textNames a ++ textNames b

end Verif.Spec
