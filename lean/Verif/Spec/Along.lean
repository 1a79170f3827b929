import Verif.Model.RecipeWrite
import Verif.Spec.Tidy
import Verif.Spec.Same
/-
Reading what has been written: which variables must come back, and under which conditions.
-/
namespace Verif.Spec

/-- a place in a dictionary with dictionaries inside -/
abbrev Path := List Key

/-- what is found at a place -/
def valAt : Val → Path → Option Val
  | v, [] => some v
  | .dic d, k :: ks => match dGet k d with
    | none => none
    | some v => valAt v ks
  | _, _ :: _ => none

/-- numbers, texts and lists of numbers -/
def isLeaf : Val → Bool
  | .num _ | .txt _ | .lst _ => true
  | _ => false

/-- a number that is not zero -/
def nonzero : Expr → Bool
  | .num c => decide (c.val ≠ 0)
  | .neg e => nonzero e
  | _ => false

/-- variables that a field with this expression determines, if it determines any: they are not multiplied by other
variables or by zero, not in a denominator and not under a remainder -/
def firm : Expr → List VarRef
  | .num _ | .desired _ => []
  | .var r | .incons r => [r]
  | .neg e => firm e
  | .add a b | .sub a b => firm a ++ firm b
  | .mul a b => (if nonzero a then firm b else []) ++ (if nonzero b then firm a else [])
  | .div a b => if nonzero b then firm a else []
  | .mod _ _ => []

/-- the place of a variable, relative to the current section -/
def refPath (lv : Dict Name Int) (r : VarRef) : Option Path :=
  match r.idx.mapM (idxVal lv) with
  | .ok is => some (.var r.name :: is.map Key.idx)
  | .error _ => none

/-- the place of a variable with a number, text or list in the current section; loop variables and abbreviations have
none -/
def usesRef (cur : DDic) (lv : Dict Name Int) (r : VarRef) : List Path :=
  if dHas r.name lv then []
  else match refPath lv r with
    | none => []
    | some q => match valAt (.dic cur) q with
      | none => []
      | some v => if isLeaf v then [q] else []

/-- variables determined by the fields of a record -/
def usesFields (cur : DDic) (lv : Dict Name Int) (es : List Expr) : List Path :=
  (es.flatMap firm).flatMap (usesRef cur lv)

/-- union over the iterations of a loop -/
def usesIter {σ : Type} (setVar : Int → σ → σ) (step : σ → Res σ) (f : σ → List Path) : List Int → σ → List Path
  | [], _ => []
  | i :: is, s => f (setVar i s) ++ match step (setVar i s) with
    | .ok s1 => usesIter setVar step f is s1
    | .error _ => []

/-- variables determined by the numbers of a list -/
def usesBody (fuel : Nat) (w : WSt) : LBody → WLSt → List Path
  | .nil, _ | .pad, _ => []
  | .seq a b, l => usesBody fuel w a l ++ match writeBody fuel w a l with
    | .ok l1 => usesBody fuel w b l1
    | .error _ => []
  | .expr e, l => usesFields w.cur l.lv [e]
  | .loop v a b body, l => match loopHead fuel ⟨w.cur, w.outer, l.lv⟩ v a b with
    | .ok (x, y) => usesIter (WLSt.setVar v) (writeBody fuel w body) (usesBody fuel w body) (intRange x y) l
    | .error _ => []

/-- places inside a sub-dictionary -/
def usesIn (name : VarRef) (w : WSt) (f : WSt → List Path) : List Path :=
  match openW w name, refPath w.lv name with
  | .ok w1, some q => (f w1).map (q ++ ·)
  | _, _ => []

def usesTable (name : Option VarRef) (w : WSt) (f : WSt → List Path) : List Path :=
  match name with
  | none => f w
  | some r => usesIn r w f

/-- the control numbers -/
def ctrlPaths : List Path := [[.var "MAT"], [.var "MF"], [.var "MT"]]

/-- variables determined by a record when it is written from the dictionary of `w` -/
def usesAct (fuel : Nat) (w : WSt) : Act → List Path
  | .text _ fs => ctrlPaths ++ (fs.filterMap TextField.ref).flatMap (usesRef w.cur w.lv)
  | .cont isHead _ fs => (if isHead then ctrlPaths else []) ++ usesFields w.cur w.lv fs
  | .dir _ fs | .intg _ fs _ => usesFields w.cur w.lv fs
  | .tab1 _ fs x y name => usesFields w.cur w.lv (fs.take 4) ++
      usesTable name w fun w1 => usesFields w1.cur w1.lv (nbtInt ++ [.var x, .var y])
  | .tab2 _ fs name => usesFields w.cur w.lv (fs.take 4 ++ fs.drop 5) ++
      usesTable name w fun w1 => usesFields w1.cur w1.lv nbtInt
  | .list _ fs body name => usesFields w.cur w.lv fs ++
      usesTable name w fun w1 => usesBody fuel w1 body ⟨[], w1.lv⟩
  | .send | .stop => []

/-- places of the variables determined by the records of a recipe when they are written from the dictionary of `w` -/
def uses (fuel : Nat) : Prog → WSt → List Path
  | .skip, _ | .abbr _ _, _ => []
  | .seq a b, w => uses fuel a w ++ match writeProg fuel a w with
    | .ok w1 => uses fuel b w1
    | .error _ => []
  | .act a, w => usesAct fuel w a
  | .sect r body, w => usesIn r w fun w1 => uses fuel body { w1 with cur := initWork w1.cur }
  | .loop v a b body, w => match loopHead fuel w.env v a b with
    | .ok (x, y) => usesIter (WSt.setVar v) (writeProg fuel body) (uses fuel body) (intRange x y) w
    | .error _ => []
  | .ite cond _ t e, w => match evalCond fuel w.env cond with
    | .ok true => uses fuel t w
    | .ok false => uses fuel e w
    | .error _ => []

/-- the dictionary with MF and MT, as `write` completes it (endf_parser.py:1030-1039) -/
def numbered (mf mt : Int) (d : DDic) : DDic :=
  let d := if dHas (.var "MF") d then d else dSet (.var "MF") (.num (.int mf)) d
  if dHas (.var "MT") d then d else dSet (.var "MT") (.num (.int mt)) d

/-- a condition on pairs of states at the beginning of every iteration of a loop -/
def AllIter₂ {σ τ : Type} (setR : Int → σ → σ) (bodyR : σ → Out σ) (setW : Int → τ → τ) (bodyW : τ → Res τ)
    (P : σ → τ → Prop) : List Int → σ → τ → Prop
  | [], _, _ => True
  | i :: is, s, w => P (setR i s) (setW i w) ∧
      ∀ s1 w1, bodyR (setR i s) = .ok s1 → bodyW (setW i w) = .ok w1 → AllIter₂ setR bodyR setW bodyW P is s1 w1

/-- Control numbers and texts are taken from the current section; only the last field of a TEXT record is without
length. -/
def AlongAct (w : WSt) : Act → Prop
  | .text _ fs => dHas (.var "MAT") w.cur = true ∧ (∀ f ∈ fs.dropLast, f.len ≠ none) ∧
      ∀ f ∈ fs, ∀ r, f.ref = some r → dGet r.name w.lv = none ∧ ∃ t, getVarval ⟨w.cur, [], w.lv⟩ false r = .ok (.txt t)
  | .cont true _ _ => dHas (.var "MAT") w.cur = true
  | _ => True

/-- Along a writing run and the reading run on its output: conditions are decided by variables that have values when they
are read; a condition with lookahead leads the reader to the branch that was written. -/
def Along (c : RCtx) (fuel : Nat) : Prog → RSt → WSt → Prop
  | .skip, _, _ | .abbr _ _, _, _ => True
  | .seq a b, s, w => Along c fuel a s w ∧
      ∀ s1 w1, readProg c a s = .ok s1 → writeProg fuel a w = .ok w1 → Along c fuel b s1 w1
  | .act a, _, w => AlongAct w a
  | .sect r body, s, w => ∀ s1 w1, openR s r = .ok s1 → openW w r = .ok w1 →
      Along c fuel body { s1 with cur := initWork s1.cur } { w1 with cur := initWork w1.cur }
  | .loop v a b body, s, w => ∀ x y, loopHead c.fuel s.env v a b = .ok (x, y) →
      AllIter₂ (RSt.setVar v) (readProg c body) (WSt.setVar v) (writeProg fuel body) (Along c fuel body) (intRange x y) s w
  | .ite cond none t e, s, w => Decided c.fuel s.env cond ∧ (evalCond c.fuel s.env cond = .ok true → Along c fuel t s w) ∧
      (evalCond c.fuel s.env cond = .ok false → Along c fuel e s w)
  | .ite cond (some n) t e, s, w => ∀ s', readProg c (.ite cond (some n) t e) s = .ok s' →
      (evalCond fuel w.env cond = .ok true → readProg c t s = .ok s' ∧ Along c fuel t s w) ∧
      (evalCond fuel w.env cond = .ok false → readProg c e s = .ok s' ∧ Along c fuel e s w)

end Verif.Spec
