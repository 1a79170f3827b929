import Verif.Model.CppFun
import Verif.Spec.Tidy
/-
Conditions on a run of the interpreter, under which the compiled parser is compared with it.
-/
namespace Verif.Spec
open Verif

/-- all six fields of the lines from `a` up to `b` are integers of four bytes, or blank -/
def IntLines (lines : List Str) (a b : Nat) : Prop :=
  ∀ j l, a ≤ j → j < b → lines[j]? = some l → ∀ i < 6, ∃ n,
    readFortInt (slice l (11 * i) (11 * i + 11)) = .ok n ∧ intMin ≤ n ∧ n ≤ intMax

/-- the section is new, or empty -/
def NewSub (s : RSt) (r : VarRef) : Prop :=
  ∀ is, r.idx.mapM (idxVal s.lv) = .ok is → subDic (dGet (.var r.name) s.cur) is = .ok []

def NewName (s : RSt) : Option VarRef → Prop
  | none => True
  | some r => NewSub s r

/-- HEAD and TEXT records carry the control numbers `k` of the section; tables and lists are not empty, and the fields of the
interpolation tables are integers; named tables and lists are new. -/
def FitAct (c : RCtx) (k : Ctrl) : Act → RSt → Prop
  | .text _ _, s => ∀ r s1, Next c s (readText c.ro) r s1 → r.ctrl = k
  | .cont true _ _, s => ∀ r s1, Next c s (readCont c.ro) r s1 → r.ctrl = k
  | .tab1 _ fs _ _ name, s => ∀ r s1, Next c s (readTab1 c.ro) r s1 → 1 ≤ slotVal r.head.n1 ∧ 1 ≤ slotVal r.head.n2 ∧
      (∀ ofs, skipBlankLines c.lines s.ofs = .ok ofs →
        IntLines c.lines (ofs + 1) (ofs + 1 + (2 * (slotVal r.head.n1).toNat + 5) / 6)) ∧
      ∀ s2, mapFields c (fs.take 4) (r.head.vals.take 4) s1 = .ok s2 → NewName s2 name
  | .tab2 _ fs name, s => ∀ r s1, Next c s (readTab2 c.ro) r s1 → 1 ≤ slotVal r.head.n1 ∧
      (∀ ofs, skipBlankLines c.lines s.ofs = .ok ofs →
        IntLines c.lines (ofs + 1) (ofs + 1 + (2 * (slotVal r.head.n1).toNat + 5) / 6)) ∧
      ∀ s2, mapFields c (fs.take 4 ++ fs.drop 5) (r.head.vals.take 4 ++ r.head.vals.drop 5) s1 = .ok s2 → NewName s2 name
  | .list _ fs _ name, s => ∀ r s1, Next c s (readList c.ro) r s1 → 1 ≤ slotVal r.head.n1 ∧
      ∀ s2, mapFields c fs r.head.vals s1 = .ok s2 → NewName s2 name
  | _, _ => True

/-- the variables of a condition -/
def Cond.vars : Cond → List VarRef
  | .cmp _ a b => a.vars ++ b.vars
  | .and a b | .or a b => Cond.vars a ++ Cond.vars b

/-- the expressions in the first line of a record -/
def headFields : Act → List Expr
  | .cont _ _ fs | .dir _ fs | .list _ fs _ _ => fs
  | .tab1 _ fs _ _ _ => fs.take 4
  | .tab2 _ fs _ => fs.take 4 ++ fs.drop 5
  | _ => []

/-- the fields in the first `n` records, and the number of records that are missing -/
def lookFields : Prog → Nat → List Expr × Nat
  | _, 0 => ([], 0)
  | .seq a b, n + 1 => ((lookFields a (n + 1)).1 ++ (lookFields b (lookFields a (n + 1)).2).1, (lookFields b (lookFields a (n + 1)).2).2)
  | .act a, n + 1 => (headFields a, n)
  | _, n + 1 => ([], n + 1)

/-- the variable occurs in the first `n` records -/
def LookedAt (x : Name) (p : Prog) (n : Nat) : Prop := ∃ e ∈ (lookFields p n).1, ∃ r ∈ e.vars, r.name = x

/-- names with a meaning of their own -/
def ctlNames : List Name := ["MAT", "MF", "MT"]

/-- the dictionary of the section, if some of its sub-sections are open -/
def outermost (s : RSt) : DDic := ((s.ups.map Prod.fst).getLast?).getD s.cur

/-- control numbers of the condition have been stored -/
def CtlKnown (s : RSt) (cond : Cond) : Prop := ∀ r ∈ Cond.vars cond, r.name ∈ ctlNames → dGet (.var r.name) (outermost s) ≠ none

/-- Along the run: records are as in `FitAct`, and sections are opened for the first time.  Records that are looked at can be read,
and give variables of the condition that have no value yet, and no control numbers of the condition. -/
def Fit (c : RCtx) (k : Ctrl) : Prog → RSt → Prop
  | .skip, _ | .abbr _ _, _ => True
  | .seq a b, s => Fit c k a s ∧ ∀ s1, readProg c a s = .ok s1 → Fit c k b s1
  | .act a, s => FitAct c k a s
  | .sect r body, s => NewSub s r ∧ ∀ s1, openR s r = .ok s1 → Fit c k body { s1 with cur := initWork s1.cur }
  | .loop v a b body, s => ∀ x y, loopHead c.fuel s.env v a b = .ok (x, y) → 0 ≤ x ∧
      AllIter (RSt.setVar v) (readProg c body) (Fit c k body) (intRange x y) s
  | .ite cond none t e, s => CtlKnown s cond ∧ (evalCond c.fuel s.env cond = .ok true → Fit c k t s) ∧ (evalCond c.fuel s.env cond = .ok false → Fit c k e s)
  | .ite cond (some x) t e, s => ∀ n, lookCount c s x = .ok n → ∃ s', readProg c t { s with look := some n, ignoreAll := true } = .ok s' ∧
      (∀ r ∈ Cond.vars cond, LookedAt r.name t n.toNat → dGet r.name s.lv = none → dGet (.var r.name) s.cur = none) ∧
      CtlKnown s cond ∧ (∀ r ∈ Cond.vars cond, r.name ∈ ctlNames → dGet (.var r.name) s'.cur = dGet (.var r.name) s.cur) ∧
      (evalCond c.fuel (s'.envAt s.ups.length) cond = .ok true → Fit c k t s) ∧
      (evalCond c.fuel (s'.envAt s.ups.length) cond = .ok false → Fit c k e s)

end Verif.Spec
