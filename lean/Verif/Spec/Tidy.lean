import Verif.Model.Recipe
import Verif.Spec.Scope
/-
Conditions under which what has been read can be written again.
-/
namespace Verif.Spec

/-- `Nested top ch d`: the dictionary `d` is inside `top`; `ch` are the dictionaries around it, innermost first. -/
inductive Nested (top : DDic) : List DDic → DDic → Prop
  | top : Nested top [] top
  | inner {ch d k d'} : Nested top ch d → dGet k d = some (.dic d') → Nested top (d :: ch) d'

/-- none of the names belongs to a variable of `top` and to another one in a dictionary inside it -/
def Unshadowed (ns : List Name) (top : DDic) : Prop :=
  ∀ ch d, Nested top ch d → ∀ n ∈ ns, dHas (.var n) d = true → ∀ d' ∈ ch, dHas (.var n) d' = false

/-- no variable has one of the names -/
def Unused (ns : List Name) (top : DDic) : Prop :=
  ∀ ch d, Nested top ch d → ∀ n ∈ ns, dHas (.var n) d = false

/-- control numbers are the same wherever there are any -/
def CtrlAll (k : Ctrl) (top : DDic) : Prop :=
  ∀ ch d, Nested top ch d → dHas (.var "MAT") d = true →
    dGet (.var "MAT") d = some (.num (.int k.mat)) ∧ dGet (.var "MF") d = some (.num (.int k.mf)) ∧
    dGet (.var "MT") d = some (.num (.int k.mt))

/-- names of variables in expressions -/
def exprNames (e : Expr) : List Name := e.refs.map VarRef.name

/-- names of variables in a condition -/
def condNames : Cond → List Name
  | .cmp _ a b => exprNames a ++ exprNames b
  | .and a b | .or a b => condNames a ++ condNames b

/-- names of variables in loop bounds of a list body -/
def bodyNames : LBody → List Name
  | .nil | .expr _ | .pad => []
  | .seq a b => bodyNames a ++ bodyNames b
  | .loop _ a b body => exprNames a ++ exprNames b ++ bodyNames body

/-- names of variables in a record that are searched for in the enclosing dictionaries too -/
def actNames : Act → List Name
  | .intg _ _ nd => exprNames nd
  | .list _ _ body _ => bodyNames body
  | _ => []

/-- names of variables that are searched for in the enclosing dictionaries too: conditions, loop bounds, number of digits
of INTG records, abbreviations -/
def looked : Prog → List Name
  | .skip => []
  | .seq a b => looked a ++ looked b
  | .act a => actNames a
  | .sect _ body => looked body
  | .loop _ a b body => exprNames a ++ exprNames b ++ looked body
  | .ite c _ t e => condNames c ++ looked t ++ looked e
  | .abbr _ e => exprNames e

/-- names of abbreviations -/
def abbrs : Prog → List Name
  | .skip | .act _ => []
  | .seq a b => abbrs a ++ abbrs b
  | .sect _ body => abbrs body
  | .loop _ _ _ body => abbrs body
  | .ite _ _ t e => abbrs t ++ abbrs e
  | .abbr n _ => [n]

/-- records have as many fields as the grammar demands -/
def ActWF : Act → Prop
  | .text _ _ | .send | .stop => True
  | .cont _ _ fs | .tab1 _ fs _ _ _ | .tab2 _ fs _ | .list _ fs _ _ => fs.length = 6
  | .dir _ fs => fs.length = 4
  | .intg _ fs _ => fs.length = 3

def WF : Prog → Prop
  | .skip | .abbr _ _ => True
  | .seq a b => WF a ∧ WF b
  | .act a => ActWF a
  | .sect _ body => WF body
  | .loop _ _ _ body => WF body
  | .ite _ _ t e => WF t ∧ WF e

/-- no deviation between expected and actual values is tolerated -/
def Strict (po : POpts) : Prop :=
  po.fuzzy = false ∧ po.ignoreZero = false ∧ po.ignoreNumber = false ∧ po.ignoreVarspec = false

/-- the variable has no value yet -/
def NoValue (cur : DDic) (lv : Dict Name Int) (r : VarRef) : Prop :=
  getVarval ⟨cur, [], lv⟩ false r = .error .variableNotFound ∨ getVarval ⟨cur, [], lv⟩ false r = .error .unavailableIndex

/-- The comparisons that decide a condition are between variables with values. -/
def Decided (fuel : Nat) (env : Env) : Cond → Prop
  | .cmp _ a b => ∃ x y, evalKnown fuel env true true a = .ok x ∧ evalKnown fuel env true true b = .ok y
  | .and a b => Decided fuel env a ∧ (evalCond fuel env a = .ok true → Decided fuel env b)
  | .or a b => Decided fuel env a ∧ (evalCond fuel env a = .ok false → Decided fuel env b)

/-- The text fields cover the whole line, every variable gets its first value, and what is skipped is blank. -/
def TextOk (lv : Dict Name Int) (full : Str) : List TextField → Nat → DDic → Prop
  | [], pos, _ => full.length ≤ pos
  | f :: fs, pos, cur =>
    let upper := match f.len with
      | none => full.length
      | some n => pos + n
    match f.ref with
    | none => slice full pos upper = List.replicate (upper - pos) ' ' ∧ TextOk lv full fs upper cur
    | some r => NoValue cur lv r ∧
        ∀ cur', setVarval cur lv r (.txt (slice full pos upper)) = .ok cur' → TextOk lv full fs upper cur'

/-- no other value is stored as MAT, MF or MT -/
def CtrlFree (k : Ctrl) (cur : DDic) : Prop :=
  (∀ v, dGet (.var "MAT") cur = some v → v = .num (.int k.mat)) ∧
  (∀ v, dGet (.var "MF") cur = some v → v = .num (.int k.mf)) ∧
  (∀ v, dGet (.var "MT") cur = some v → v = .num (.int k.mt))

/-- a condition on the state at the beginning of every iteration of a loop -/
def AllIter {σ : Type} (setVar : Int → σ → σ) (body : σ → Out σ) (P : σ → Prop) : List Int → σ → Prop
  | [], _ => True
  | i :: is, s => P (setVar i s) ∧ ∀ s1, body (setVar i s) = .ok s1 → AllIter setVar body P is s1

/-- The numbers skipped by PADLINE are there and are zero. -/
def TidyBody (c : RCtx) (vals : List PyNum) : LBody → LSt → Prop
  | .nil, _ | .expr _, _ => True
  | .seq a b, l => TidyBody c vals a l ∧ ∀ l1, readBody c vals a l = .ok l1 → TidyBody c vals b l1
  | .pad, l => l.pos + (6 - l.pos % 6) % 6 ≤ vals.length ∧
      ∀ j v, l.pos ≤ j → j < l.pos + (6 - l.pos % 6) % 6 → vals[j]? = some v → v.val = 0
  | .loop v a b body, l => ∀ x y, loopHead c.fuel l.st.env v a b = .ok (x, y) →
      AllIter (LSt.setVar v) (readBody c vals body) (TidyBody c vals body) (intRange x y) l

/-- the record found at the current position, and the state behind it -/
def Next {α : Type} (c : RCtx) (s : RSt) (rd : List Str → Nat → Res (α × Nat)) (r : α) (s' : RSt) : Prop :=
  ∃ ofs ofs', skipBlankLines c.lines s.ofs = .ok ofs ∧ rd c.lines ofs = .ok (r, ofs') ∧
    s' = { s with ofs := ofs', spans := s.spans ++ [(ofs, ofs')] }

/-- TEXT, HEAD and LIST records for which nothing is lost -/
def TidyAct (c : RCtx) : Act → RSt → Prop
  | .text _ fs, s => ∀ r s1, Next c s (readText c.ro) r s1 → TextOk s.lv r.hl fs 0 s.cur ∧
      ∀ cur, mapTextRead s.lv r.hl fs 0 s.cur = .ok cur → CtrlFree r.ctrl cur
  | .cont true _ fs, s => ∀ r s1, Next c s (readCont c.ro) r s1 → ∀ s2, mapFields c fs r.vals s1 = .ok s2 →
      CtrlFree r.ctrl s2.cur
  | .list _ fs body name, s => ∀ r s1, Next c s (readList c.ro) r s1 → ∀ s2, mapFields c fs r.head.vals s1 = .ok s2 →
      match name with
      | none => TidyBody c (r.vals.map PyNum.num) body ⟨0, s2⟩
      | some ref => ∀ s3, openR s2 ref = .ok s3 → TidyBody c (r.vals.map PyNum.num) body ⟨0, s3⟩
  | _, _ => True

/-- the abbreviations are the same in both dictionaries -/
def SameAbbrs (d d' : DDic) : Prop := ∀ n e, dGet (.var n) d = some (.abb e) ↔ dGet (.var n) d' = some (.abb e)

/-- Along the run: records are as in `TidyAct`; conditions are decided by variables with values; and a condition with
lookahead, evaluated when the branch is finished, gives the branch that was taken. -/
def Tidy (c : RCtx) : Prog → RSt → Prop
  | .skip, _ | .abbr _ _, _ => True
  | .seq a b, s => Tidy c a s ∧ ∀ s1, readProg c a s = .ok s1 → Tidy c b s1
  | .act a, s => TidyAct c a s
  | .sect r body, s => ∀ s1, openR s r = .ok s1 → Tidy c body { s1 with cur := initWork s1.cur }
  | .loop v a b body, s => ∀ x y, loopHead c.fuel s.env v a b = .ok (x, y) →
      AllIter (RSt.setVar v) (readProg c body) (Tidy c body) (intRange x y) s
  | .ite cond none t e, s => Decided c.fuel s.env cond ∧ (evalCond c.fuel s.env cond = .ok true → Tidy c t s) ∧
      (evalCond c.fuel s.env cond = .ok false → Tidy c e s)
  | .ite cond (some n) t e, s => ∀ s', readProg c (.ite cond (some n) t e) s = .ok s' →
      Decided c.fuel s'.env cond ∧ SameAbbrs s.cur s'.cur ∧
      ((evalCond c.fuel s'.env cond = .ok true ∧ readProg c t s = .ok s' ∧ Tidy c t s) ∨
       (evalCond c.fuel s'.env cond = .ok false ∧ readProg c e s = .ok s' ∧ Tidy c e s))

end Verif.Spec
