import Verif.Lemmas.CppRec
import Verif.Spec.CppFit
/-
Conditions on the code generated for a section, under which the compiled parser is compared with the interpreter.  They are
decidable: for a given recipe they are evaluated.
-/
namespace Verif.Spec
open Verif

def idxOk : Idx → Bool
  | .num i => decide (0 ≤ i)
  | .var _ => true

/-- A variable of a field: a loop variable, or a variable of the current block with the type of the field.  `Γ` gives the
types of the variables, `L` are the loop variables, `D` the variables declared in the block. -/
def refOk (Γ : Kinds) (L : List Name) (D : List VKey) (k : CKind) (r : VarRef) : Bool :=
  if L.contains r.name then r.idx.isEmpty
  else decide (Γ r.name = some (k, r.idx.length)) && D.contains r.key && r.idx.all idxOk

def isCppVal : X → Bool
  | .var y => decide (y = cppVal)
  | _ => false

/-- the expression of a field is a variable that is no loop variable -/
def loneVar (L : List Name) : Expr → Bool
  | .var r | .incons r => !L.contains r.name
  | _ => false

/-- the code for one field -/
def pieceOk (Γ : Kinds) (depth : Nat) (L : List Name) (D : List VKey) (p : Piece) : Bool :=
  p.e.vars.all (refOk Γ L D p.kind) &&
  (p.e.vars.isEmpty || (if p.kind.isNum then p.e.noMod && p.e.toX.isSome else loneVar L p.e)) &&
  p.e.vars.all (fun r => p.e.vars.all fun r' => decide (r.name = r'.name → r = r')) &&
  p.e.vars.all (fun r => decide (r.name ≠ "cpp_val")) &&
  match p.op with
  | .check => p.e.vars.isEmpty
  | .refuse _ _ => true
  | .put g v sol =>
    p.e.vars.contains v &&
    (if L.contains v.name then g
     else p.e.vars.all (fun r => L.contains r.name || decide (r = v) || sol.toks.contains r.xvar) &&
      (if p.kind.isNum then solShape p.kind sol && (match p.e.toX with
        | some x => (match varAssign true depth x v.xvar with
          | .ok _ => true
          | .error _ => false)
        | none => false)
       else isCppVal sol))

/-- A variable of a condition or of a loop bound: a loop variable, or a number that is declared in one of the blocks `Ds`
only, the current one and the ones around it. -/
def boundRefOk (Γ : Kinds) (L : List Name) (Ds : List (List VKey)) (r : VarRef) : Bool :=
  if L.contains r.name then r.idx.isEmpty
  else (match Γ r.name with
    | some (k, ar) => k.isNum && decide (ar = r.idx.length)
    | none => false) && decide ((Ds.filter (·.contains r.key)).length ≤ 1)

def boundOk (Γ : Kinds) (L : List Name) (Ds : List (List VKey)) (e : Expr) : Bool :=
  e.noMod && e.vars.all (boundRefOk Γ L Ds)

def condOk (Γ : Kinds) (L : List Name) (Ds : List (List VKey)) : Cond → Bool
  | .cmp _ a b => boundOk Γ L Ds a && boundOk Γ L Ds b
  | .and a b | .or a b => condOk Γ L Ds a && condOk Γ L Ds b

/-- a value that is not negative -/
def startOk (L : List Name) : Expr → Bool
  | .num (.int n) => decide (0 ≤ n)
  | .var r => L.contains r.name
  | .add a b => startOk L a && startOk L b
  | _ => false

/-- the head of a loop; the loop variable is not used for anything else -/
def headOk (Γ M : Kinds) (L : List Name) (Ds : List (List VKey)) (v : Name) (a b : Expr) : Bool :=
  decide (Γ v = none) && boundOk M L Ds a && boundOk M L Ds b

def lcodeOk (Γ M : Kinds) (depth : Nat) (L : List Name) (D : List VKey) (U : List (List VKey)) : LCode → Bool
  | .nil => true
  | .seq a b => lcodeOk Γ M depth L D U a && lcodeOk Γ M depth L D U b
  | .expr ps => ps.all (pieceOk Γ depth L D)
  | .loop v a b body => headOk Γ M L (D :: U) v a b && startOk L a && lcodeOk Γ M depth (v :: L) D U body

/-- with the types of the control numbers -/
def withCtl (M : Kinds) : Kinds := fun n => if ctlNames.contains n then some (.int, 0) else M n

/-- the name of a section -/
def nameOk (Γ : Kinds) (r : VarRef) : Bool := decide (Γ r.name = none) && !ctlNames.contains r.name

/-! ### types of the variables of a block

In different blocks, and in different branches of a condition, a name may stand for variables of different types. -/

def Piece.kinds (p : Piece) : List (Name × CKind × Nat) := match p.op with
  | .put _ v _ | .refuse _ v => [(v.name, p.kind, v.idx.length)]
  | .check => []

def LCode.kinds : LCode → List (Name × CKind × Nat)
  | .nil => []
  | .seq a b => LCode.kinds a ++ LCode.kinds b
  | .expr ps => ps.flatMap Piece.kinds
  | .loop _ _ _ b => LCode.kinds b

def LCode.loops : LCode → List Name
  | .seq a b => LCode.loops a ++ LCode.loops b
  | .loop v _ _ b => v :: LCode.loops b
  | _ => []

/-- a choice of branches at the conditions of a block that are not in loops; `any` leaves open all that follow -/
inductive Way where
  | any
  | seq (a b : Way)
  | thn (a : Way)
  | els (a : Way)

def Way.fst : Way → Way
  | .seq a _ => a
  | _ => .any

def Way.snd : Way → Way
  | .seq _ b => b
  | _ => .any

def ways : Code → List Way
  | .seq a b => (ways a).flatMap fun x => (ways b).map (Way.seq x)
  | .ite _ a b | .look _ _ a b => (ways a).map .thn ++ (ways b).map .els
  | _ => [.any]

/-- the variables assigned in a block, with their types -/
def Code.wayKinds : Code → Way → List (Name × CKind × Nat)
  | .skip, _ | .send, _ | .sect _ _ _, _ => []
  | .seq a b, w => Code.wayKinds a w.fst ++ Code.wayKinds b w.snd
  | .text fs, _ => fs.flatMap fun x => x.2.2.flatMap Piece.kinds
  | .cont ps, _ => ps.flatMap Piece.kinds
  | .tab1 ps cs name, _ | .tab2 ps cs name, _ => ps.flatMap Piece.kinds ++ if name.isNone then cs.flatMap Piece.kinds else []
  | .list ps b name, _ => ps.flatMap Piece.kinds ++ if name.isNone then LCode.kinds b else []
  | .loop _ _ _ b, _ => Code.wayKinds b .any
  | .ite _ a b, w | .look _ _ a b, w => match w with
    | .thn x => Code.wayKinds a x
    | .els x => Code.wayKinds b x
    | _ => Code.wayKinds a .any ++ Code.wayKinds b .any

/-- the loop variables of a block -/
def Code.blockLoops : Code → List Name
  | .seq a b => Code.blockLoops a ++ Code.blockLoops b
  | .loop v _ _ b => v :: Code.blockLoops b
  | .ite _ a b | .look _ _ a b => Code.blockLoops a ++ Code.blockLoops b
  | .list _ b name => if name.isNone then LCode.loops b else []
  | _ => []

/-- the types in a block where the variables `ks` are assigned -/
def over (Γ : Kinds) (loops : List Name) (ks : List (Name × CKind × Nat)) : Kinds := fun n =>
  if loops.contains n then none else match ks.find? (·.1 == n) with
    | some x => some x.2
    | none => Γ n

/-- the types in a block with the branches `w` -/
def wayΓ (Γ : Kinds) (c : Code) (w : Way) : Kinds := over Γ (Code.blockLoops c) (Code.wayKinds c w ++ Code.wayKinds c .any)

/-- the types that are the same in several blocks -/
def meet (M Γ : Kinds) : Kinds := fun n => if Γ n = M n then M n else none

def ctlFree (Γ : Kinds) : Bool := ctlNames.all fun n => (Γ n).isNone

/-- for all choices of branches -/
def allWays (c : Code) (f : Way → Bool) : Bool := f .any || (ways c).all f

/-- A part that may be in a block of its own, where the variables `ks` are assigned.  `Γ` are the types of the current block, `M`
the types that are the same in the current block and the ones around it. -/
def blockOk (Γ M : Kinds) (D : List VKey) (U : List (List VKey)) (name : CName) (loops : List Name) (ks : List (Name × CKind × Nat))
    (f : Kinds → Kinds → List VKey → List (List VKey) → Bool) : Bool :=
  match name with
  | none => f Γ M D U
  | some (r, defs) => nameOk Γ r && ctlFree (over Γ loops ks) && f (over Γ loops ks) (meet M (over Γ loops ks)) defs (D :: U)

/-- one part of a TEXT record: a text within the line is assigned to a variable -/
def textOk (Γ : Kinds) (L : List Name) (D : List VKey) : Nat × Nat × List Piece → Bool
  | (ofs, n, [⟨_, .txt, .var r, .put _ v sol⟩]) =>
    decide (ofs + n ≤ 66) && !L.contains r.name && refOk Γ L D .txt r && decide (v = r) && isCppVal sol
  | _ => false

/-- a piece of code during a lookahead: variables have a type, the one that is assigned is declared in the block -/
def lookPieceOk (Γ : Kinds) (L : List Name) (D : List VKey) (p : Piece) : Bool :=
  p.e.vars.all (fun r => L.contains r.name || (Γ r.name).isSome) &&
  match p.op with
  | .check | .refuse _ _ => true
  | .put g v _ => p.e.vars.contains v && if L.contains v.name then g else D.contains v.key

/-- the variable occurs in the field -/
def mentions (n : Name) (p : Piece) : Bool := p.e.vars.any (·.name == n)

/-- the variable is assigned -/
def putsVar (n : Name) (p : Piece) : Bool :=
  match p.op with
  | .put _ v _ => v.name == n
  | _ => false

/-- the field gives the value of the variable -/
def takesVar (Γ : Kinds) (D : List VKey) (n : Name) (p : Piece) : Bool :=
  decide (Γ n = some (p.kind, 0)) && p.kind.isNum && D.contains (n, 0) && (match p.e with
    | .var r | .incons r => decide (r = ⟨n, []⟩)
    | _ => false) &&
  match p.op with
  | .put _ _ sol => isCppVal sol
  | _ => false

/-- the variable is assigned unless it has a value -/
def guardsVar (n : Name) (p : Piece) : Bool :=
  match p.op with
  | .put true v _ => decide (v = ⟨n, []⟩)
  | _ => false

/-- A variable in the records of a lookahead: the first field in which it occurs gives its value, and it is not assigned again. -/
def nameLook (Γ : Kinds) (D : List VKey) (n : Name) : List (List Piece) → Bool
  | [] => true
  | ps :: rest =>
    if ps.any (mentions n) then
      ps.any (fun p => takesVar Γ D n p && (ps.all fun q => !mentions n q || (takesVar Γ D n q && q.fld == p.fld) ||
        (decide (p.fld < q.fld) && (!putsVar n q || guardsVar n q))) &&
          (ps.find? (putsVar n)).any fun q => takesVar Γ D n q && q.fld == p.fld) && rest.all fun qs => qs.all fun q => !putsVar n q
    else nameLook Γ D n rest

/-- A lookahead before the condition `c`. -/
def lookOk (Γ : Kinds) (L : List Name) (D : List VKey) (steps : List (List Piece)) (c : Cond) : Bool :=
  steps.all (fun ps => ps.all (lookPieceOk Γ L D)) && (Cond.vars c).all fun r => L.contains r.name || ctlNames.contains r.name || nameLook Γ D r.name steps

/-- The code of a section; `fin` tells that it is the end of the section, only there may be a SEND record. -/
def codeOk (Γ M : Kinds) (depth : Nat) (fin : Bool) (L : List Name) (D : List VKey) (U : List (List VKey)) : Code → Way → Bool
  | .skip, _ => true
  | .seq a b, w => codeOk Γ M depth false L D U a w.fst && codeOk Γ M depth fin L D U b w.snd
  | .text fs, _ => fs.all (textOk Γ L D)
  | .cont ps, _ => ps.all (pieceOk Γ depth L D)
  | .tab1 ps cols name, _ | .tab2 ps cols name, _ =>
    ps.all (pieceOk Γ depth L D) && blockOk Γ M D U name [] (cols.flatMap Piece.kinds) fun Γ _ D _ => cols.all (pieceOk Γ depth L D)
  | .list ps body name, _ =>
    ps.all (pieceOk Γ depth L D) && blockOk Γ M D U name (LCode.loops body) (LCode.kinds body) fun Γ M D U => lcodeOk Γ M depth L D U body
  | .send, _ => fin
  | .sect r defs body, _ => nameOk Γ r && allWays body fun w => ctlFree (wayΓ Γ body w) &&
      codeOk (wayΓ Γ body w) (meet M (wayΓ Γ body w)) depth false L defs (D :: U) body w
  | .loop v a b body, _ => headOk Γ M L (D :: U) v a b && codeOk Γ M depth false (v :: L) D U body .any
  | .ite c thn els, w => condOk (withCtl M) L (D :: U) c && match w with
    | .thn x => codeOk Γ M depth fin L D U thn x
    | .els x => codeOk Γ M depth fin L D U els x
    | _ => codeOk Γ M depth fin L D U thn .any && codeOk Γ M depth fin L D U els .any
  | .look steps c thn els, w => condOk (withCtl M) L (D :: U) c && lookOk Γ L D steps c && match w with
    | .thn x => codeOk Γ M depth fin L D U thn x
    | .els x => codeOk Γ M depth fin L D U els x
    | _ => codeOk Γ M depth fin L D U thn .any && codeOk Γ M depth fin L D U els .any

/-- the recipe ends with a SEND record -/
def endsSend : Prog → Bool
  | .seq _ b => endsSend b
  | .act .send => true
  | .ite _ _ t e => endsSend t && endsSend e
  | _ => false

/-- the recipe does not end with a SEND record -/
def endsPlain : Prog → Bool
  | .seq _ b => endsPlain b
  | .act .send => false
  | .ite _ _ t e => endsPlain t && endsPlain e
  | _ => true

/-- HEAD and TEXT records are not inside sections -/
def topOk : Bool → Prog → Bool
  | _, .skip | _, .abbr _ _ => true
  | top, .seq a b => topOk top a && topOk top b
  | top, .act a => match a with
    | .text _ _ | .cont true _ _ => top
    | _ => true
  | _, .sect _ body => topOk false body
  | top, .loop _ _ _ body => topOk top body
  | top, .ite _ _ t e => topOk top t && topOk top e

/-- there is a HEAD or TEXT record that is always read; at a stop instruction the interpreter does not return a section -/
def headed : Prog → Bool
  | .seq a b => headed a || headed b
  | .act (.text _ _) | .act (.cont true _ _) | .act .stop => true
  | .ite _ _ t e => headed t && headed e
  | _ => false

end Verif.Spec
