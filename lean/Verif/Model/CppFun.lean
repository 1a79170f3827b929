import Verif.Model.CppArr
import Verif.Model.Recipe
import Verif.Model.Trafo

/-! The functions of the compiled parser that read one section: what the generator makes from a recipe
(compiler/code_generator_core.py, code_generator_parsing.py), and what the generated C++ code does.

Abbreviations are written out before (CppAbbr.lean).

Not modelled: INTG records, and lookahead at texts, bodies of tables and lists, loops or sections (`compile` gives `none`);
variables that are registered with two types, which are several C++ variables (here one), and for which the code keeps the type that was read last (cpp_types/cpp_vartype_handling.py); the class `Matrix2d`, which
is used instead of `NestedVector` for some variables with two indices (C82); `preserve_value_strings`; lists in place of
dictionaries (`array_type`, C68).  Doubles are exact rationals. -/

namespace Verif

/-- `dtype` of an assignment (code_generator_core.py:492,535,674-677,803): float, int, str, intvec, floatvec -/
inductive CKind where
  | flt | int | txt | ivec | fvec
  deriving DecidableEq, Repr

/-- what `VariableToken.__hash__` and the value of the token distinguish in sets and dictionaries (expr_utils/custom_nodes.py:53-64): the name and the number of indices -/
abbrev VKey := Name × Nat

def VarRef.key (r : VarRef) : VKey := (r.name, r.idx.length)

/-! ### expressions in the generator -/

/-- expr_utils/equation_utils.py:51-59 `get_variables_in_expr`, with repetitions -/
def Expr.vars : Expr → List VarRef
  | .num _ | .desired _ => []
  | .var r | .incons r => [r]
  | .neg e => e.vars
  | .add a b | .sub a b | .mul a b | .div a b | .mod a b => a.vars ++ b.vars

def Idx.text : Idx → Str
  | .var n => n.toList
  | .num i => intStr i

/-- the token of a variable -/
def VarRef.xvar (r : VarRef) : XVar := ⟨r.name.toList, r.idx.map Idx.text⟩

/-- expr_utils/conversion.py:59-63 `convert_to_exprtree`.  Simplified: literals that are no integers are not modelled (only needed for
fields with variables); for desired numbers `DesiredNumberToken` (expr_utils/custom_nodes.py:16-19) raises a
TypeError (expr_utils/conversion.py:25). -/
def Expr.toX : Expr → Option X
  | .num (.int n) => if 0 ≤ n then some (.num (intStr n)) else none
  | .num _ => none
  | .desired _ => none
  | .var r | .incons r => some (.var r.xvar)
  | .neg e => do return .neg (← e.toX)
  | .add a b => do return .add [← a.toX, ← b.toX]
  | .sub a b => do return .sub (← a.toX) (← b.toX)
  | .mul a b => do return .mul [← a.toX, ← b.toX]
  | .div a b => do return .div (← a.toX) (← b.toX)
  | .mod a b => do return .mod (← a.toX) (← b.toX)

/-- a Python set of variables: the first of several tokens that are not distinguished -/
def dedupVars : List VarRef → List VarRef
  | [] => []
  | r :: rs => r :: (dedupVars rs).filter (·.key ≠ r.key)

/-- insertion into a sorted list; tokens are compared as texts, that is by name -/
def insVar (r : VarRef) : List VarRef → List VarRef
  | [] => [r]
  | x :: xs => if r.name.toList ≤ x.name.toList then r :: x :: xs else x :: insVar r xs

/-- `sorted(variables)` (code_generator_core.py:243).  Simplified: for tokens of the same name, with different numbers of
indices, Python keeps the order of the set. -/
def sortVars : List VarRef → List VarRef
  | [] => []
  | r :: rs => insVar r (sortVars rs)

/-! ### generated code -/

/-- what is done with the value of a field -/
inductive POp where
  /-- `cpp_validate_field` -/
  | check
  /-- assignment of the solution `sol` to `v`, in the branch `! did_read(v)` of an if statement whose other branch validates
  if `guard` is set (code_generator_core.py:251-269) -/
  | put (guard : Bool) (v : VarRef) (sol : X)
  /-- the same with a throw statement in place of the assignment (code_generator_core.py:167-186) -/
  | refuse (guard : Bool) (v : VarRef)

/-- code for one field: its position, `dtype`, and expression -/
structure Piece where
  fld : Nat
  kind : CKind
  e : Expr
  op : POp

inductive LCode where
  | nil
  | seq (a b : LCode)
  | expr (ps : List Piece)
  | loop (v : Name) (start stop : Expr) (body : LCode)

/-- the block of a section: name, and the variables declared at its begin -/
abbrev CName := Option (VarRef × List VKey)

inductive Code where
  | skip
  | seq (a b : Code)
  | text (fs : List (Nat × Nat × List Piece))
  | cont (ps : List Piece)
  | tab1 (ps cols : List Piece) (name : CName)
  | tab2 (ps cols : List Piece) (name : CName)
  | list (ps : List Piece) (body : LCode) (name : CName)
  | send
  | sect (r : VarRef) (defs : List VKey) (body : Code)
  | loop (v : Name) (start stop : Expr) (body : Code)
  | ite (c : Cond) (thn els : Code)
  /-- a condition behind a lookahead at the records in `steps` -/
  | look (steps : List (List Piece)) (c : Cond) (thn els : Code)

/-! ### the generator -/

/-- an entry of `vardict` (variable_management.py:17-23); `loop` marks the type `loopvartype` -/
structure VDef where
  key : VKey
  loop : Bool
  deriving DecidableEq

/-- `vardict` and the dictionaries reached through `__up` -/
abbrev VDicts := List (List VDef)

/-- variable_management.py:55-63 `find_parent_dict`: the entry found -/
def vfind (k : VKey) : VDicts → Option VDef
  | [] => none
  | d :: ds => match d.find? (·.key = k) with
    | some x => some x
    | none => vfind k ds

/-- variable_management.py:17-23 `register_var` -/
def vreg (x : VDef) : VDicts → VDicts
  | [] => []
  | d :: ds => (if d.any (·.key = x.key) then d else d ++ [x]) :: ds

/-- variable_management.py:26-32 `unregister_var` -/
def vunreg (k : VKey) : VDicts → VDicts
  | [] => []
  | d :: ds => d.filter (·.key ≠ k) :: ds

/-- exceptions of the generator -/
inductive GErr where
  | several      -- SeveralUnknownVariablesError
  | modulo       -- ModuloEquationError
  | multiple     -- MultipleVariableOccurrenceError
  | other        -- any other, or not modelled
  deriving DecidableEq

/-- expr_utils/equation_utils.py:127-135 `get_varassign_from_expr` for a field; `depth` bounds the recursion, see `varAssign` -/
def solFor (depth : Nat) (e : Expr) (v : VarRef) : Except GErr X :=
  match e.toX with
  | none => .error .other
  | some x => match varAssign false depth x v.xvar with
    | .ok (_, r) => .ok r
    | .error .modulo => .error .modulo
    | .error .multiple => .error .multiple
    | .error _ => .error .other

/-- has_loopvartype (cpp_types/cpp_vartype_handling.py:124-135) -/
def isLoopVar (k : VKey) (ds : VDicts) : Bool := (vfind k ds).any (·.loop)

/-- code_generator_core.py:243-270: the loop over the sorted variables.  What has been registered stays registered if an
exception is raised.  A loop variable is not assigned (cpp_types/cpp_type_scalar/assign.py:56-57). -/
def genVars (depth fld : Nat) (kind : CKind) (e : Expr) (throwCpp : Bool) (all : List VarRef) :
    List VarRef → VDicts → VDicts × Except GErr (List Piece)
  | [], ds => (ds, .ok [])
  | v :: vs, ds =>
    if (all.filter (·.key ≠ v.key)).any (fun w => (vfind w.key ds).isNone) then genVars depth fld kind e throwCpp all vs ds
    else
      let guard := (vfind v.key ds).isSome
      let ds1 := if isLoopVar v.key ds then ds else vreg ⟨v.key, false⟩ ds
      match solFor depth e v with
      | .ok sol =>
        match genVars depth fld kind e throwCpp all vs ds1 with
        | (ds2, .ok ps) => (ds2, .ok (⟨fld, kind, e, .put guard v sol⟩ :: ps))
        | r => r
      | .error err =>
        if throwCpp ∧ (err = .modulo ∨ err = .multiple) then
          match genVars depth fld kind e throwCpp all vs (if err = .multiple then ds1 else ds) with
          | (ds2, .ok ps) => (ds2, .ok (⟨fld, kind, e, .refuse guard v⟩ :: ps))
          | r => r
        else (ds, .error err)

/-- code_generator_core.py:223-270 `generate_code_for_varassign` -/
def genField (depth fld : Nat) (kind : CKind) (e : Expr) (throwCpp : Bool) (ds : VDicts) :
    VDicts × Except GErr (List Piece) :=
  if e.hasDesired then (ds, .error .other)
  else
    let vs := dedupVars e.vars
    if vs.isEmpty then (ds, .ok [⟨fld, kind, e, .check⟩])
    else if 1 < (vs.filter fun v => (vfind v.key ds).isNone).length then (ds, .error .several)
    else genVars depth fld kind e throwCpp vs (sortVars vs) ds

/-- code_generator_core.py:478-510 `generate_code_from_record_fields`: a queue of fields; fields that cannot be handled yet
are put at its end.  `fuel` bounds the number of turns, which the two limits on `num_failures` do in the code. -/
def genFields (depth : Nat) : Nat → Nat → Bool → List (Nat × Expr) → VDicts → Option (List Piece × VDicts)
  | _, _, _, [], ds => some ([], ds)
  | 0, _, _, _ :: _, _ => none
  | fuel + 1, fails, throwCpp, (i, e) :: q, ds =>
    match genField depth i (if i < 2 then .flt else .int) e throwCpp ds with
    | (ds1, .ok ps) => do
      let (ps', ds2) ← genFields depth fuel fails throwCpp q ds1
      return (ps ++ ps', ds2)
    | (ds1, .error .several) => if 10 < fails + 1 then none else genFields depth fuel (fails + 1) throwCpp (q ++ [(i, e)]) ds1
    | (ds1, .error .modulo) | (ds1, .error .multiple) =>
      genFields depth fuel (fails + 1) (throwCpp || decide (15 < fails + 1)) (q ++ [(i, e)]) ds1
    | (_, .error .other) => none

/-- the fields of a record, numbered from `ofs`, without the ones that are skipped -/
def genRecord (depth ofs : Nat) (skip : List Nat) (fs : List Expr) (ds : VDicts) : Option (List Piece × VDicts) :=
  let q := (fs.zipIdx ofs).filterMap fun (e, i) => if i ∈ skip then none else some (i, e)
  genFields depth (q.length + 40) 0 false q ds

/-- assignments to several variables one after the other, where exceptions are not caught -/
def genCols (depth : Nat) : List (Nat × CKind × VarRef) → VDicts → Option (List Piece × VDicts)
  | [], ds => some ([], ds)
  | (i, k, r) :: cs, ds =>
    match genField depth i k (.var r) false ds with
    | (ds1, .ok ps) => do
      let (ps', ds2) ← genCols depth cs ds1
      return (ps ++ ps', ds2)
    | (_, .error _) => none

/-- code_generator_core.py:513-541 `generate_code_for_text` -/
def genText (depth : Nat) : List TextField → Bool → Nat → VDicts → Option (List (Nat × Nat × List Piece) × VDicts)
  | [], _, _, ds => some ([], ds)
  | f :: fs, first, ofs, ds =>
    if !first && f.len.isNone then none
    else match f.ref with
      | none => match f.len with
        | none => none
        | some n => genText depth fs false (ofs + n) ds
      | some r =>
        let n := f.len.getD 66
        match genField depth 0 .txt (.var r) false ds with
        | (ds1, .ok ps) => do
          let (r, ds2) ← genText depth fs false (ofs + n) ds1
          return ((ofs, n, ps) :: r, ds2)
        | (_, .error _) => none

/-- all variables are registered, else VariableMissingError (cpp_types/cpp_varops_query.py:63-71); the same for the indices -/
def Idx.known (ds : VDicts) : Idx → Bool
  | .num _ => true
  | .var n => (vfind (n, 0) ds).isSome
def VarRef.known (ds : VDicts) (r : VarRef) : Bool := (vfind r.key ds).isSome && r.idx.all (Idx.known ds)
/-- desired numbers raise a TypeError, see `Expr.toX` -/
def Expr.known (ds : VDicts) (e : Expr) : Bool := !e.hasDesired && e.vars.all (VarRef.known ds)
def Cond.known (ds : VDicts) : Cond → Bool
  | .cmp _ a b => a.known ds && b.known ds
  | .and a b | .or a b => a.known ds && b.known ds

/-- code_generator_core.py:828-837: the head of a loop; the loop variable is registered -/
def loopEnter (v : Name) (a b : Expr) (ds : VDicts) : Option VDicts :=
  if a.known ds && b.known ds && !(ds.headD []).any (·.key = (v, 0)) then some (vreg ⟨(v, 0), true⟩ ds) else none

/-- code_generator_core.py:795-853 `generate_code_for_list_body`, `generate_code_for_list_loop`; LINEPADDING raises a
NotImplementedError -/
def genBody (depth : Nat) : LBody → VDicts → Option (LCode × VDicts)
  | .nil, ds => some (.nil, ds)
  | .seq a b, ds => do
    let (x, ds1) ← genBody depth a ds
    let (y, ds2) ← genBody depth b ds1
    return (.seq x y, ds2)
  | .expr e, ds => match genField depth 0 .flt e false ds with
    | (ds1, .ok ps) => some (.expr ps, ds1)
    | (_, .error _) => none
  | .pad, _ => none
  | .loop v a b body, ds => do
    let ds1 ← loopEnter v a b ds
    let (x, ds2) ← genBody depth body ds1
    return (.loop v a b x, vunreg (v, 0) ds2)

/-- the variables declared at the begin of a block (code_generator_core.py:273-280 `generate_vardefs`) -/
def VDicts.defs (ds : VDicts) : List VKey := ((ds.headD []).filter (!·.loop)).map VDef.key

/-- variable_management.py:47-52 `update_vardict` with the entries of both branches of a condition (code_generator_core.py:377-403) -/
def vmerge (a b : VDicts) : VDicts :=
  match a, b with
  | d :: ds, d' :: _ => (d ++ d'.filter fun x => !(d.any (·.key = x.key))) :: ds
  | _, _ => a

/-- a part in a block of its own if a name is given (code_generator_core.py:653-689,719-748,771-791) -/
def genNamed {α : Type} (name : Option VarRef) (ds : VDicts) (f : VDicts → Option (α × VDicts)) :
    Option (α × CName × VDicts) :=
  match name with
  | none => do
    let (x, ds1) ← f ds
    return (x, none, ds1)
  | some r =>
    if !r.idx.all (Idx.known ds) then none
    else do
      let (x, ds1) ← f ([] :: ds)
      return (x, some (r, ds1.defs), ds1.drop 1)

/-- code_generator_core.py:513-792: the code for one record; a stop instruction is not known to `generate_code_from_parsetree`
(code_generator_core.py:283-324), there is no code for it -/
def genAct (depth : Nat) : Act → VDicts → Option (Code × VDicts)
  | .text _ fs, ds => do
    let (x, ds1) ← genText depth fs true 0 ds
    return (.text x, ds1)
  | .cont _ _ fs, ds => do
    let (ps, ds1) ← genRecord depth 0 [] fs ds
    return (.cont ps, ds1)
  | .dir _ fs, ds => do
    let (ps, ds1) ← genRecord depth 2 [0, 1] fs ds
    return (.cont ps, ds1)
  | .intg _ _ _, _ => none
  | .tab1 _ fs x y name, ds => do
    let (ps, ds1) ← genRecord depth 0 [4, 5] fs ds
    let (cols, nm, ds2) ← genNamed name ds1
      (genCols depth [(0, .fvec, x), (1, .fvec, y), (2, .ivec, ⟨"INT", []⟩), (3, .ivec, ⟨"NBT", []⟩)])
    return (.tab1 ps cols nm, ds2)
  | .tab2 _ fs name, ds => do
    let (ps, ds1) ← genRecord depth 0 [4] fs ds
    let (cols, nm, ds2) ← genNamed name ds1 (genCols depth [(2, .ivec, ⟨"INT", []⟩), (3, .ivec, ⟨"NBT", []⟩)])
    return (.tab2 ps cols nm, ds2)
  | .list _ fs body name, ds => do
    let (ps, ds1) ← genRecord depth 0 [] fs ds
    let (b, nm, ds2) ← genNamed name ds1 (genBody depth body)
    return (.list ps b nm, ds2)
  | .send, ds => some (.send, ds)
  | .stop, ds => some (.skip, ds)

/-- code for the first line of a record, the last one of a lookahead (code_generator_core.py:599-618,634-640,702-708,757-768) -/
def genHead (depth : Nat) : Act → VDicts → Option (List Piece × VDicts)
  | .cont _ _ fs, ds => genRecord depth 0 [] fs ds
  | .dir _ fs, ds => genRecord depth 2 [0, 1] fs ds
  | .tab1 _ fs _ _ _, ds => genRecord depth 0 [4, 5] fs ds
  | .tab2 _ fs _, ds => genRecord depth 0 [4] fs ds
  | .list _ fs _ _, ds => genRecord depth 0 [] fs ds
  | _, _ => none

/-- a record with nothing but one line -/
def Act.oneLine : Act → Bool
  | .cont _ _ _ | .dir _ _ => true
  | _ => false

/-- code_generator_core.py:283-324 during a lookahead with `n` further steps (lookahead_management.py): the code of each step, and
the number of steps that remain -/
def genLook (depth : Nat) : Prog → Nat → VDicts → Option (List (List Piece) × Nat × VDicts)
  | _, 0, ds => some ([], 0, ds)
  | .skip, n + 1, ds => some ([], n + 1, ds)
  | .seq a b, n + 1, ds => do
    let (x, m, ds1) ← genLook depth a (n + 1) ds
    let (y, m', ds2) ← genLook depth b m ds1
    return (x ++ y, m', ds2)
  | .act a, n + 1, ds =>
    if a.oneLine || n = 0 then do
      let (ps, ds1) ← genHead depth a ds
      return ([ps], n, ds1)
    else none
  | _, _ + 1, _ => none

/-- code_generator_core.py:283-475 `generate_code_from_parsetree` -/
def genProg (depth : Nat) : Prog → VDicts → Option (Code × VDicts)
  | .skip, ds => some (.skip, ds)
  | .seq a b, ds => do
    let (x, ds1) ← genProg depth a ds
    let (y, ds2) ← genProg depth b ds1
    return (.seq x y, ds2)
  | .act a, ds => genAct depth a ds
  | .sect r body, ds =>
    if !r.idx.all (Idx.known ds) then none
    else do
      let (x, ds1) ← genProg depth body ([] :: ds)
      return (.sect r ds1.defs x, ds1.drop 1)
  | .loop v a b body, ds => do
    let ds1 ← loopEnter v a b ds
    let (x, ds2) ← genProg depth body ds1
    return (.loop v a b x, vunreg (v, 0) ds2)
  | .ite c none thn els, ds =>
    if !c.known ds then none
    else do
      let (x, ds1) ← genProg depth thn ds
      let (y, ds2) ← genProg depth els ds
      return (.ite c x y, vmerge ds1 ds2)
  | .ite c (some e) thn els, ds =>
    -- code_generator_core.py:407-475: `int(..)` of the text of the expression
    match e with
    | .num (.int n) => do
      if n < 0 then none
      else
        let (steps, m, dsl) ← genLook depth thn n.toNat ds
        if m ≠ 0 || !c.known dsl then none
        else
          let (x, ds1) ← genProg depth thn ds
          let (y, ds2) ← genProg depth els ds
          return (.look steps c x y, vmerge ds1 ds2)
    | _ => none
  | .abbr _ _, _ => none

/-- code_generator_parsing.py:206-208 and code_generator_core.py:110-149: the body of a function, and the variables declared
at its begin -/
def compile (depth : Nat) (p : Prog) : Option (Code × List VKey) := do
  let (x, ds) ← genProg depth p [[⟨("MAT", 0), false⟩, ⟨("MF", 0), false⟩, ⟨("MT", 0), false⟩]]
  return (x, ds.defs)

/-! ### the generated code -/

/-- `ParsingOptions` and the numbers with which the lines are compared -/
structure FunCtx where
  acc : Bool := true
  validate : Bool := false
  ignoreZero : Bool := true
  ignoreNumber : Bool := false
  ignoreVarspec : Bool := true
  ctrl : Ctrl
  /-- bound on the number of iterations of a loop, not in the code -/
  fuel : Nat := 100

/-- the C++ variables of a block (absent: not read yet), and `cpp_current_dict` -/
structure CScope where
  defs : List VKey
  vars : Dict VKey CTree := []
  pd : DDic := []

/-- state of a generated function: the block that is executed, the enclosing ones with the place of the inner dictionary in
the outer one, the loop variables, `cpp_line` and the lines that follow -/
structure FunSt where
  cur : CScope
  ups : List (CScope × Name × List Int) := []
  lv : Dict Name Int := []
  line : Str := []
  ls : List Str

def FunSt.blocks (s : FunSt) : List CScope := s.cur :: s.ups.map Prod.fst

/-- name lookup of C++: the innermost block with a declaration -/
def blockOf (k : VKey) : List CScope → Option CScope
  | [] => none
  | b :: bs => if k ∈ b.defs then some b else blockOf k bs

/-- an index: a number, or a loop variable.  Simplified: other variables cannot be indices. -/
def cIdx (lv : Dict Name Int) (i : Idx) : CRes Int :=
  match idxVal lv i with
  | .ok n => .ok n
  | .error _ => .undef

def cIdxs (lv : Dict Name Int) : List Idx → CRes (List Int)
  | [] => .ok []
  | i :: is => do
    let n ← cIdx lv i
    let ns ← cIdxs lv is
    .ok (n :: ns)

/-- the value of a variable in an expression: the value of an uninitialised scalar is undefined behaviour, a `NestedVector`
without elements throws -/
def readRef (s : FunSt) (r : VarRef) : CRes Val :=
  match dGet r.name s.lv with
  | some i => if r.idx = [] then .ok (.num (.int i)) else .undef
  | none =>
    match blockOf r.key s.blocks with
    | none => .undef
    | some b => do
      let is ← cIdxs s.lv r.idx
      match dGet r.key b.vars with
      | some t => vget is t
      | none => if r.idx = [] then .undef else .throw

/-- `did_read_var` (cpp_types/cpp_type_scalar/query.py:27-31, cpp_types/cpp_type_nested_vector/query.py:27-40) -/
def didRead (s : FunSt) (r : VarRef) : CRes Bool :=
  match dGet r.name s.lv with
  | some _ => .ok true
  | none =>
    match blockOf r.key s.blocks with
    | none => .undef
    | some b => do
      let is ← cIdxs s.lv r.idx
      match dGet r.key b.vars with
      | some t => .ok (vhas is t)
      | none => .ok false

/-- an `int` -/
def cInt (n : Int) : CRes PyNum := if intMin ≤ n ∧ n ≤ intMax then .ok (.int n) else .undef

/-- C++ arithmetic on `int` and `double`.  Simplified: division of a double by zero, which gives an infinity or a NaN, is
counted as undefined. -/
def cArith (i : Int → Int → CRes PyNum) (d : ℚ → ℚ → CRes PyNum) : PyNum → PyNum → CRes PyNum
  | .int a, .int b => i a b
  | x, y => d x.val y.val

def dbl (q : ℚ) : CRes PyNum := .ok (.num (.flt q))

def cAdd : PyNum → PyNum → CRes PyNum := cArith (fun a b => cInt (a + b)) fun x y => dbl (x + y)
def cSub : PyNum → PyNum → CRes PyNum := cArith (fun a b => cInt (a - b)) fun x y => dbl (x - y)
def cMul : PyNum → PyNum → CRes PyNum := cArith (fun a b => cInt (a * b)) fun x y => dbl (x * y)
def cDiv : PyNum → PyNum → CRes PyNum :=
  cArith (fun a b => if b = 0 then .undef else cInt (a.tdiv b)) fun x y => if y = 0 then .undef else dbl (x / y)
/-- there is no `%` for doubles, the generated code is not accepted by a compiler -/
def cMod : PyNum → PyNum → CRes PyNum :=
  cArith (fun a b => if b = 0 then .undef else cInt (a.tmod b)) fun _ _ => .undef
def cNeg : PyNum → CRes PyNum
  | .int a => cInt (-a)
  | .num x => dbl (-x.val)

/-- arithmetic on vectors and texts is not accepted by a compiler -/
def cNum : Val → CRes PyNum
  | .num x => .ok x
  | _ => .undef

/-- the value of an expression of the recipe in C++ (cpp_types/cpp_varops_query.py:148-160 `expr2str_shiftidx`) -/
def evC (s : FunSt) : Expr → CRes PyNum
  | .num x | .desired x => match x with
    | .int n => cInt n
    | .num v => dbl v.val
  | .var r | .incons r => do cNum (← readRef s r)
  | .neg a => do cNeg (← evC s a)
  | .add a b => do cAdd (← evC s a) (← evC s b)
  | .sub a b => do cSub (← evC s a) (← evC s b)
  | .mul a b => do cMul (← evC s a) (← evC s b)
  | .div a b => do cDiv (← evC s a) (← evC s b)
  | .mod a b => do cMod (← evC s a) (← evC s b)

mutual
/-- the value of a solution in C++; `σ` are the values of the variables -/
def evX (σ : XVar → CRes PyNum) : X → CRes PyNum
  | .num t => match pyInt t with
    | some n => cInt n
    | none => .undef
  | .var v => σ v
  | .add l => match l with
    | [] => .undef
    | x :: xs => do evSum σ (← evX σ x) xs
  | .mul l => match l with
    | [] => .undef
    | x :: xs => do evProd σ (← evX σ x) xs
  | .sub a b => do cSub (← evX σ a) (← evX σ b)
  | .div a b => do cDiv (← evX σ a) (← evX σ b)
  | .mod a b => do cMod (← evX σ a) (← evX σ b)
  | .neg a => do cNeg (← evX σ a)
def evSum (σ : XVar → CRes PyNum) (acc : PyNum) : List X → CRes PyNum
  | [] => .ok acc
  | x :: xs => do evSum σ (← cAdd acc (← evX σ x)) xs
def evProd (σ : XVar → CRes PyNum) (acc : PyNum) : List X → CRes PyNum
  | [] => .ok acc
  | x :: xs => do evProd σ (← cMul acc (← evX σ x)) xs
end

/-- the value of a token in the solution: `cpp_val` stands for the field; other tokens come from the expression -/
def tokVal (s : FunSt) (e : Expr) (src : Val) (y : XVar) : CRes PyNum :=
  if y = cppVal then cNum src
  else match e.vars.find? (fun r => r.xvar = y) with
    | some r => do cNum (← readRef s r)
    | none => .undef

/-- the value that a solution gives: the field itself if the solution is `cpp_val` (code_generator_core.py:190-219) -/
def solVal (s : FunSt) (e : Expr) (src : Val) (sol : X) : CRes Val :=
  match sol with
  | .var y => if y = cppVal then .ok src else do return .num (← tokVal s e src y)
  | _ => do return .num (← evX (tokVal s e src) sol)

/-- conversion to the type of the variable that is assigned -/
def toKind : CKind → Val → CRes Val
  | .flt, .num x => .ok (.num (.num (.flt x.val)))
  | .int, .num (.int n) => .ok (.num (.int n))
  | .int, .num (.num x) => do return .num (← cInt (truncRat x.val))
  | .txt, .txt t => .ok (.txt t)
  | .ivec, .lst l | .fvec, .lst l => .ok (.lst l)
  | _, _ => .undef

/-- assignment to a variable of the current block (cpp_types/cpp_type_scalar/assign.py:62-68, cpp_types/cpp_type_nested_vector/assign.py:60-88).
Simplified: statements `prepare` that are moved in front of inner loops (cpp_types/cpp_type_nested_vector/auxiliary.py:38-52) are
executed in place. -/
def assign (s : FunSt) (r : VarRef) (v : Val) : CRes FunSt := do
  let is ← cIdxs s.lv r.idx
  let t ← vput is (dGet r.key s.cur.vars) v
  .ok { s with cur := { s.cur with vars := dSet r.key t s.cur.vars } }

/-- cpp_templates/module_header_reading.hpp:323-376 `cpp_validate_field` -/
def validateField (c : FunCtx) (s : FunSt) (e : Expr) (src : Val) : CRes Unit :=
  match src with
  | .num x => do
    let y ← evC s e
    if y.val = x.val then .ok ()
    else if e.vars.isEmpty then
      if c.ignoreZero ∧ y.val = 0 then .ok ()
      else if c.ignoreNumber ∧ e.hasDesired then .ok ()
      else .throw
    else if c.ignoreVarspec ∧ e.hasIncons then .ok ()
    else .throw
  | _ => .throw

/-- one piece of code; `rd` gives the value of a field -/
def runPiece (c : FunCtx) (rd : Nat → CKind → CRes Val) (s : FunSt) (p : Piece) : CRes FunSt := do
  let src ← rd p.fld p.kind
  match p.op with
  | .check => do
    validateField c s p.e src
    .ok s
  | .put guard v sol => do
    let known ← (if guard then didRead s v else .ok false)
    if known then do
      validateField c s p.e src
      .ok s
    else do
      let x ← solVal s p.e src sol
      assign s v (← toKind p.kind x)
  | .refuse guard v => do
    let known ← (if guard then didRead s v else .ok false)
    if known then do
      validateField c s p.e src
      .ok s
    else .throw

def runPieces (c : FunCtx) (rd : Nat → CKind → CRes Val) : List Piece → FunSt → CRes FunSt
  | [], s => .ok s
  | p :: ps, s => do runPieces c rd ps (← runPiece c rd s p)

/-- code_generator_parsing.py:118-122: `cpp_line = cpp_read_line(...)` -/
def prepLine (c : FunCtx) (s : FunSt) : CRes FunSt := do
  let (l, r) ← cppReadLine c.validate c.ctrl s.ls
  .ok { s with line := l, ls := r }

/-- `cpp_read_field<double>` or `cpp_read_field<int>` of `cpp_line` -/
def lineField (c : FunCtx) (line : Str) (i : Nat) : CKind → CRes Val
  | .flt => do return .num (.num (.flt (← cppFloat c.acc line i)))
  | .int => do return .num (.int (← cppInt line i))
  | _ => .undef

/-- `std::string::substr`: throws if the start is behind the end -/
def cSubstr (l : Str) (start len : Nat) : CRes Str := if l.length < start then .throw else .ok ((l.drop start).take len)

def runText (c : FunCtx) : List (Nat × Nat × List Piece) → FunSt → CRes FunSt
  | [], s => .ok s
  | (ofs, n, ps) :: fs, s => do
    let s1 ← runPieces c (fun _ _ => do return .txt (← cSubstr s.line ofs n)) ps s
    runText c fs s1

/-- the columns of a table; `cols` are X, Y, INT, NBT -/
def colField (cols : List Val) (i : Nat) (_ : CKind) : CRes Val :=
  match cols[i]? with
  | some v => .ok v
  | none => .undef

def numsC (l : List ℚ) : Val := .lst (l.map fun q => PyNum.num (.flt q))

/-- endf2cpp_aux.py:164-183 `open_section`: `setdefault` of an empty dictionary in the current one (index_shifter.hpp with
`list_mode` off) -/
def openC (s : FunSt) (r : VarRef) (defs : List VKey) : CRes FunSt := do
  let is ← cIdxs s.lv r.idx
  match subDic (dGet (.var r.name) s.cur.pd) is with
  | .error _ => .throw
  | .ok d => .ok { s with cur := ⟨defs, [], d⟩, ups := (s.cur, r.name, is) :: s.ups }

/-- code_generator_parsing_core.py:34-41 `generate_endf_dict_assignments` -/
def storeVars (vars : Dict VKey CTree) : List VKey → DDic → DDic
  | [], d => d
  | k :: ks, d =>
    storeVars vars ks (match dGet k vars with
      | some t => dSet (.var k.1) t.toPy d
      | none => d)

/-- code_generator_parsing.py:154-159 and endf2cpp_aux.py:186-188 `close_section`; the dictionary of the section is the one
in the dictionary around it -/
def closeC (s : FunSt) : CRes FunSt :=
  match s.ups with
  | [] => .undef
  | (outer, n, is) :: rest =>
    match setArr (dGet (.var n) outer.pd) is (.dic (storeVars s.cur.vars s.cur.defs s.cur.pd)) with
    | .error _ => .throw
    | .ok new => .ok { s with cur := { outer with pd := dSet (.var n) new outer.pd }, ups := rest }

def inBlock (name : CName) (s : FunSt) (f : FunSt → CRes FunSt) : CRes FunSt :=
  match name with
  | none => f s
  | some (r, defs) => do
    let s1 ← openC s r defs
    let s2 ← f s1
    closeC s2

/-- all of these variables have been read; `&&` evaluates from left to right -/
def allRead (s : FunSt) : List VarRef → CRes Bool
  | [] => .ok true
  | r :: rs => do if ← didRead s r then allRead s rs else .ok false

def relC (r : Rel) (x y : ℚ) : Bool :=
  match r with
  | .gt => decide (x > y)
  | .lt => decide (x < y)
  | .ne => decide (x ≠ y)
  | .eq => decide (x = y)
  | .ge => decide (x ≥ y)
  | .le => decide (x ≤ y)

/-- cpp_types/cpp_varops_query.py:95-145 `logical_expr2cppstr`; only the variables of the left side are checked (112-113) -/
def condC (s : FunSt) : Cond → CRes Bool
  | .cmp r a b => do
    if ← allRead s (sortVars (dedupVars a.vars)) then do
      let x ← evC s a
      let y ← evC s b
      .ok (relC r x.val y.val)
    else .ok false
  | .and a b => do if ← condC s a then condC s b else .ok false
  | .or a b => do if ← condC s a then .ok true else condC s b

/-- an expression as `int` -/
def asInt : PyNum → CRes Int
  | .int n => .ok n
  | .num x => if intMin ≤ truncRat x.val ∧ truncRat x.val ≤ intMax then .ok (truncRat x.val) else .undef

/-- code_generator_core.py:839-849 `for (int v = start; v <= stop; v++)`, from the value `i` of the loop variable on -/
def runFor {σ : Type} (setLv : Option Int → σ → σ) (stop : σ → CRes PyNum) (body : σ → CRes σ) : Nat → Int → σ → CRes σ
  | 0, _, _ => .undef
  | n + 1, i, s => do
    let s1 := setLv (some i) s
    let y ← stop s1
    if (i : ℚ) ≤ y.val then do
      let s2 ← body s1
      if i + 1 ≤ intMax then runFor setLv stop body n (i + 1) s2 else .undef
    else .ok (setLv none s)

def FunSt.setLv (v : Name) (i : Option Int) (s : FunSt) : FunSt :=
  match i with
  | some i => { s with lv := dSet v i s.lv }
  | none => { s with lv := dDel v s.lv }

/-- state while a list body is read: `cpp_i`, `cpp_j` (endf2cpp_aux.py:232-238) -/
structure LFun where
  i : Int
  j : Nat
  st : FunSt

def LFun.setLv (v : Name) (i : Option Int) (l : LFun) : LFun := { l with st := l.st.setLv v i }

/-- code_generator_core.py:795-809 and endf2cpp_aux.py:255-276 -/
def runBody (c : FunCtx) (npl : Int) : LCode → LFun → CRes LFun
  | .nil, l => .ok l
  | .seq a b, l => do runBody c npl b (← runBody c npl a l)
  | .expr ps, l => do
    let s ← runPieces c (fun _ k => lineField c l.st.line l.j k) ps l.st
    if 5 < l.j + 1 ∧ l.i + 1 < npl then do
      let s1 ← prepLine c s
      .ok ⟨l.i + 1, 0, s1⟩
    else .ok ⟨l.i + 1, l.j + 1, s⟩
  | .loop v a b body, l => do
    let x ← evC l.st a
    runFor (LFun.setLv v) (fun l => evC l.st b) (runBody c npl body) c.fuel (← asInt x) l

/-- endf2cpp_aux.py:231-253: the whole list body -/
def runList (c : FunCtx) (npl : Int) (body : LCode) (s : FunSt) : CRes FunSt := do
  let s1 ← prepLine c s
  let l ← runBody c npl body ⟨0, 0, s1⟩
  if l.i ≠ npl then .throw else .ok l.st

/-- cpp_templates/module_header_reading.hpp:435-460 `cpp_read_send` -/
def readSendC (c : FunCtx) (s : FunSt) : CRes FunSt := do
  let (l, r) ← cppReadLine c.validate { c.ctrl with mt := 0 } s.ls
  let mt ← cppMt l
  let a ← cppFloat c.acc l 0
  if a ≠ 0 then .throw
  else do
    let b ← cppFloat c.acc l 1
    if b ≠ 0 then .throw
    else do
      let i2 ← cppInt l 2
      if i2 ≠ 0 then .throw
      else do
        let i3 ← cppInt l 3
        if i3 ≠ 0 then .throw
        else do
          let i4 ← cppInt l 4
          if i4 ≠ 0 then .throw
          else do
            let i5 ← cppInt l 5
            if i5 ≠ 0 ∨ mt ≠ 0 then .throw else .ok { s with ls := r }

/-- one piece of code while looking ahead: there is no validation (code_generator_parsing_core.py:68-71), and the field is read only
if it is assigned -/
def lookPiece (rd : Nat → CKind → CRes Val) (s : FunSt) (p : Piece) : CRes FunSt :=
  match p.op with
  | .check => .ok s
  | .put guard v sol => do
    let known ← (if guard then didRead s v else .ok false)
    if known then .ok s
    else do
      let src ← rd p.fld p.kind
      let x ← solVal s p.e src sol
      assign s v (← toKind p.kind x)
  | .refuse guard v => do
    let known ← (if guard then didRead s v else .ok false)
    if known then .ok s else .throw

def lookPieces (rd : Nat → CKind → CRes Val) : List Piece → FunSt → CRes FunSt
  | [], s => .ok s
  | p :: ps, s => do lookPieces rd ps (← lookPiece rd s p)

/-- the steps of a lookahead: lines are read without a check of the control numbers (endf2cpp_aux.py:71-75) -/
def runLook (c : FunCtx) : List (List Piece) → FunSt → CRes FunSt
  | [], s => .ok s
  | ps :: pss, s => do
    let (l, r) := nextLine s.ls
    let s1 ← lookPieces (lineField c l) ps { s with line := l, ls := r }
    runLook c pss s1

/-- the generated code.  A negative number of table entries gives no entries. -/
def runCode (c : FunCtx) : Code → FunSt → CRes FunSt
  | .skip, s => .ok s
  | .seq a b, s => do runCode c b (← runCode c a s)
  | .text fs, s => do
    let s1 ← prepLine c s
    runText c fs s1
  | .cont ps, s => do
    let s1 ← prepLine c s
    runPieces c (lineField c s1.line) ps s1
  | .tab1 ps cols name, s => do
    let s1 ← prepLine c s
    let s2 ← runPieces c (lineField c s1.line) ps s1
    inBlock name s2 fun s3 => do
      let nr ← cppInt s3.line 4
      let np ← cppInt s3.line 5
      let (t, ls) ← cppReadTab1 (cppFloat c.acc) c.validate c.ctrl nr.toNat np.toNat s3.ls
      runPieces c (colField [numsC t.xs, numsC t.ys, intsVal t.int, intsVal t.nbt]) cols { s3 with ls := ls }
  | .tab2 ps cols name, s => do
    let s1 ← prepLine c s
    let s2 ← runPieces c (lineField c s1.line) ps s1
    inBlock name s2 fun s3 => do
      let nr ← cppInt s3.line 4
      let (t, ls) ← cppReadTab2 c.validate c.ctrl nr.toNat s3.ls
      runPieces c (colField [intsVal [], intsVal [], intsVal t.2, intsVal t.1]) cols { s3 with ls := ls }
  | .list ps body name, s => do
    let s1 ← prepLine c s
    let s2 ← runPieces c (lineField c s1.line) ps s1
    inBlock name s2 fun s3 => do
      let npl ← cppInt s3.line 4
      runList c npl body s3
  | .send, s => readSendC c s
  | .sect r defs body, s => do
    let s1 ← openC s r defs
    let s2 ← runCode c body s1
    closeC s2
  | .loop v a b body, s => do
    let x ← evC s a
    runFor (FunSt.setLv v) (fun s => evC s b) (runCode c body) c.fuel (← asInt x) s
  | .ite cond thn els, s => do if ← condC s cond then runCode c thn s else runCode c els s
  | .look steps cond thn els, s => do
    -- the variables of the lookahead are copies (code_generator_core.py:430-447), the position in the stream is restored
    let s1 ← runLook c steps s
    if ← condC s1 cond then runCode c thn { s with line := s1.line } else runCode c els { s with line := s1.line }

/-- code_generator_parsing.py:190-227 and code_generator_core.py:136-149: a function for the numbers `mf` and, if given, `mt`;
MAT, and MT if it is not given, are taken from the first line.  `c.ctrl` is not used.  The dictionary, and what is left of the stream. -/
def readFun (c : FunCtx) (mf : Int) (mt : Option Int) (code : Code) (defs : List VKey) (lines : List Str) : CRes (DDic × List Str) := do
  let l := (nextLine lines).1
  let mat ← cppMat l
  let mt ← (match mt with
    | some n => .ok n
    | none => cppMt l)
  let c := { c with ctrl := ⟨mat, mf, mt⟩ }
  let int (n : Int) : CTree := .leaf (.num (.int n))
  let s : FunSt :=
    { cur := ⟨defs, [(("MAT", 0), int mat), (("MF", 0), int mf), (("MT", 0), int mt)], setCtrl ⟨mat, mf, mt⟩ []⟩, ls := lines }
  let s1 ← runCode c code s
  .ok (storeVars s1.cur.vars s1.cur.defs s1.cur.pd, s1.ls)

/-- the dictionary that `readFun` returns -/
def runFun (c : FunCtx) (mf : Int) (mt : Option Int) (code : Code) (defs : List VKey) (lines : List Str) : CRes DDic := do
  let (d, _) ← readFun c mf mt code defs lines
  .ok d

end Verif
