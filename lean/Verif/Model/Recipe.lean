import Verif.Model.Mapping
/-
The recipe interpreter of `endf_parserpy/interpreter/endf_parser.py` (434-885) with `meta_control_utils.py` and
`endf_mappings.py`, for `internal_array_type = "dict"`.  Recipes enter as syntax trees.
-/
namespace Verif

/-- `ctrl_spec` (endf_lark_ebnf.py:36-39): a number, or the words MAT, MF, MT (`none`) -/
structure CSpec where
  mat : Option Int := none
  mf : Option Int := none
  mt : Option Int := none
  deriving DecidableEq, Repr

/-- `list_body` (endf_lark_ebnf.py:88-95) -/
inductive LBody where
  | nil
  | seq (a b : LBody)
  | expr (e : Expr)
  | pad
  | loop (v : Name) (start stop : Expr) (body : LBody)

/-- records of a recipe (endf_lark_ebnf.py:26-96) -/
inductive Act where
  | text (c : CSpec) (fs : List TextField)
  | cont (isHead : Bool) (c : CSpec) (fs : List Expr)
  | dir (c : CSpec) (fs : List Expr)
  | intg (c : CSpec) (fs : List Expr) (nd : Expr)
  | tab1 (c : CSpec) (fs : List Expr) (x y : VarRef) (name : Option VarRef)
  | tab2 (c : CSpec) (fs : List Expr) (name : Option VarRef)
  | list (c : CSpec) (fs : List Expr) (body : LBody) (name : Option VarRef)
  | send
  | stop

/-- `IF_RELATION` (endf_lark_ebnf.py:115) -/
inductive Rel where
  | gt | lt | ne | eq | ge | le
  deriving DecidableEq, Repr

/-- `disjunction`, `conjunction`, `comparison` (endf_lark_ebnf.py:114-123) -/
inductive Cond where
  | cmp (r : Rel) (a b : Expr)
  | and (a b : Cond)
  | or (a b : Cond)

/-- A recipe (endf_lark_ebnf.py:23-123).  Sequences are binary; an `elif` is an `ite` in the else branch (both are
tested one after the other in `evaluate_if_clause`, meta_control_utils.py:295-347); comments are left out. -/
inductive Prog where
  | skip
  | seq (a b : Prog)
  | act (a : Act)
  | sect (r : VarRef) (body : Prog)
  | loop (v : Name) (start stop : Expr) (body : Prog)
  | ite (c : Cond) (look : Option Expr) (thn els : Prog)
  | abbr (n : Name) (e : Expr)

/-- A record without its layout: the values of the fields that take part in the mapping, table columns or list
values, and the control numbers. -/
inductive RKind where
  | text | head | cont | dir | intg (nd : Int) | tab1 | tab2 | list | send
  deriving DecidableEq, Repr

structure ARec where
  kind : RKind
  flds : List Val
  tbl : List Val
  ctrl : Ctrl

def Slot.toVal : Slot → Val
  | .int n => .num (.int n)
  | .flt v => .num (.num (.flt v))

/-- C1, C2, L1, L2, N1, N2 of a record as values -/
def ContRec.vals (r : ContRec) : List Val :=
  [.num (.num r.c1), .num (.num r.c2), r.l1.toVal, r.l2.toVal, r.n1.toVal, r.n2.toVal]

def intsVal (l : List Int) : Val := .lst (l.map PyNum.int)
def numsVal (l : List Num) : Val := .lst (l.map PyNum.num)

/-- outcome of a step that may raise: the state at that moment is kept, because exceptions are caught in
`perform_lookahead` (meta_control_utils.py:434-437) and by the caller of `parse` -/
inductive Out (σ : Type) where
  | ok (s : σ)
  | err (e : Err) (s : σ)

def Out.andThen {σ : Type} (o : Out σ) (f : σ → Out σ) : Out σ :=
  match o with
  | .ok s => f s
  | .err e s => .err e s

/-- a pure step; on failure the state is unchanged -/
def Out.lift {σ α : Type} (s : σ) (r : Res α) (f : α → Out σ) : Out σ :=
  match r with
  | .ok a => f a
  | .error e => .err e s

/-- constants of a reading run -/
structure RCtx where
  lines : List Str
  ro : ROpts := {}
  po : POpts := {}
  fuel : Nat := 100

/-- Parser state while reading (endf_parser.py:853-873): the current dictionary, the enclosing ones with the place
of the next inner one, `loop_vars` without the entry `__lookahead`, that entry, `ofs`, the flag
`ignore_all_mismatches` of `parse_opts`, and (not in the code, for stating properties) the records read so far and the
range of lines of each. -/
structure RSt where
  cur : DDic := []
  ups : List (DDic × Name × List Int) := []
  lv : Dict Name Int := []
  look : Option Int := none
  ofs : Nat := 0
  ignoreAll : Bool := false
  recs : List ARec := []
  spans : List (Nat × Nat) := []

def RSt.outer (s : RSt) : List DDic := s.ups.map Prod.fst

def RSt.env (s : RSt) : Env := ⟨s.cur, s.outer, s.lv⟩

def RSt.po (c : RCtx) (s : RSt) : POpts := { c.po with ignoreAll := s.ignoreAll }

/-- endf_mappings.py:26-52 `check_ctrl_spec` against control numbers -/
def checkCtrl (c : CSpec) (k : Ctrl) : Res Unit :=
  if c.mat.any (· ≠ k.mat) then .error .unexpectedControl
  else if c.mf.any (· ≠ k.mf) then .error .unexpectedControl
  else if c.mt.any (· ≠ k.mt) then .error .unexpectedControl
  else .ok ()

/-- meta_control_utils.py:389-395 `should_proceed` for an `endf_action`: `none` means do not proceed -/
def RSt.proceed (s : RSt) : Option RSt :=
  match s.look with
  | none => some s
  | some n => if n = 0 then none else some { s with look := some (n - 1) }

/-- should_proceed for a meta action -/
def RSt.stopped (s : RSt) : Bool := s.look = some 0

/-- the dictionary below a name and indices; missing ones are created empty (meta_control_utils.py:77-110 with
`create_missing=True`) -/
def subDic : Option Val → List Int → Res DDic
  | none, _ => .ok []
  | some (.dic d), [] => .ok d
  | some (.dic d), i :: is => subDic (dGet (Key.idx i) d) is
  | some _, _ => .error .typeError

/-- meta_control_utils.py:67-124 `open_section` in reading direction -/
def openR (s : RSt) (r : VarRef) : Res RSt := do
  let is ← r.idx.mapM (idxVal s.lv)
  let d ← subDic (dGet (.var r.name) s.cur) is
  return { s with cur := dSet .up .mark d, ups := (s.cur, r.name, is) :: s.ups }

/-- meta_control_utils.py:127-133 `close_section` -/
def closeR (s : RSt) : Res RSt := do
  match s.ups with
  | [] => .error .keyError
  | (outer, n, is) :: rest =>
    let new ← setArr (dGet (.var n) outer) is (.dic (dDel .up s.cur))
    return { s with cur := dSet (.var n) new outer, ups := rest }

/-- meta_control_utils.py:41-43 `initialize_working_vars` -/
def initWork (d : DDic) : DDic := dSet .startidcs .mark (dSet .abbrevs (.names []) d)

/-- `del datadic[name]` -/
def delVar (d : DDic) (n : Name) : Res DDic :=
  if dHas (.var n) d then .ok (dDel (.var n) d) else .error .keyError

/-- meta_control_utils.py:59-64 `remove_working_vars` -/
def removeWork (d : DDic) : Res DDic := do
  match dGet .abbrevs d with
  | some (.names l) =>
    let d1 ← l.foldlM delVar d
    return dDel .startidcs (dDel .abbrevs d1)
  | _ => .error .assertion

/-- `datadic["__abbrevs"]` (meta_control_utils.py:47) -/
def abbrNames (d : DDic) : List Name :=
  match dGet .abbrevs d with
  | some (.names l) => l
  | _ => []

/-- meta_control_utils.py:46-56 `introduce_abbreviation` -/
def introAbbr (d : DDic) (n : Name) (e : Expr) : Res DDic :=
  let l := abbrNames d
  if !l.contains n && dHas (.var n) d then .error .abbrevCollision
  else .ok (dSet (.var n) (.abb e) (dSet .abbrevs (.names (if l.contains n then l else l ++ [n])) d))

/-- comparison of two values in a condition (meta_control_utils.py:214-225).  Simplified: anything but numbers is a
TypeError. -/
def relHolds (r : Rel) : Val → Val → Res Bool
  | .num x, .num y => .ok (match r with
    | .gt => decide (x.val > y.val)
    | .lt => decide (x.val < y.val)
    | .ne => decide (x.val ≠ y.val)
    | .eq => decide (x.val = y.val)
    | .ge => decide (x.val ≥ y.val)
    | .le => decide (x.val ≤ y.val))
  | _, _ => .error .typeError

/-- meta_control_utils.py:189-292 `eval_if_condition` and `determine_truthvalue` with `missing_as_false=True` -/
def evalCond (fuel : Nat) (env : Env) : Cond → Res Bool
  | .cmp r a b =>
    match (do
      let x ← evalKnown fuel env true true a
      let y ← evalKnown fuel env true true b
      return (x, y) : Res (Val × Val)) with
    | .error .variableNotFound => .ok false
    | .error e => .error e
    | .ok (x, y) => relHolds r x y
  | .and a b => do
    if (← evalCond fuel env a) = false then return false
    else evalCond fuel env b
  | .or a b => do
    if (← evalCond fuel env a) = true then return true
    else evalCond fuel env b

/-- an evaluated loop bound (meta_control_utils.py:151-161) -/
def loopBound : Val → Res Int
  | .num x => if (truncRat x.val : ℚ) ≠ x.val then .error .loopVariable else .ok (truncRat x.val)
  | _ => .error .typeError

/-- Python `range(a, b + 1)` -/
def intRange (a b : Int) : List Int := (List.range (b + 1 - a).toNat).map fun (i : Nat) => a + (i : Int)

/-- bounds of a loop and the check of its variable (meta_control_utils.py:147-167) -/
def loopHead (fuel : Nat) (env : Env) (v : Name) (start stop : Expr) : Res (Int × Int) := do
  let a ← evalKnown fuel env true true start
  let b ← evalKnown fuel env true true stop
  let a ← loopBound a
  let b ← loopBound b
  if dHas v env.lv then .error .loopVariable else return (a, b)

/-- meta_control_utils.py:174-176: the iterations -/
def iterate {σ : Type} (setVar : Int → σ → σ) (body : σ → Out σ) : List Int → σ → Out σ
  | [], s => .ok s
  | i :: is, s => (body (setVar i s)).andThen (iterate setVar body is)

/-- state while a list body is read: position in the values (endf_mappings.py:305-322) -/
structure LSt where
  pos : Nat
  st : RSt

def LSt.setVar (v : Name) (i : Int) (l : LSt) : LSt := { l with st := { l.st with lv := dSet v i l.st.lv } }

/-- endf_mappings.py:312-389 `parse_list_body_node` in reading direction -/
def readBody (c : RCtx) (vals : List PyNum) : LBody → LSt → Out LSt
  | .nil, l => .ok l
  | .seq a b, l => (readBody c vals a l).andThen (readBody c vals b)
  | .expr e, l =>
    match vals[l.pos]? with
    | none => .err .moreListElements l
    | some v =>
      .lift l (mapRead c.fuel (l.st.po c) l.st.outer l.st.lv [e] [.num v] l.st.cur) fun cur =>
      .ok ⟨l.pos + 1, { l.st with cur := cur }⟩
  | .pad, l => .ok { l with pos := l.pos + (6 - l.pos % 6) % 6 }
  | .loop v a b body, l =>
    .lift l (loopHead c.fuel l.st.env v a b) fun (x, y) =>
    (iterate (LSt.setVar v) (readBody c vals body) (intRange x y) l).andThen fun l =>
    .ok (if x ≤ y then { l with st := { l.st with lv := dDel v l.st.lv } } else l)

/-- run a part inside a named sub-dictionary if a name is given (endf_mappings.py:181-209,253-286) -/
def inTable (name : Option VarRef) (s : RSt) (f : RSt → Out RSt) : Out RSt :=
  match name with
  | none => f s
  | some r => .lift s (openR s r) fun s1 => (f s1).andThen fun s2 => .lift s2 (closeR s2) .ok

/-- endf_mappings.py:405-428: the list body, inside a named sub-dictionary if a name is given -/
def readNamedBody (c : RCtx) (vals : List PyNum) (body : LBody) (name : Option VarRef) (s : RSt) : Out LSt :=
  match name with
  | none => readBody c vals body { pos := 0, st := s }
  | some r =>
    .lift { pos := 0, st := s } (openR s r) fun s1 =>
    (readBody c vals body { pos := 0, st := s1 }).andThen fun l =>
    .lift l (closeR l.st) fun s2 => .ok { l with st := s2 }

/-- map some fields into the current dictionary -/
def mapFields (c : RCtx) (es : List Expr) (vals : List Val) (s : RSt) : Out RSt :=
  .lift s (mapRead c.fuel (s.po c) s.outer s.lv es vals s.cur) fun cur => .ok { s with cur := cur }

/-- `datadic.update(get_ctrl(..))` (endf_parser.py:461,518) -/
def setCtrl (k : Ctrl) (d : DDic) : DDic :=
  dSet (.var "MT") (.num (.int k.mt)) (dSet (.var "MF") (.num (.int k.mf)) (dSet (.var "MAT") (.num (.int k.mat)) d))

/-- take a record from the lines: position behind blank lines, record, next position -/
def takeRec {α : Type} (c : RCtx) (s : RSt) (rd : List Str → Nat → Res (α × Nat)) (f : α → RSt → Out RSt) : Out RSt :=
  .lift s (skipBlankLines c.lines s.ofs) fun ofs =>
  let s1 := { s with ofs := ofs }
  .lift s1 (rd c.lines ofs) fun (r, ofs') => f r { s1 with ofs := ofs', spans := s1.spans ++ [(ofs, ofs')] }

def logRec (r : ARec) (s : RSt) : Out RSt := .ok { s with recs := s.recs ++ [r] }

/-- endf_mappings.py:200-206,273-277: columns NBT and INT -/
def nbtInt : List Expr := [.var ⟨"NBT", []⟩, .var ⟨"INT", []⟩]

/-- endf_parser.py:440-755 `process_*_line` in reading direction with the mapping functions endf_mappings.py:55-437 -/
def readAct (c : RCtx) : Act → RSt → Out RSt
  | .text k fs, s =>
    takeRec c s (readText c.ro) fun r s =>
    .lift s (checkCtrl k r.ctrl) fun _ =>
    .lift s (mapTextRead s.lv r.hl fs 0 s.cur) fun cur =>
    logRec ⟨.text, [.txt r.hl], [], r.ctrl⟩ { s with cur := setCtrl r.ctrl cur }
  | .cont isHead k fs, s =>
    takeRec c s (readCont c.ro) fun r s =>
    .lift s (checkCtrl k r.ctrl) fun _ =>
    (mapFields c fs r.vals s).andThen fun s =>
    logRec ⟨if isHead then .head else .cont, r.vals, [], r.ctrl⟩
      (if isHead then { s with cur := setCtrl r.ctrl s.cur } else s)
  | .dir k fs, s =>
    takeRec c s (readDir c.ro) fun r s =>
    .lift s (checkCtrl k r.ctrl) fun _ =>
    let vals : List Val := [.num (.int r.l1), .num (.int r.l2), .num (.int r.n1), .num (.int r.n2)]
    (mapFields c fs vals s).andThen fun s => logRec ⟨.dir, vals, [], r.ctrl⟩ s
  | .intg k fs nd, s =>
    .lift s (evalKnown c.fuel s.env true true nd) fun n =>
    match n with
    | .num (.int n) =>
      takeRec c s (readIntg c.ro n) fun r s =>
      .lift s (checkCtrl k r.ctrl) fun _ =>
      let vals : List Val := [.num (.int r.ii), .num (.int r.jj), intsVal r.kij]
      (mapFields c fs vals s).andThen fun s => logRec ⟨.intg n, vals, [], r.ctrl⟩ s
    | _ => .err .typeError s
  | .tab1 k fs x y name, s =>
    takeRec c s (readTab1 c.ro) fun r s =>
    .lift s (checkCtrl k r.head.ctrl) fun _ =>
    let vals := r.head.vals.take 4
    let cols := [intsVal r.nbt, intsVal r.int, numsVal r.xs, numsVal r.ys]
    (mapFields c (fs.take 4) vals s).andThen fun s =>
    match s.proceed with
    | none => .ok s
    | some s =>
      (inTable name s (mapFields c (nbtInt ++ [.var x, .var y]) cols)).andThen fun s =>
      logRec ⟨.tab1, vals, cols, r.head.ctrl⟩ s
  | .tab2 k fs name, s =>
    takeRec c s (readTab2 c.ro) fun r s =>
    .lift s (checkCtrl k r.head.ctrl) fun _ =>
    let vals := r.head.vals.take 4 ++ r.head.vals.drop 5
    let cols := [intsVal r.nbt, intsVal r.int]
    (mapFields c (fs.take 4 ++ fs.drop 5) vals s).andThen fun s =>
    match s.proceed with
    | none => .ok s
    | some s =>
      (inTable name s (mapFields c nbtInt cols)).andThen fun s =>
      logRec ⟨.tab2, vals, cols, r.head.ctrl⟩ s
  | .list k fs body name, s =>
    takeRec c s (readList c.ro) fun r s =>
    .lift s (checkCtrl k r.head.ctrl) fun _ =>
    let vals := r.vals.map PyNum.num
    (mapFields c fs r.head.vals s).andThen fun s =>
    match s.proceed with
    | none => .ok s
    | some s =>
      match readNamedBody c vals body name s with
      | .err e l => .err e l.st
      | .ok l =>
        if l.pos < vals.length then .err .unconsumedList l.st
        else logRec ⟨.list, r.head.vals, [.lst vals], r.head.ctrl⟩ l.st
  | .send, s =>
    .lift s (skipBlankLines c.lines s.ofs) fun ofs =>
    let s := { s with ofs := ofs }
    .lift s (readSend c.ro c.lines ofs) fun (r, _) => logRec ⟨.send, [], [], r.ctrl⟩ s
  | .stop, s => .lift s (lineAt c.lines s.ofs) fun _ => .err .stop s

def RSt.setVar (v : Name) (i : Int) (s : RSt) : RSt := { s with lv := dSet v i s.lv }

/-- environment seen by the condition behind a lookahead: the dictionary of the level at which the lookahead was
started (`new_parser_state["datadic"]`, meta_control_utils.py:430-432), also if the looked-at part was left by an
exception inside a sub-section -/
def RSt.envAt (depth : Nat) (s : RSt) : Env :=
  match (s.cur :: s.outer).drop (s.ups.length - depth) with
  | [] => ⟨[], [], s.lv⟩
  | d :: ds => ⟨d, ds, s.lv⟩

/-- meta_control_utils.py:398-424: number of records to look at -/
def lookCount (c : RCtx) (s : RSt) (e : Expr) : Res Int := do
  match ← evalKnown c.fuel s.env true true e with
  | .num x =>
    if (truncRat x.val : ℚ) ≠ x.val then .error .valueError
    else if s.look.isSome then .error .valueError
    else .ok (truncRat x.val)
  | _ => .error .typeError

/-- endf_parser.py:836-851 `run_instruction` in reading direction, with sections (endf_parser.py:757-793), loops
(meta_control_utils.py:136-186), conditions with lookahead (295-455) and abbreviations (46-56) -/
def readProg (c : RCtx) : Prog → RSt → Out RSt
  | .skip, s => .ok s
  | .seq a b, s => (readProg c a s).andThen (readProg c b)
  | .act a, s =>
    match s.proceed with
    | none => .ok s
    | some s => readAct c a s
  | .sect r body, s =>
    if s.stopped then .ok s
    else
      .lift s (openR s r) fun s1 =>
      (readProg c body { s1 with cur := initWork s1.cur }).andThen fun s2 =>
      .lift s2 (removeWork s2.cur) fun cur =>
      let s3 := { s2 with cur := cur }
      .lift s3 (closeR s3) .ok
  | .loop v a b body, s =>
    if s.stopped then .ok s
    else
      .lift s (loopHead c.fuel s.env v a b) fun (x, y) =>
      (iterate (RSt.setVar v) (readProg c body) (intRange x y) s).andThen fun s =>
      .ok (if x ≤ y then { s with lv := dDel v s.lv } else s)
  | .ite cond look thn els, s =>
    if s.stopped then .ok s
    else
      match look with
      | none =>
        .lift s (evalCond c.fuel s.env cond) fun t =>
        if t then readProg c thn s else readProg c els s
      | some e =>
        .lift s (lookCount c s e) fun n =>
        let decided : Out RSt → Out RSt := fun
          | .err .unexpectedControl s' | .ok s' =>
            -- the original state is restored behind the evaluation of the condition
            .lift s' (evalCond c.fuel (s'.envAt s.ups.length) cond) fun t =>
            if t then readProg c thn s else readProg c els s
          | .err e s' => .err e s'
        decided (readProg c thn { s with look := some n, ignoreAll := true })
  | .abbr n e, s =>
    if s.stopped then .ok s
    else .lift s (introAbbr s.cur n e) fun cur => .ok { s with cur := cur }

/-- endf_parser.py:853-863,965-973: a whole section -/
def readSection (c : RCtx) (ignoreAll : Bool) (p : Prog) : Out RSt :=
  (readProg c p { cur := initWork [], ignoreAll := ignoreAll }).andThen fun s =>
  .lift s (removeWork s.cur) fun cur => .ok { s with cur := cur }

end Verif
