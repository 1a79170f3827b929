import Verif.Model.CppFun

/-! The functions of the compiled parser that write one section: the same generator as for reading (`compile` in CppFun.lean), with
the wrappers of compiler/code_generator_writing.py for fields, lines and sections, and what the generated C++ code does.

The result is a list of records: the values that are put into the fields of the lines.  How values become text is modelled in
CppWrite.lean.

Not modelled, besides what is listed in CppFun.lean: `IndexShifter` in the model of C68 (a dictionary is accessed by the indices
themselves; out-of-order access to variables with several indices is undefined in the code); `preserve_value_strings`. -/

namespace Verif

/-- what is written for one record of the recipe: fields by position.  In tables, field 4 (and 5 for TAB1) holds the number of
the entries of INT (and of X), code_generator_core.py:657-662,723-725; they are not repeated here. -/
inductive CRec where
  | text (hl : Str) (ctrl : Ctrl)
  | cont (flds : Dict Nat Val) (ctrl : Ctrl)
  | tab1 (flds : Dict Nat Val) (nbt int xs ys : Val) (ctrl : Ctrl)
  | tab2 (flds : Dict Nat Val) (nbt int : Val) (ctrl : Ctrl)
  | list (flds : Dict Nat Val) (vals : List Val) (ctrl : Ctrl)
  | send (ctrl : Ctrl)

/-- state of a generated function: the variables, and what has been written; `cur.pd` is `cpp_current_dict` -/
structure WFun where
  st : FunSt
  out : List CRec := []

/-- `py::cast<int>`: floats are not accepted, nor are numbers out of the range of `int` -/
def castInt : PyNum → CRes PyNum
  | .int n => if intMin ≤ n ∧ n ≤ intMax then .ok (.int n) else .throw
  | .num _ => .throw

/-- `py::cast<double>` -/
def castDbl (x : PyNum) : PyNum := .num (.flt x.val)

def castInts : List PyNum → CRes (List PyNum)
  | [] => .ok []
  | x :: xs => do
    let y ← castInt x
    let ys ← castInts xs
    .ok (y :: ys)

/-- `py::cast<T>` of a Python object (code_generator_writing_core.py:51-53) -/
def pyCast : CKind → Val → CRes Val
  | .int, .num x => do return .num (← castInt x)
  | .flt, .num x => .ok (.num (castDbl x))
  | .txt, .txt t => .ok (.txt t)
  | .ivec, .lst l => do return .lst (← castInts l)
  | .fvec, .lst l => .ok (.lst (l.map castDbl))
  | _, _ => .throw

/-- index_shifter.hpp:169-174 `get_value` without a default -/
def dictVal (d : DDic) (lv : Dict Name Int) (r : VarRef) : CRes Val := do
  let is ← cIdxs lv r.idx
  match dGet (.var r.name) d with
  | none => .throw
  | some v => match getArr v is with
    | .ok u => .ok u
    | .error _ => .throw

/-- the value of an expression in C++, for given values of the variables -/
def evR (ρ : VarRef → CRes Val) : Expr → CRes PyNum
  | .num x | .desired x => match x with
    | .int n => cInt n
    | .num v => dbl v.val
  | .var r | .incons r => do cNum (← ρ r)
  | .neg a => do cNeg (← evR ρ a)
  | .add a b => do cAdd (← evR ρ a) (← evR ρ b)
  | .sub a b => do cSub (← evR ρ a) (← evR ρ b)
  | .mul a b => do cMul (← evR ρ a) (← evR ρ b)
  | .div a b => do cDiv (← evR ρ a) (← evR ρ b)
  | .mod a b => do cMod (← evR ρ a) (← evR ρ b)

/-- the value of a field of type `k` for given values of the variables -/
def fieldR (ρ : VarRef → CRes Val) (k : CKind) (e : Expr) : CRes Val :=
  match k with
  | .flt | .int => do toKind k (.num (← evR ρ e))
  | _ => match e with
    | .var r | .incons r => ρ r
    | _ => .undef

/-- code_generator_writing_core.py:56-72 `get_expr_value_using_endf_dict`: every variable, also a loop variable, is taken from the
dictionary of the current section -/
def fieldD (s : FunSt) (k : CKind) (e : Expr) : CRes Val :=
  fieldR (fun r => do pyCast k (← dictVal s.cur.pd s.lv r)) k e

/-- what follows behind the write statement of a field: the assignment of a variable as in the reading function
(code_generator_core.py:223-270); there is no validation (code_generator_writing.py:281-282) -/
def setPiece (s : FunSt) (p : Piece) (src : Val) : CRes FunSt :=
  match p.op with
  | .check => .ok s
  | .put guard v sol => do
    let known ← (if guard then didRead s v else .ok false)
    if known then .ok s
    else do
      let x ← solVal s p.e src sol
      assign s v (← toKind p.kind x)
  | .refuse guard v => do
    let known ← (if guard then didRead s v else .ok false)
    if known then .ok s else .throw

/-- one field: `cpp_write_field` (code_generator_writing.py:92-108), then the assignment.  A field whose expression has several
variables is represented by several pieces; it is written once in the code, here for each of them with the same value. -/
def wPiece (s : FunSt) (fs : Dict Nat Val) (p : Piece) : CRes (FunSt × Dict Nat Val) := do
  let src ← fieldD s p.kind p.e
  let s1 ← setPiece s p src
  .ok (s1, dSet p.fld src fs)

def wPieces : List Piece → FunSt → Dict Nat Val → CRes (FunSt × Dict Nat Val)
  | [], s, fs => .ok (s, fs)
  | p :: ps, s, fs => do
    let (s1, fs1) ← wPiece s fs p
    wPieces ps s1 fs1

/-- `std::string::replace`: throws if the start is behind the end -/
def cReplace (l : Str) (start len : Nat) (t : Str) : CRes Str :=
  if l.length < start then .throw else .ok (l.take start ++ t ++ l.drop (start + len))

/-- code_generator_core.py:513-541 with code_generator_writing.py:111-123: texts replace parts of the line.  Simplified: the control
numbers behind column 66 are left out. -/
def wText : List (Nat × Nat × List Piece) → FunSt → Str → CRes (FunSt × Str)
  | [], s, line => .ok (s, line)
  | (ofs, n, ps) :: rest, s, line => do
    let (s1, fs) ← wPieces ps s []
    match dGet 0 fs with
    | some (.txt t) => do
      let line1 ← cReplace line ofs n t
      wText rest s1 line1
    | _ => .undef

/-- endf2cpp_aux_writing.py:77-96 `open_section`: a missing name gives an empty dictionary, a missing index a KeyError -/
def openD (s : FunSt) (r : VarRef) (defs : List VKey) : CRes FunSt := do
  let is ← cIdxs s.lv r.idx
  match dGet (.var r.name) s.cur.pd with
  | none => .ok { s with cur := ⟨defs, [], []⟩, ups := (s.cur, r.name, is) :: s.ups }
  | some v => match getArr v is with
    | .ok (.dic d) => .ok { s with cur := ⟨defs, [], d⟩, ups := (s.cur, r.name, is) :: s.ups }
    | _ => .throw

/-- endf2cpp_aux_writing.py:99-101 `close_section` -/
def closeD (s : FunSt) : CRes FunSt :=
  match s.ups with
  | [] => .undef
  | (outer, _, _) :: rest => .ok { s with cur := outer, ups := rest }

def inBlockD {α : Type} (name : CName) (s : FunSt) (f : FunSt → CRes (FunSt × α)) : CRes (FunSt × α) :=
  match name with
  | none => f s
  | some (r, defs) => do
    let s1 ← openD s r defs
    let (s2, x) ← f s1
    let s3 ← closeD s2
    .ok (s3, x)

/-- the vector in a column -/
def colD (fs : Dict Nat Val) (i : Nat) : CRes Val :=
  match dGet i fs with
  | some v => .ok v
  | none => .undef

/-- `size()` -/
def colLen : Val → Nat
  | .lst l => l.length
  | _ => 0

/-- state while a list body is written: the values so far (`cpp_i` is their number) -/
structure WLFun where
  st : FunSt
  vals : List Val

def WLFun.setLv (v : Name) (i : Option Int) (l : WLFun) : WLFun := { l with st := l.st.setLv v i }

/-- code_generator_core.py:795-849 and endf2cpp_aux.py:255-276.  Simplified: if there are more than NPL values, the code writes some
of them behind the end of the line before it throws. -/
def wBody (fuel : Nat) : LCode → WLFun → CRes WLFun
  | .nil, l => .ok l
  | .seq a b, l => do wBody fuel b (← wBody fuel a l)
  | .expr ps, l => do
    let (s, fs) ← wPieces ps l.st []
    let v ← colD fs 0
    .ok ⟨s, l.vals ++ [v]⟩
  | .loop v a b body, l => do
    let x ← evC l.st a
    runFor (WLFun.setLv v) (fun l => evC l.st b) (wBody fuel body) fuel (← asInt x) l

/-- endf2cpp_aux.py:231-253: the whole list body.  The expression `npl` of the number of values is evaluated again, in the block of
the list (code_generator_core.py:762-788). -/
def wList (fuel : Nat) (npl : Expr) (body : LCode) (s : FunSt) : CRes (FunSt × List Val) := do
  let n ← fieldD s .int npl
  let l ← wBody fuel body ⟨s, []⟩
  match n with
  | .num (.int m) => if l.vals.length = m then .ok (l.st, l.vals) else .throw
  | _ => .undef

/-- the expression of field 4 -/
def nplOf (ps : List Piece) : Expr :=
  match ps.find? (·.fld == 4) with
  | some p => p.e
  | none => .num (.int 0)

/-- values in a lookahead: defaults for names that are not in the dictionary (code_generator_writing.py:99-107,118-122) -/
def lookVal (s : FunSt) (k : CKind) (r : VarRef) : CRes Val := do
  if dHas (.var r.name) s.cur.pd then
    pyCast k (← dictVal s.cur.pd s.lv r)
  else match k with
    | .int => .ok (.num (.int (-99999)))
    | .flt => .ok (.num (.num (.flt (-999999 / 10))))
    | .txt => .ok (.txt (List.replicate 11 ' '))
    | _ => .throw

/-- a field in a lookahead: nothing is written -/
def lookPieceD (s : FunSt) (p : Piece) : CRes FunSt :=
  match p.op with
  | .check => .ok s
  | .put guard v sol => do
    let known ← (if guard then didRead s v else .ok false)
    if known then .ok s
    else do
      let src ← fieldR (lookVal s p.kind) p.kind p.e
      let x ← solVal s p.e src sol
      assign s v (← toKind p.kind x)
  | .refuse guard v => do
    let known ← (if guard then didRead s v else .ok false)
    if known then .ok s else .throw

def lookPiecesD : List Piece → FunSt → CRes FunSt
  | [], s => .ok s
  | p :: ps, s => do lookPiecesD ps (← lookPieceD s p)

def lookStepsD : List (List Piece) → FunSt → CRes FunSt
  | [], s => .ok s
  | ps :: pss, s => do lookStepsD pss (← lookPiecesD ps s)

def WFun.setLv (v : Name) (i : Option Int) (w : WFun) : WFun := { w with st := w.st.setLv v i }

def WFun.put (w : WFun) (s : FunSt) (r : CRec) : WFun := ⟨s, w.out ++ [r]⟩

/-- the generated code; `k` are the numbers `mat`, `mf`, `mt` of the function, `fuel` bounds the iterations of a loop (not in the
code).  Tables whose columns differ in length violate an assertion (module_header_writing.hpp:360-361,397). -/
def writeCode (k : Ctrl) (fuel : Nat) : Code → WFun → CRes WFun
  | .skip, w => .ok w
  | .seq a b, w => do writeCode k fuel b (← writeCode k fuel a w)
  | .text fs, w => do
    let (s, hl) ← wText fs w.st (List.replicate 66 ' ')
    .ok (w.put s (.text hl k))
  | .cont ps, w => do
    let (s, fs) ← wPieces ps w.st []
    .ok (w.put s (.cont fs k))
  | .tab1 ps cols name, w => do
    let (s, fs) ← wPieces ps w.st []
    let (s1, cs) ← inBlockD name s fun s => wPieces cols s []
    let xs ← colD cs 0
    let ys ← colD cs 1
    let int ← colD cs 2
    let nbt ← colD cs 3
    if colLen int = colLen nbt ∧ colLen xs = colLen ys then .ok (w.put s1 (.tab1 fs nbt int xs ys k)) else .undef
  | .tab2 ps cols name, w => do
    let (s, fs) ← wPieces ps w.st []
    let (s1, cs) ← inBlockD name s fun s => wPieces cols s []
    let int ← colD cs 2
    let nbt ← colD cs 3
    if colLen int = colLen nbt then .ok (w.put s1 (.tab2 fs nbt int k)) else .undef
  | .list ps body name, w => do
    let (s, fs) ← wPieces ps w.st []
    let (s1, vals) ← inBlockD name s fun s => wList fuel (nplOf ps) body s
    .ok (w.put s1 (.list fs vals k))
  | .send, w => .ok (w.put w.st (.send { k with mt := 0 }))
  | .sect r defs body, w => do
    let s1 ← openD w.st r defs
    let w2 ← writeCode k fuel body ⟨s1, w.out⟩
    let s3 ← closeD w2.st
    .ok ⟨s3, w2.out⟩
  | .loop v a b body, w => do
    let x ← evC w.st a
    runFor (WFun.setLv v) (fun w => evC w.st b) (writeCode k fuel body) fuel (← asInt x) w
  | .ite cond thn els, w => do if ← condC w.st cond then writeCode k fuel thn w else writeCode k fuel els w
  | .look steps cond thn els, w => do
    -- the variables of the lookahead are copies (code_generator_core.py:430-447)
    let s1 ← lookStepsD steps w.st
    if ← condC s1 cond then writeCode k fuel thn w else writeCode k fuel els w

/-- a control number: a constant of the function, or taken from the dictionary (code_generator_writing.py:309-331) -/
def ctrlD (d : DDic) (n : Name) : Option Int → CRes Int
  | some i => .ok i
  | none => do
    match ← pyCast .int (← dictVal d [] ⟨n, []⟩) with
    | .num (.int i) => .ok i
    | _ => .undef

/-- code_generator_writing.py:285-353: a function for the numbers `mf` and, if given, `mt`; the dictionary gets the control
numbers -/
def writeFun (fuel : Nat) (mf : Int) (mt : Option Int) (code : Code) (defs : List VKey) (d : DDic) : CRes WFun := do
  let mat ← ctrlD d "MAT" none
  let mt ← ctrlD d "MT" mt
  let k : Ctrl := ⟨mat, mf, mt⟩
  let int (n : Int) : CTree := .leaf (.num (.int n))
  let s : FunSt :=
    { cur := ⟨defs, [(("MAT", 0), int mat), (("MF", 0), int mf), (("MT", 0), int mt)], setCtrl k d⟩, ls := [] }
  writeCode k fuel code ⟨s, []⟩

end Verif
