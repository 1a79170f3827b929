import Verif.Model.Recipe
/-
The recipe interpreter in writing direction: endf_parser.py:434-851 with `rwmode = "write"`, for
`internal_array_type = "dict"`.
-/
namespace Verif

/-- Parser state while writing: dictionaries, loop variables and the records produced so far -/
structure WSt where
  cur : DDic
  ups : List (DDic × Name × List Int) := []
  lv : Dict Name Int := []
  out : List ARec := []

def WSt.outer (s : WSt) : List DDic := s.ups.map Prod.fst

def WSt.env (s : WSt) : Env := ⟨s.cur, s.outer, s.lv⟩

/-- `while "MAT" not in dic and "__up" in dic: dic = dic["__up"]` (endf_mappings.py:30-31, endf_utils.py:58-59) -/
def matScope : DDic → List DDic → DDic
  | d, [] => d
  | d, u :: us => if !dHas (.var "MAT") d && dHas .up d then matScope u us else d

/-- one control number as an integer.  Simplified: numbers that are not Python ints are a TypeError (the code would
print them with `format`). -/
def ctrlNum (d : DDic) (n : Name) : Res Int :=
  match dGet (.var n) d with
  | none => .error .variableNotFound
  | some (.num (.int i)) => .ok i
  | some _ => .error .typeError

/-- endf_utils.py:57-68 `get_ctrl` together with the test for missing control numbers endf_mappings.py:32-34 -/
def getCtrl (s : WSt) : Res Ctrl := do
  let d := matScope s.cur s.outer
  let mat ← ctrlNum d "MAT"
  let mf ← ctrlNum d "MF"
  let mt ← ctrlNum d "MT"
  return ⟨mat, mf, mt⟩

/-- the existing dictionary below a name and indices (meta_control_utils.py:82-118 with `create_missing=False`) -/
def subDicW : Option Val → List Int → Res DDic
  | none, _ => .error .missingSection
  | some (.dic d), [] => .ok d
  | some (.dic d), i :: is => subDicW (dGet (Key.idx i) d) is
  | some _, _ => .error .typeError

/-- meta_control_utils.py:67-124 `open_section` in writing direction -/
def openW (s : WSt) (r : VarRef) : Res WSt := do
  if !dHas (.var r.name) s.cur then .error .missingSection
  else
    let is ← r.idx.mapM (idxVal s.lv)
    let d ← subDicW (dGet (.var r.name) s.cur) is
    return { s with cur := dSet .up .mark d, ups := (s.cur, r.name, is) :: s.ups }

/-- meta_control_utils.py:127-133 `close_section` -/
def closeW (s : WSt) : Res WSt := do
  match s.ups with
  | [] => .error .keyError
  | (outer, n, is) :: rest =>
    let new ← setArr (dGet (.var n) outer) is (.dic (dDel .up s.cur))
    return { s with cur := dSet (.var n) new outer, ups := rest }

/-- meta_control_utils.py:174-176: the iterations -/
def iterateW {σ : Type} (setVar : Int → σ → σ) (body : σ → Res σ) : List Int → σ → Res σ
  | [], s => .ok s
  | i :: is, s => do iterateW setVar body is (← body (setVar i s))

/-- state while a list body is written: values so far (`len(vals)` is `val_idx`) and loop variables -/
structure WLSt where
  vals : List PyNum
  lv : Dict Name Int

def WLSt.setVar (v : Name) (i : Int) (l : WLSt) : WLSt := { l with lv := dSet v i l.lv }

/-- endf_mappings.py:312-389 `parse_list_body_node` in writing direction -/
def writeBody (fuel : Nat) (s : WSt) : LBody → WLSt → Res WLSt
  | .nil, l => .ok l
  | .seq a b, l => do writeBody fuel s b (← writeBody fuel s a l)
  | .expr e, l => do
    let v ← evalKnown fuel ⟨s.cur, s.outer, l.lv⟩ false false e
    let x ← v.scalar
    return { l with vals := l.vals ++ [x] }
  | .pad, l => .ok { l with vals := l.vals ++ List.replicate ((6 - l.vals.length % 6) % 6) (.num (.flt 0)) }
  | .loop v a b body, l => do
    let (x, y) ← loopHead fuel ⟨s.cur, s.outer, l.lv⟩ v a b
    let l ← iterateW (WLSt.setVar v) (writeBody fuel s body) (intRange x y) l
    return if x ≤ y then { l with lv := dDel v l.lv } else l

/-- evaluate something inside a named sub-dictionary if a name is given -/
def inTableW {α : Type} (name : Option VarRef) (s : WSt) (f : WSt → Res α) : Res α :=
  match name with
  | none => f s
  | some r => do f (← openW s r)

/-- endf_parser.py:440-755 `process_*_line` in writing direction: the record that is produced -/
def writeAct (fuel : Nat) (s : WSt) : Act → Res ARec
  | .text k fs => do
    let c ← getCtrl s
    checkCtrl k c
    let hl ← mapTextWrite fuel s.env fs
    return ⟨.text, [.txt hl], [], c⟩
  | .cont isHead k fs => do
    let c ← getCtrl s
    checkCtrl k c
    return ⟨if isHead then .head else .cont, ← mapWrite fuel s.env fs, [], c⟩
  | .dir k fs => do
    let c ← getCtrl s
    checkCtrl k c
    return ⟨.dir, ← mapWrite fuel s.env fs, [], c⟩
  | .intg k fs nd => do
    let c ← getCtrl s
    checkCtrl k c
    let vals ← mapWrite fuel s.env fs
    match ← evalKnown fuel s.env true true nd with
    | .num (.int n) => return ⟨.intg n, vals, [], c⟩
    | _ => .error .typeError
  | .tab1 k fs x y name => do
    let c ← getCtrl s
    checkCtrl k c
    let vals ← mapWrite fuel s.env (fs.take 4)
    let cols ← inTableW name s fun s1 => mapWrite fuel s1.env (nbtInt ++ [.var x, .var y])
    return ⟨.tab1, vals, cols, c⟩
  | .tab2 k fs name => do
    let c ← getCtrl s
    checkCtrl k c
    let vals ← mapWrite fuel s.env (fs.take 4 ++ fs.drop 5)
    let cols ← inTableW name s fun s1 => mapWrite fuel s1.env nbtInt
    return ⟨.tab2, vals, cols, c⟩
  | .list k fs body name => do
    let c ← getCtrl s
    checkCtrl k c
    let vals ← mapWrite fuel s.env fs
    let l ← inTableW name s fun s1 => writeBody fuel s1 body ⟨[], s1.lv⟩
    return ⟨.list, vals, [.lst l.vals], c⟩
  | .send => do
    let c ← getCtrl s
    return ⟨.send, [], [], { c with mt := 0 }⟩
  | .stop => .error .stop

def WSt.setVar (v : Name) (i : Int) (s : WSt) : WSt := { s with lv := dSet v i s.lv }

/-- endf_parser.py:836-851 `run_instruction` in writing direction; a lookahead is not performed
(meta_control_utils.py:362-366) -/
def writeProg (fuel : Nat) : Prog → WSt → Res WSt
  | .skip, s => .ok s
  | .seq a b, s => do writeProg fuel b (← writeProg fuel a s)
  | .act a, s => do
    let r ← writeAct fuel s a
    return { s with out := s.out ++ [r] }
  | .sect r body, s => do
    let s1 ← openW s r
    let s2 ← writeProg fuel body { s1 with cur := initWork s1.cur }
    let cur ← removeWork s2.cur
    closeW { s2 with cur := cur }
  | .loop v a b body, s => do
    let (x, y) ← loopHead fuel s.env v a b
    let s ← iterateW (WSt.setVar v) (writeProg fuel body) (intRange x y) s
    return if x ≤ y then { s with lv := dDel v s.lv } else s
  | .ite cond _ thn els, s => do
    if ← evalCond fuel s.env cond then writeProg fuel thn s else writeProg fuel els s
  | .abbr n e, s => do return { s with cur := ← introAbbr s.cur n e }

/-- endf_parser.py:1025-1046: a whole section; the dictionary afterwards and the records -/
def writeSection (fuel : Nat) (mf mt : Int) (p : Prog) (d : DDic) : Res WSt := do
  -- endf_parser.py:1030-1039
  let d := if dHas (.var "MF") d then d else dSet (.var "MF") (.num (.int mf)) d
  if (← ctrlNum d "MF") ≠ mf then .error .unexpectedControl
  else
    let d := if dHas (.var "MT") d then d else dSet (.var "MT") (.num (.int mt)) d
    if (← ctrlNum d "MT") ≠ mt then .error .unexpectedControl
    else
      let s ← writeProg fuel p { cur := initWork d }
      return { s with cur := ← removeWork s.cur }

/-- a field as float / in an integer slot -/
def Val.toNum : Val → Res Num
  | .num (.int n) => .ok (.flt n)
  | .num (.num x) => .ok x
  | _ => .error .typeError

def Val.toSlot : Val → Res Slot
  | .num (.int n) => .ok (.int n)
  | .num (.num x) => .ok (.flt x.val)
  | _ => .error .typeError

/-- a field that is written with `str()` (endf_utils.py:104-113,137-146).  Simplified: anything but an int is an
error, where Python would print the float. -/
def Val.toInt : Val → Res Int
  | .num (.int n) => .ok n
  | _ => .error .typeError

def Val.toNums : Val → Res (List Num)
  | .lst l => l.mapM fun x => (Val.num x).toNum
  | _ => .error .typeError

def Val.toInts : Val → Res (List Int)
  | .lst l => l.mapM fun x => (Val.num x).toInt
  | _ => .error .typeError

def contOf (vs : List Val) (c : Ctrl) : Res ContRec :=
  match vs with
  | [a, b, l1, l2, n1, n2] => do
    return ⟨← a.toNum, ← b.toNum, ← l1.toSlot, ← l2.toSlot, ← n1.toSlot, ← n2.toSlot, c⟩
  | _ => .error .typeError

/-- lines of a record: the calls of `write_*` in endf_parser.py:440-755 -/
def renderRec (o : WOpts) (zab : Bool) (r : ARec) : Res (List Str) :=
  match r.kind, r.flds, r.tbl with
  | .text, [.txt hl], _ => .ok (writeText o ⟨hl, r.ctrl⟩)
  | .head, vs, _ => do writeCont o (← contOf vs r.ctrl)
  | .cont, vs, _ => do writeCont o (← contOf vs r.ctrl)
  | .dir, [a, b, c, d], _ => do return writeDir o ⟨← a.toInt, ← b.toInt, ← c.toInt, ← d.toInt, r.ctrl⟩
  | .intg nd, [a, b, k], _ => do return writeIntg o nd ⟨← a.toInt, ← b.toInt, ← k.toInts, r.ctrl⟩
  | .tab1, vs, [nbt, int, xs, ys] => do
    let h ← contOf (vs ++ [.num (.int 0), .num (.int 0)]) r.ctrl
    writeTab1 o ⟨h, ← nbt.toInts, ← int.toInts, ← xs.toNums, ← ys.toNums⟩
  | .tab2, vs, [nbt, int] => do
    let h ← contOf (vs.take 4 ++ [.num (.int 0)] ++ vs.drop 4) r.ctrl
    writeTab2 o ⟨h, ← nbt.toInts, ← int.toInts⟩
  | .list, vs, [vals] => do writeList o ⟨← contOf vs r.ctrl, ← vals.toNums⟩
  | .send, _, _ => writeSend o zab r.ctrl
  | _, _, _ => .error .typeError

/-- endf_parser.py:1028-1046: the lines of a section written with a recipe and the control numbers in its dictionary.
Simplified: the lines are made from the records at the end instead of record by record, so that another exception may
be seen first if several occur. -/
def sectionLines (fuel : Nat) (o : WOpts) (zab : Bool) (mf mt : Int) (p : Prog) (d : DDic) : Res (List Str × Ctrl) := do
  let s ← writeSection fuel mf mt p d
  let ls ← s.out.mapM (renderRec o zab)
  return (ls.flatten, ← getCtrl s)

end Verif
