import Verif.Model.Sections
import Mathlib.Data.List.Sort
/-
Model of the assembly of a tape by `EndfParser.write` (endf_parser.py:990-1146) around the texts of the
sections, and of the selection of sections.
-/
namespace Verif

/-- element of an `exclude`/`include` sequence: a number, a tuple of numbers, or another iterable of numbers
(e.g. a list) -/
inductive SelItem where
  | num (n : Int)
  | tup (l : List Int)
  | lst (l : List Int)
  deriving DecidableEq, Repr

/-- `exclude`/`include` argument different from None -/
inductive Sel where
  | one (n : Int)
  | many (l : List SelItem)
  deriving DecidableEq, Repr

/-- endf_parser.py:889-896: normalisation of the argument -/
def Sel.norm : Sel → List SelItem
  | .one n => [.num n]
  | .many l => l.map fun
    | .lst t => .tup t
    | x => x

/-- endf_parser.py:887-907 `should_skip_section` -/
def shouldSkip (mf mt : Int) (excl incl : Option Sel) : Bool :=
  match excl with
  | none =>
    match incl with
    | some inc => !(inc.norm.contains (.num mf)) && !(inc.norm.contains (.tup [mf, mt]))
    | none => false
  | some exc =>
    if exc.norm.contains (.num mf) then true
    else if exc.norm.contains (.tup [mf, mt]) then true
    else false

/-- compiler/cpp_templates/module_header.hpp:49-57 `seq_contains`: a list never equals a tuple -/
def seqContains (l : List SelItem) (x : SelItem) : Bool := l.any (fun y => decide (y = x))

/-- compiler/cpp_templates/module_header.hpp:60-83 `should_parse_section` of the compiled parser -/
def shouldParseCpp (mf mt : Int) (excl incl : Option Sel) : Res Bool :=
  match excl with
  | some (.one _) => .error .typeError
  | some (.many l) => .ok (if seqContains l (.num mf) || seqContains l (.tup [mf, mt]) then false else true)
  | none =>
    match incl with
    | some (.one _) => .error .typeError
    | some (.many l) => .ok (if seqContains l (.num mf) || seqContains l (.tup [mf, mt]) then true else false)
    | none => .ok true

/-- value stored for an MF/MT section: the lines of an unparsed section, or data of a parsed one -/
inductive SecVal (α : Type) where
  | verb (lines : List Str)
  | data (x : α)

/-- settings of `write`: output options, reading width, `zero_as_blank`, `exclude`, `include`, and the execution of
the recipes: for a section with a recipe the lines it produced and the control numbers left in `datadic`
(endf_parser.py:1034-1046); `none` if there is no recipe for MF/MT. -/
structure WriteEnv (α : Type) where
  o : WOpts := {}
  r : ROpts := {}
  zab : Bool := false
  excl : Option Sel := none
  incl : Option Sel := none
  render : Int → Int → α → Option (Res (List Str × Ctrl))

/-- endf_parser.py:1019-1109: lines of one section and the control numbers used for FEND -/
def writeSec {α : Type} (e : WriteEnv α) (mf mt : Int) (v : SecVal α) : Res (List Str × Ctrl) :=
  match v with
  | .data x =>
    match e.render mf mt x with
    | none => .error .keyError
    | some res => do
      let (ls, c) ← res
      if mf ≠ 0 then
        let nums ← addLinenumbers e.o ls.dropLast
        return (nums ++ ls.drop (ls.length - 1), c)
      else
        return (← addLinenumbers e.o ls, c)
  | .verb ls => do
    let nums ← addLinenumbers e.o ls
    let c ← readCtrl e.r.width (← lineAt nums (nums.length - 1))
    if mf ≠ 0 then return (nums ++ (← writeSend e.o e.zab c), c)
    else return (nums, c)

/-- `sorted(dict)` together with the values -/
def dSort {α : Type} (d : Dict Int α) : List (Int × α) := d.insertionSort (fun a b => a.1 ≤ b.1)

/-- endf_parser.py:1014-1110: the sections of one MF; the second component is the `datadic` of the section written
last, `none` if there was none -/
def writeMts {α : Type} (e : WriteEnv α) (mf : Int) : List (Int × SecVal α) → Option Ctrl → Res (List Str × Option Ctrl)
  | [], c => .ok ([], c)
  | (mt, v) :: rest, c =>
    if shouldSkip mf mt e.excl e.incl then writeMts e mf rest c
    else do
      let (ls, c') ← writeSec e mf mt v
      let (ls', c'') ← writeMts e mf rest (some c')
      return (ls ++ ls', c'')

/-- endf_parser.py:1012-1122 -/
def writeMfs {α : Type} (e : WriteEnv α) : List (Int × Dict Int (SecVal α)) → Res (List Str)
  | [] => .ok []
  | (mf, d) :: rest => do
    let (ls, c) ← writeMts e mf (dSort d) none
    let fend ← match c with
      | some c => if mf ≠ 0 then writeFend e.o e.zab c else .ok []
      | none => .ok []
    let ls' ← writeMfs e rest
    return ls ++ fend ++ ls'

/-- endf_parser.py:990-1146 `write`.  Simplified: the execution of recipes is a parameter; the checks of array
access and the error messages are not modelled here. -/
def writeTape {α : Type} (e : WriteEnv α) (dic : Dict Int (Dict Int (SecVal α))) : Res (List Str) := do
  let body ← writeMfs e (dSort dic)
  let mend ← writeMend e.o e.zab
  let tend ← writeTend e.o e.zab
  return body ++ mend ++ tend

end Verif
