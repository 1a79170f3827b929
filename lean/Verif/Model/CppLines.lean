import Verif.Model.CppWriteFun
import Verif.Model.CppTape
import Verif.Model.RecipeWrite
/-
Model of the lines the generated functions write for the records of `CppWriteFun.lean`:
`endf_parserpy/compiler/cpp_templates/module_header_writing.hpp`, `endf_parserpy/compiler/code_generator_core.py:478-792`,
`endf_parserpy/compiler/endf2cpp_aux.py:229-276`.
-/
namespace Verif

/-- a number in a float field -/
def PyNum.toNum : PyNum → Num
  | .int n => .flt n
  | .num x => x

/-- cpp_templates/module_header_writing.hpp:336-355 `cpp_write_field`: the text of field `j` of a CONT line.  The first two fields are
of type float, the others of type int (code_generator_core.py:492), so that the conversion to an integer changes nothing. -/
def fieldText (o : WOpts) (pres : Bool) (j : Nat) : Val → Option Str
  | .num y => if j < 2 then cppFloatField o pres y.toNum else some (cppIntText (truncRat y.val))
  | _ => none

/-- the fields of a line, put at their places.  Simplified: from left to right, where the code follows the recipe; the places do not
overlap. -/
def putAll (o : WOpts) (pres : Bool) (fs : Dict Nat Val) : List Nat → Str → Option Str
  | [], l => some l
  | j :: js, l => match dGet j fs with
    | none => putAll o pres fs js l
    | some v => do
      let t ← fieldText o pres j v
      putAll o pres fs js (putField l j t)

/-- the line with the six fields of a record, and the new `linenum` -/
def headLine (o : WOpts) (pres : Bool) (c : Ctrl) (fs : Dict Nat Val) (ln : Int) : Option (Str × Int) := do
  let p := cppPrepareLine o.includeLinenum c ln
  let l ← putAll o pres fs [0, 1, 2, 3, 4, 5] p.1
  return (l, p.2)

/-- columns of a table -/
def colInts : Val → Option (List Int)
  | .lst l => some (l.map fun y => truncRat y.val)
  | _ => none

def colNums : Val → Option (List Num)
  | .lst l => some (l.map PyNum.toNum)
  | _ => none

/-- the lines of a record (without newlines), and the new `linenum`; `none` if an exception is thrown.
code_generator_core.py:513-541 (TEXT), 599-618 (CONT, DIR), 621-690 (TAB1: the counters are put into fields 4 and 5 of the first line),
693-749 (TAB2), 752-792 with endf2cpp_aux.py:229-276 (LIST: a line for the body is prepared even if there is nothing to write),
cpp_templates/module_header_writing.hpp:416-438 (SEND) -/
def CRec.lines (o : WOpts) (pres : Bool) (ln : Int) : CRec → Option (List Str × Int)
  | .text hl c =>
    let p := cppPrepareLine o.includeLinenum c ln
    some ([hl ++ p.1.drop 66], p.2)
  | .cont fs c => do
    let (l, ln) ← headLine o pres c fs ln
    return ([l], ln)
  | .tab1 fs nbt int xs ys c => do
    let nbt ← colInts nbt
    let int ← colInts int
    let xs ← colNums xs
    let ys ← colNums ys
    let (l, ln) ← headLine o pres c (dSet 5 (.num (.int xs.length)) (dSet 4 (.num (.int int.length)) fs)) ln
    let (b, ln) ← cppWriteTab1 o pres c ⟨nbt, int, xs, ys⟩ ln
    return (l :: b, ln)
  | .tab2 fs nbt int c => do
    let nbt ← colInts nbt
    let int ← colInts int
    let (l, ln) ← headLine o pres c (dSet 4 (.num (.int int.length)) fs) ln
    let (b, ln) := cppWriteTab2 o.includeLinenum c nbt int ln
    return (l :: b, ln)
  | .list fs vals c => do
    let (l, ln) ← headLine o pres c fs ln
    let ts ← vals.mapM (fieldText o pres 0)
    let (b, ln) := cppFill o.includeLinenum c ts ln
    return (l :: b, ln)
  | .send c => do
    let l ← cppSend o pres c.mat c.mf
    return ([l], ln)

/-- the lines of a section: code_generator_writing.py:224-262, the records one after the other -/
def recLines (o : WOpts) (pres : Bool) : Int → List CRec → Option (List Str)
  | _, [] => some []
  | ln, r :: rs => do
    let (l, ln) ← r.lines o pres ln
    let ls ← recLines o pres ln rs
    return l ++ ls

end Verif
