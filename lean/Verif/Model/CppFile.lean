import Verif.Model.CppTape
import Verif.Model.CppLines
import Verif.Model.CppWriteFun
import Verif.Model.CppAbbr
import Verif.Model.Parse
/-
The compiled parser as a whole: the functions generated for the recipes inside of the functions `parse_endf` and `write_endf`.
-/
namespace Verif

/-- code_generator_writing.py:539-565 and code_generator_parsing.py:488-514: the number MT that is a constant of the function responsible for a section; none for a recipe
of a whole MF file and for the recipe with the number -1 -/
def ownMt (trees : Dict Int RecipeEntry) (mf mt : Int) : Option Int :=
  match dGet mf trees with
  | some (.byMt d) => if mt = -1 then none else (dGet mt d).map fun _ => mt
  | _ => none

/-- code_generator_writing.py:285-353, 232-243 and endf2cpp_aux_writing.py: the function `write_mf…_mt…_ostream` of a recipe: the written
lines, `none` if there is no result.  Simplified: recipes the model of the code generator does not cover (`compile`) and undefined
behaviour inside of the function have no result; `preserve_value_strings` is off. -/
def funLines (o : WOpts) (fuel : Nat) (p : Prog) (mf : Int) (omt : Option Int) (d : DDic) : Option (List Str) :=
  match compile 50 (writeOut p) with
  | none => none
  | some (code, defs) =>
    match ctrlD d "MT" omt, writeFun fuel mf omt code defs d with
    | .ok mt, .ok v => recLines o false (cppFirst mf mt) v.out
    | _, _ => none

/-- code_generator_writing.py:356-488: the compiled parser with the recipes of `x`; the functions are chosen by
code_generator_writing.py:415-455 as by the interpreter (endf_recipe_utils.py:63-71); MAT is taken from the dictionary
(cpp_templates/module_header_writing.hpp:441-461) -/
def PCtx.compiled (x : PCtx) (excl incl : Option Sel) (fuel : Nat) : CWrite DDic :=
  { o := x.wo
    should := fun mf mt => match shouldParseCpp mf mt excl incl with | .ok b => some b | .error _ => none
    fn := fun mf mt => (responsible x.trees mf mt).map fun p => funLines x.wo fuel p mf (ownMt x.trees mf mt)
    mat := fun d => match ctrlD d "MAT" none with | .ok n => some n | _ => none }

/-- code_generator_parsing.py:160-227: the function `parse_mf…_mt…_istream` of a recipe: the dictionary and what is left of the stream.
Simplified: recipes the model of the code generator does not cover (`compile`) have no result. -/
def funRead (cc : FunCtx) (p : Prog) (mf : Int) (omt : Option Int) (lines : List Str) : CRes (DDic × List Str) :=
  match compile 50 (writeOut p) with
  | none => .undef
  | some (code, defs) => readFun cc mf omt code defs lines

/-- code_generator_parsing.py:279-428, 482-514: the compiled parser with the recipes of `x`; the functions are chosen by
code_generator_parsing.py:315-357 as by the interpreter (endf_recipe_utils.py:63-71) -/
def PCtx.reader (x : PCtx) (excl incl : Option Sel) (cc : FunCtx) : CTape DDic :=
  { acc := cc.acc
    validate := cc.validate
    should := fun mf mt => match shouldParseCpp mf mt excl incl with | .ok b => some b | .error _ => none
    fn := fun mf mt => (responsible x.trees mf mt).map fun p => funRead cc p mf (ownMt x.trees mf mt) }

end Verif
