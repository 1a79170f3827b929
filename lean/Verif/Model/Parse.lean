import Verif.Model.RecipeWrite
import Verif.Model.Write
/-
`EndfParser.parse` (endf_parser.py:909-988) around the interpreter of recipes, for `array_type = "dict"` and without
user supplied parsing functions (`parsing_funs`).
-/
namespace Verif

/-- entry of `tree_dic` for an MF number: a recipe, or recipes by MT number -/
inductive RecipeEntry where
  | tree (p : Prog)
  | byMt (d : Dict Int Prog)

/-- endf_recipe_utils.py:63-71 `get_responsible_recipe_parsetree` -/
def responsible (trees : Dict Int RecipeEntry) (mf mt : Int) : Option Prog :=
  match dGet mf trees with
  | none => none
  | some (.tree p) => some p
  | some (.byMt d) =>
    match dGet mt d with
    | some p => some p
    | none => dGet (-1) d

/-- endf_recipes/utils.py:1-6 `defdic` for the index tuples in use, `(mf,)` and `(mf, mt)`; assigning an item of a recipe
string is a TypeError -/
def defRecipe (trees : Dict Int RecipeEntry) (mf : Int) (mt : Option Int) (p : Prog) : Res (Dict Int RecipeEntry) :=
  match mt with
  | none => .ok (dSet mf (.tree p) trees)
  | some mt =>
    match dGet mf trees with
    | none => .ok (dSet mf (.byMt [(mt, p)]) trees)
    | some (.byMt d) => .ok (dSet mf (.byMt (dSet mt p d)) trees)
    | some (.tree _) => .error .typeError

/-- constructor options and recipes -/
structure PCtx where
  split : SplitOpts := {}
  po : POpts := {}
  wo : WOpts := {}
  fuel : Nat := 100
  trees : Dict Int RecipeEntry

/-- What a parser object remembers between calls and that can influence a later one: the flag
`ignore_all_mismatches` in `parse_opts`.  All other parts of the state are set by `reset_parser_state`
(endf_parser.py:853-863) at the beginning of each section, `internal_array_type` at the beginning of `parse`. -/
structure PObj where
  ignoreAll : Bool
  deriving DecidableEq

/-- arguments of `parse` -/
structure PArgs where
  lines : List Str
  excl : Option Sel := none
  incl : Option Sel := none
  nofail : Bool := false

/-- endf_parser.py:941-986: one section; `curlines += ..` appends to the list that stays in `mfmt_dic` -/
def parseSec (x : PCtx) (a : PArgs) (o : PObj) (mf mt : Int) (lines : List Str) : PObj × Res (SecVal DDic) :=
  match lineAt lines 0 >>= readCtrl x.split.fields.width with
  | .error e => (o, .error e)
  | .ok ctrl =>
    match responsible x.trees mf mt with
    | none => (o, .ok (.verb lines))
    | some p =>
      if shouldSkip mf mt a.excl a.incl then (o, .ok (.verb lines))
      else
        match writeSend x.wo false ctrl with
        | .error e => (o, .error e)
        | .ok send =>
          let cur := lines ++ send
          match readSection ⟨cur, x.split.fields, x.po, x.fuel⟩ o.ignoreAll p with
          | .ok s => (⟨s.ignoreAll⟩, .ok (.data s.cur))
          | .err e s => (⟨s.ignoreAll⟩, if e.isParser && a.nofail then .ok (.verb cur) else .error e)

/-- endf_parser.py:938: `for mt in mfmt_dic[mf]` -/
def parseMts (x : PCtx) (a : PArgs) (mf : Int) : PObj → Dict Int (List Str) → PObj × Res (Dict Int (SecVal DDic))
  | o, [] => (o, .ok [])
  | o, (mt, ls) :: rest =>
    match parseSec x a o mf mt ls with
    | (o1, .error e) => (o1, .error e)
    | (o1, .ok v) =>
      match parseMts x a mf o1 rest with
      | (o2, .error e) => (o2, .error e)
      | (o2, .ok d) => (o2, .ok ((mt, v) :: d))

/-- endf_parser.py:936: `for mf in mfmt_dic` -/
def parseMfs (x : PCtx) (a : PArgs) : PObj → MfDic → PObj × Res (Dict Int (Dict Int (SecVal DDic)))
  | o, [] => (o, .ok [])
  | o, (mf, d) :: rest =>
    match parseMts x a mf o d with
    | (o1, .error e) => (o1, .error e)
    | (o1, .ok v) =>
      match parseMfs x a o1 rest with
      | (o2, .error e) => (o2, .error e)
      | (o2, .ok r) => (o2, .ok ((mf, v) :: r))

/-- endf_parser.py:909-988 `parse`: the object afterwards and the result or the exception -/
def parse (x : PCtx) (o : PObj) (a : PArgs) : PObj × Res (Dict Int (Dict Int (SecVal DDic))) :=
  match splitSections x.split a.lines with
  | .error e => (o, .error e)
  | .ok d => parseMfs x a o d

/-- the constructor -/
def PCtx.fresh (x : PCtx) : PObj := ⟨x.po.ignoreAll⟩

/-- the object after a sequence of calls of `parse`, whatever they returned -/
def PCtx.after (x : PCtx) (o : PObj) (calls : List PArgs) : PObj := calls.foldl (fun o a => (parse x o a).1) o

end Verif
