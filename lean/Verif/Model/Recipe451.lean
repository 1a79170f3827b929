import Verif.Model.RecipeWrite
import Verif.Model.Plumbing

/-! The recipe of MF1/MT451, in the abstract syntax of `Model/Recipe.lean`. -/

namespace Verif

/-- a plain variable -/
def pv (n : Name) : Expr := .var ⟨n, []⟩

/-- an array element with the loop variable `i` as index -/
def pvi (n : Name) : Expr := .var ⟨n, [.var "i"]⟩

/-- `[MAT, 1,451/ ...]` -/
def c451 : CSpec := ⟨none, some 1, some 451⟩

/-- a text field with a length -/
def tf (n : Name) (len : Nat) : TextField := ⟨some ⟨n, []⟩, some len⟩

/-- `{n}`: columns without a variable -/
def tfill (len : Nat) : TextField := ⟨none, some len⟩

/-- endf_recipes/endf6/endf_recipe_mf1_mt451.py:122-125: the four leading records -/
def head451 : Prog :=
  .seq (.act (.cont true c451 [pv "ZA", pv "AWR", pv "LRP", pv "LFI", pv "NLIB", pv "NMOD"]))
  (.seq (.act (.cont false c451 [pv "ELIS", pv "STA", pv "LIS", pv "LISO", .num (.int 0), pv "NFOR"]))
  (.seq (.act (.cont false c451 [pv "AWI", pv "EMAX", pv "LREL", .num (.int 0), pv "NSUB", pv "NVER"]))
  (.act (.cont false c451 [pv "TEMP", .num (.num (.flt 0)), pv "LDRV", .num (.int 0), pv "NWD", pv "NXC"]))))

/-- endf_recipes/endf6/endf_recipe_mf1_mt451.py:127-132: the five text lines every material has -/
def text451 : Prog :=
  .seq (.act (.text c451 [tf "ZSYMAM" 11, tf "ALAB" 11, tf "EDATE" 10, tfill 1, tf "AUTH" 33]))
  (.seq (.act (.text c451 [tfill 1, tf "REF" 21, tf "DDATE" 10, tfill 1, tf "RDATE" 10, tfill 12, tf "ENDATE" 8,
    tfill 3]))
  (.loop "i" (.num (.int 1)) (.num (.int 3)) (.act (.text c451 [⟨some ⟨"HSUB", [.var "i"]⟩, none⟩]))))

/-- endf_recipes/endf6/endf_recipe_mf1_mt451.py:133-135 -/
def descr451 : Prog :=
  .loop "i" (.num (.int 1)) (.sub (pv "NWD") (.num (.int 5)))
    (.act (.text c451 [⟨some ⟨"DESCRIPTION", [.var "i"]⟩, none⟩]))

/-- endf_recipes/endf6/endf_recipe_mf1_mt451.py:136-138 -/
def dir451 : Prog :=
  .loop "i" (.num (.int 1)) (pv "NXC") (.act (.dir c451 [pvi "MFx", pvi "MTx", pvi "NCx", pvi "MOD"]))

/-- endf_recipes/endf6/endf_recipe_mf1_mt451.py:122-139 -/
def recipe451 : Prog := .seq head451 (.seq text451 (.seq descr451 (.seq dir451 (.act .send))))

/-- an array of ints stored in a section (dict mode).  Simplified: other entries are left out. -/
def intArr : Val → Dict Int Int
  | .dic d => d.filterMap fun p => match p with
    | (.idx i, .num (.int n)) => some (i, n)
    | _ => none
  | _ => []

/-- an array of texts stored in a section (dict mode).  Simplified: other entries are left out. -/
def txtArr : Val → Dict Int Str
  | .dic d => d.filterMap fun p => match p with
    | (.idx i, .txt t) => some (i, t)
    | _ => none
  | _ => []

/-- `endf_dic[1][451][name]` for an integer.  Simplified: 0 if missing. -/
def intOf (n : Name) (d : DDic) : Int :=
  match dGet (.var n) d with
  | some (.num (.int i)) => i
  | _ => 0

/-- the variables of the section of MF1/MT451 that `endf6_plumbing.py` looks at -/
def sec451 (d : DDic) : Sec451 :=
  { nwd := intOf "NWD" d
    descr := (dGet (.var "DESCRIPTION") d).map txtArr
    nxc := intOf "NXC" d
    mfx := (dGet (.var "MFx") d).map intArr
    mtx := ((dGet (.var "MTx") d).map intArr).getD []
    ncx := ((dGet (.var "NCx") d).map intArr).getD []
    mod := ((dGet (.var "MOD") d).map intArr).getD [] }

/-- an array of ints as stored in a section -/
def arrVal (a : Dict Int Int) : Val := .dic (a.map fun p => (.idx p.1, .num (.int p.2)))

/-- endf6_plumbing.py:203-208: the new directory is stored in the section -/
def put451 (s : Sec451) (d : DDic) : DDic :=
  dSet (.var "NXC") (.num (.int s.nxc)) (dSet (.var "MOD") (arrVal s.mod) (dSet (.var "NCx") (arrVal s.ncx)
    (dSet (.var "MTx") (arrVal s.mtx) (dSet (.var "MFx") (arrVal (s.mfx.getD [])) d))))

end Verif
