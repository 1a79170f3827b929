import Verif.Model.Sections
import Mathlib.Data.List.Sort
/-
Functions of `endf_parserpy/utils/endf6_plumbing.py` on the section MF1/MT451.
-/
namespace Verif

/-! ## Text -/

/-- characters at which `str.splitlines` splits (Python semantics) -/
def isBreak (c : Char) : Bool :=
  c = '\n' || c = '\r' || c = '\x0b' || c = '\x0c' || c = '\x1c' || c = '\x1d' || c = '\x1e' ||
  c.toNat = 0x85 || c.toNat = 0x2028 || c.toNat = 0x2029

/-- `str.splitlines` with the characters of the current line in front (Python semantics) -/
def splitAcc : Str → Str → List Str
  | acc, [] => if acc = [] then [] else [acc]
  | acc, '\r' :: '\n' :: s => acc :: splitAcc [] s
  | acc, c :: s => if isBreak c then acc :: splitAcc [] s else splitAcc (acc ++ [c]) s

/-- `s.splitlines()` -/
def splitlines (s : Str) : List Str := splitAcc [] s

/-- `"\n".join(ls)` -/
def joinLines : List Str → Str
  | [] => []
  | [l] => l
  | l :: ls => l ++ '\n' :: joinLines ls

/-- `l[:n]` for any integer (Python semantics) -/
def sliceTo {α : Type} (n : Int) (l : List α) : List α :=
  if 0 ≤ n then l.take n.toNat else l.take (l.length + n).toNat

/-- `l[n:]` for any integer (Python semantics) -/
def sliceFrom {α : Type} (n : Int) (l : List α) : List α :=
  if 0 ≤ n then l.drop n.toNat else l.drop (l.length + n).toNat

/-! ## Description -/

/-- the variables of `endf_dic[1][451]` used here; the other ones are not touched. `descr` and the four arrays of
the directory are dictionaries, `none` if missing. -/
structure Sec451 where
  nwd : Int
  descr : Option (Dict Int Str)
  nxc : Int
  mfx : Option (Dict Int Int)
  mtx : Dict Int Int
  ncx : Dict Int Int
  mod : Dict Int Int

/-- `sorted(d.keys())` -/
def sortedKeys {α : Type} (d : Dict Int α) : List Int := (dKeys d).insertionSort (· ≤ ·)

/-- `d[k]` -/
def dItem {κ α : Type} [DecidableEq κ] (k : κ) (d : Dict κ α) : Res α :=
  match dGet k d with
  | some v => .ok v
  | none => .error .keyError

/-- endf6_plumbing.py:61-79 `get_description` -/
def getDescription (s : Sec451) : Res Str :=
  match s.descr with
  | none => .error .keyError
  | some d => do
    let ls ← (sortedKeys d).mapM fun k => dItem k d
    return joinLines ls

/-- endf6_plumbing.py:100-102: the dictionary with the lines numbered from `k` -/
def numberFrom {α : Type} (k : Int) : List α → Dict Int α
  | [] => []
  | x :: l => (k, x) :: numberFrom (k + 1) l

/-- endf6_plumbing.py:82-103 `set_description` -/
def setDescription (s : Sec451) (text : Str) : Sec451 :=
  let lines := splitlines text
  { s with nwd := lines.length + 5, descr := some (numberFrom 1 (lines.map (ljust · 66))) }

/-- endf6_plumbing.py:106-130 `insert_description` -/
def insertDescription (s : Sec451) (text : Str) (after : Int := 0) : Res Sec451 := do
  let descr ← getDescription s
  let lines := splitlines descr
  let newlines := sliceTo after lines ++ splitlines text
  let newlines := if after < lines.length then newlines ++ sliceFrom after lines else newlines
  return setDescription s (joinLines newlines)

/-! ## Directory -/

/-- endf6_plumbing.py:171-175: the sections of one file -/
def countMts : List (Int × List Str) → Dict Int Int × Nat → Dict Int Int × Nat
  | [], r => r
  | (mt, ls) :: d, (c, n) => if mt = 0 then countMts d (c, n) else countMts d (dSet mt (ls.length : Int) c, n + 1)

/-- endf6_plumbing.py:165-175: `countdic` and `numsecs` -/
def countMfs : List (Int × Dict Int (List Str)) → Dict Int (Dict Int Int) × Nat → Dict Int (Dict Int Int) × Nat
  | [], r => r
  | (mf, sec) :: d, (c, n) =>
    if mf = 0 then countMfs d (c, n)
    else
      let r := countMts sec ((dGet mf c).getD [], n)
      countMfs d (dSet mf r.1 c, r.2)

/-- endf6_plumbing.py:183 -/
def oldKeys (s : Sec451) : List Int :=
  match s.mfx with
  | some d => dKeys d
  | none => []

/-- endf6_plumbing.py:181-188: the MOD numbers of the present directory -/
def oldMods (s : Sec451) : Res (Dict (Int × Int) Int) :=
  (oldKeys s).foldlM (fun m i => do
    let mf ← dItem i (s.mfx.getD [])
    let mt ← dItem i s.mtx
    let x ← dItem i s.mod
    return dSet (mf, mt) x m) []

/-- endf6_plumbing.py:190-201: state of the loop building the four dictionaries -/
structure DirSt where
  i : Int := 0
  mfx : Dict Int Int := []
  mtx : Dict Int Int := []
  ncx : Dict Int Int := []
  mod : Dict Int Int := []

/-- endf6_plumbing.py:197-201 -/
def dirStep (mods : Dict (Int × Int) Int) (mf : Int) (s : DirSt) (e : Int × Int) : DirSt :=
  let i := s.i + 1
  { i := i
    mfx := dSet i mf s.mfx
    mtx := dSet i e.1 s.mtx
    ncx := dSet i e.2 s.ncx
    mod := dSet i ((dGet (mf, e.1) mods).getD 0) s.mod }

/-- endf6_plumbing.py:195-201 -/
def dirLoop (mods : Dict (Int × Int) Int) (c : Dict Int (Dict Int Int)) : DirSt :=
  c.foldl (fun s f => f.2.foldl (dirStep mods f.1) s) {}

/-- endf6_plumbing.py:151-208 `update_directory`, with the sections of the lines (164) given -/
def updateDirWith (mfdic : MfDic) (s : Sec451) : Res Sec451 := do
  let (c, numsecs) := countMfs mfdic ([], 0)
  let len := 4 + s.nwd + (numsecs : Int)
  let f1 ← dItem 1 c
  let c := dSet 1 (dSet 451 len f1) c
  let mods ← oldMods s
  let r := dirLoop mods c
  return { s with mfx := some r.mfx, mtx := r.mtx, ncx := r.ncx, mod := r.mod, nxc := numsecs }

/-- endf6_plumbing.py:133-208 `update_directory`; `lines` are the lines given or those written by the parser, `o`
the reading options (151-160) -/
def updateDirectory (o : SplitOpts) (lines : List Str) (s : Sec451) : Res Sec451 := do
  updateDirWith (← splitSections { o with ignoreTpid := true } lines) s

end Verif
