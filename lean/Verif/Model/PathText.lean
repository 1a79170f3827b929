import Verif.Model.Obj
/-
Construction of `EndfPath` objects from texts, integers and tuples, and the views `EndfDict`/`EndfList`
(`endf_parserpy/utils/accessories.py`).
-/
namespace Verif

/-- `s.split(c)` -/
def splitChar (c : Char) : Str → List Str
  | [] => [[]]
  | x :: s =>
    if x = c then [] :: splitChar c s
    else match splitChar c s with
      | [] => [[x]]
      | t :: ts => (x :: t) :: ts

/-- `c.join(texts)` -/
def joinChar (c : Char) : List Str → Str
  | [] => []
  | [s] => s
  | s :: t :: ts => s ++ c :: joinChar c (t :: ts)

/-- `c.isalnum()` for ASCII characters -/
def isAlnum (c : Char) : Bool :=
  isDig c || (65 ≤ c.toNat && c.toNat ≤ 90) || (97 ≤ c.toNat && c.toNat ≤ 122)

/-- `s.isdigit()` -/
def allDigits (s : Str) : Bool := !s.isEmpty && s.all isDig

/-- accessories.py:158-168 `_expand_array_notation` -/
def expandArray (t : Str) : Res (List Str) :=
  if '[' ∈ t then
    if t.getLast? = some ']' then
      let idx := t.idxOf '['
      .ok (t.take idx :: (splitChar ',' ((t.drop (idx + 1)).dropLast)).map strip)
    else .error .valueError
  else .ok [t]

/-- accessories.py:155: `int(x) if x.isdigit() else x` -/
def toEl (x : Str) : PEl := if allDigits x then .idx (digitsVal x) else .name x

/-- accessories.py:181-188 `_validate_path`, one element; `el.replace("_", "").isalnum()` -/
def validEl : PEl → Bool
  | .idx _ => true
  | .name s =>
    let t := s.filter (· ≠ '_')
    (!t.isEmpty && t.all isAlnum && !(s.head?.any isDig)) || s = ['*']

/-- accessories.py:146-157 `_standardize_path_tuple`; the elements are given as texts (`str(x)`) -/
def stdTuple (xs : List Str) : Res Path := do
  let ys ← ((xs.map strip).filter (· ≠ [])).mapM expandArray
  let res := ys.flatten.map toEl
  if res.all validEl then .ok res else .error .valueError

/-- accessories.py:139-144: `EndfPath(s)` for a text -/
def mkPath (s : Str) : Res Path := stdTuple (splitChar '/' s)

/-- `str(x)` for a path element -/
def PEl.text : PEl → Str
  | .idx n => natStr n
  | .name s => s

/-- accessories.py:198-199 `__str__` -/
def pathText (p : Path) : Str := joinChar '/' (p.map PEl.text)

/-- accessories.py:210-216 `__add__` of two paths -/
def pathAdd (p q : Path) : Res Path := stdTuple ((p ++ q).map PEl.text)

/-- element of a tuple used as key -/
inductive Part where
  | text (s : Str)
  | int (n : Int)
  | path (p : Path)

/-- what is accepted as key by `EndfDict` -/
inductive ViewKey where
  | text (s : Str)
  | int (n : Int)
  | seq (l : List Part)
  | path (p : Path)

/-- `EndfPath(part)`; a path is copied (accessories.py:131-135) -/
def Part.toPath : Part → Res Path
  | .text s => mkPath s
  | .int n => mkPath (intStr n)
  | .path p => .ok p

/-- accessories.py:538-548, 563-572: path for a key in `__getitem__` and `__setitem__`; iteration over a path gives
`EndfPath` objects for its elements (line 204-205) -/
def viewPath : ViewKey → Res Path
  | .text s => mkPath s
  | .int n => mkPath (intStr n)
  | .seq l => l.foldlM (fun acc x => do pathAdd acc (← x.toPath)) []
  | .path p => p.foldlM (fun acc x => do pathAdd acc (← mkPath x.text)) []

/-- `str(part)` -/
def Part.str : Part → Str
  | .text s => s
  | .int n => intStr n
  | .path p => pathText p

/-- accessories.py:575-577: path for a key in `__delitem__`; for an `EndfPath` the variable isn't assigned -/
def viewDelPath : ViewKey → Res Path
  | .text s => mkPath s
  | .int n => mkPath (intStr n)
  | .seq l => stdTuple (l.map Part.str)
  | .path _ => .error .unboundLocal

/-- operations on an `EndfDict` -/
inductive VOp where
  | get (k : ViewKey)
  | set (k : ViewKey) (v : Obj)
  | del (k : ViewKey)

/-- accessories.py:537-578: the wrapped object afterwards and the result; objects found by `__getitem__` are wrapped
again, which is not modelled -/
def viewStep (m : PMode) (o : Obj) : VOp → Obj × Res Obj
  | .get k => (o, do pget (← viewPath k) o)
  | .set k v =>
    match viewPath k with
    | .error e => (o, .error e)
    | .ok p => match pset m p o v with
      | .ok o' => (o', .ok .none)
      | .err e o' => (o', .error e)
  | .del k =>
    match viewDelPath k with
    | .error e => (o, .error e)
    | .ok p => match premove p o with
      | .ok o' => (o', .ok .none)
      | .error e => (o, .error e)

/-- a sequence of operations, with all results -/
def viewRun (m : PMode) : Obj → List VOp → Obj × List (Res Obj)
  | o, [] => (o, [])
  | o, op :: ops =>
    let r := viewStep m o op
    let q := viewRun m r.1 ops
    (q.1, r.2 :: q.2)

end Verif
