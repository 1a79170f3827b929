import Verif.Model.Value
/-
Nested Python objects as handled by the classes of `endf_parserpy/utils/accessories.py`, and the class `EndfPath`.

Simplified: objects are values, i.e. no object occurs at two places (see Model/Ident.lean for object identity);
`EndfDict`/`EndfList` objects within other objects are not modelled, so there is nothing to unwrap; texts are ASCII.
-/
namespace Verif

/-- keys of dictionaries -/
inductive PKey where
  | int (n : Int)
  | str (s : Str)
  deriving DecidableEq, Repr

/-- dictionaries, lists, and what they contain -/
inductive Obj where
  | none
  | num (x : PyNum)
  | str (s : Str)
  | dic (d : List (PKey × Obj))
  | lst (l : List Obj)

/-- element of `_path_elements` (accessories.py:169-179): an int for texts of digits, otherwise a name or `*` -/
inductive PEl where
  | idx (n : Nat)
  | name (s : Str)
  deriving DecidableEq, Repr

/-- the element as dictionary key -/
def PEl.key : PEl → PKey
  | .idx n => .int n
  | .name s => .str s

/-- `isinstance(el, int)` -/
def PEl.isIdx : PEl → Bool
  | .idx _ => true
  | .name _ => false

abbrev Path := List PEl

/-- `cur[el]` (Python semantics) -/
def getItem : Obj → PEl → Res Obj
  | .dic d, k => match dGet k.key d with
    | some v => .ok v
    | none => .error .keyError
  | .lst l, .idx n => match l[n]? with
    | some v => .ok v
    | none => .error .indexError
  | .str s, .idx n => match s[n]? with
    | some c => .ok (.str [c])
    | none => .error .indexError
  | _, _ => .error .typeError

/-- accessories.py:220-244 `EndfPath.get` -/
def pget : Path → Obj → Res Obj
  | [], o => .ok o
  | k :: p, o => do pget p (← getItem o k)

/-- `cur[el] = value` (Python semantics) -/
def setItem : Obj → PEl → Obj → Res Obj
  | .dic d, k, v => .ok (.dic (dSet k.key v d))
  | .lst l, .idx n, v => if n < l.length then .ok (.lst (l.set n v)) else .error .indexError
  | _, _, _ => .error .typeError

/-- `len(o)` -/
def objLen : Obj → Res Nat
  | .dic d => .ok d.length
  | .lst l => .ok l.length
  | .str s => .ok s.length
  | _ => .error .typeError

/-- helpers.py:15-22 `list_set`, for any object -/
def listSet (o : Obj) (n : Nat) (v : Obj) : Res Obj := do
  let len ← objLen o
  if n > len then .error .indexError
  else if n = len then
    match o with
    | .lst l => .ok (.lst (l ++ [v]))
    | _ => .error .attributeError
  else setItem o (.idx n) v

/-- helpers.py:25-31 `list_setdefault`: the list afterwards and the element -/
def listSetdefault (o : Obj) (n : Nat) (v : Obj) : Res (Obj × Obj) := do
  let len ← objLen o
  if n > len then .error .indexError
  else if n = len then
    match o with
    | .lst l => .ok (.lst (l ++ [v]), v)
    | _ => .error .attributeError
  else do
    let c ← getItem o (.idx n)
    .ok (o, c)

/-- `cur.setdefault(el, v)`: only dictionaries have the method -/
def dicSetdefault (o : Obj) (k : PEl) (v : Obj) : Res (Obj × Obj) :=
  match o with
  | .dic d => match dGet k.key d with
    | some c => .ok (o, c)
    | none => .ok (.dic (dSet k.key v d), v)
  | _ => .error .attributeError

/-- the object when its element `k` has become `c`; elements are changed in place -/
def putBack : Obj → PEl → Obj → Obj
  | .dic d, k, c => .dic (dSet k.key c d)
  | .lst l, .idx n, c => .lst (l.set n c)
  | o, _, _ => o

/-- attributes `array_type` and `leading` -/
structure PMode where
  dict : Bool := true
  leadDict : Bool := true

/-- outcome of an operation that changes an object: the object afterwards in both cases -/
inductive Mut where
  | ok (o : Obj)
  | err (e : Err) (o : Obj)

def Mut.obj : Mut → Obj
  | .ok o => o
  | .err _ o => o

def Mut.map (f : Obj → Obj) : Mut → Mut
  | .ok o => .ok (f o)
  | .err e o => .err e (f o)

def Mut.isOk : Mut → Bool
  | .ok _ => true
  | .err _ _ => false

/-- operations that raise before they change anything -/
def Mut.of (o : Obj) : Res Obj → Mut
  | .ok o' => .ok o'
  | .error e => .err e o

/-- accessories.py:274-302: body of the loop in `EndfPath.set` for an element that is not the last one -/
def setStep (m : PMode) (lead : Bool) (k next : PEl) (o : Obj) : Res (Obj × Obj) :=
  if m.dict || (lead && m.leadDict) then dicSetdefault o k (.dic [])
  else
    let new := if next.isIdx && !m.dict then .lst [] else .dic []
    match k with
    | .idx n => listSetdefault o n new
    | .name _ => dicSetdefault o k new

/-- accessories.py:274-302: the last element -/
def setLast (m : PMode) (lead : Bool) (k : PEl) (o v : Obj) : Res Obj :=
  if m.dict || (lead && m.leadDict) then setItem o k v
  else
    match k with
    | .idx n => listSet o n v
    | .name _ => setItem o k v

/-- accessories.py:246-302 `EndfPath.set`; `lead` is `in_leading` -/
def psetL (m : PMode) (v : Obj) : Bool → Path → Obj → Mut
  | _, [], o => .ok o
  | lead, [k], o => Mut.of o (setLast m (lead && k.isIdx) k o v)
  | lead, k :: k2 :: p, o =>
    match setStep m (lead && k.isIdx) k k2 o with
    | .error e => .err e o
    | .ok (o1, c) => (psetL m v (lead && k.isIdx) (k2 :: p) c).map (putBack o1 k)

def pset (m : PMode) (p : Path) (o v : Obj) : Mut := psetL m v true p o

/-- accessories.py:304-330 `EndfPath.exists` -/
def pexists (p : Path) (o : Obj) : Res Bool :=
  match pget p o with
  | .ok _ => .ok true
  | .error .keyError => .ok false
  | .error .indexError => .ok false
  | .error .typeError => .ok false
  | .error e => .error e

/-- `del cur[el]` (Python semantics); `del` on a text or number is a TypeError -/
def delItem : Obj → PEl → Res Obj
  | .dic d, k => if dHas k.key d then .ok (.dic (dDel k.key d)) else .error .keyError
  | .lst l, .idx n => if n < l.length then .ok (.lst (l.eraseIdx n)) else .error .indexError
  | _, _ => .error .typeError

/-- accessories.py:332-351 `EndfPath.remove` -/
def premove : Path → Obj → Res Obj
  | [], _ => .error .indexError
  | [k], o => delItem o k
  | k :: k2 :: p, o => do
    let c ← getItem o k
    let c' ← premove (k2 :: p) c
    .ok (putBack o k c')

/-- accessories.py:191-196 `EndfPath.__eq__` -/
def pathEq (p q : Path) : Bool := (p.zip q).all fun x => decide (x.1 = x.2)

end Verif
