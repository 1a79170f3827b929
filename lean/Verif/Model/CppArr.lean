import Verif.Model.CppLib
import Verif.Model.Eval

/-! Containers of the compiled parser for variables with indices: compiler/cpp_types/cpp_type_nested_vector/definition.py
and compiler/cpp_types/cpp_type_matrix2d/definition.py. -/

namespace Verif

/-- A C++ variable: a scalar (`leaf`), or a `NestedVector` with `startIndex`, `lastIndex` and its elements
(cpp_type_nested_vector/definition.py:14-36).  A scalar can also be a table column, hence `Val`. -/
inductive CTree where
  | leaf (v : Val)
  | vec (start last : Int) (es : List CTree)

/-- cpp_type_nested_vector/definition.py:94-96 `contains` -/
def vcontains (start last i : Int) : Bool := decide (start ≤ i) && decide (i ≤ last)

/-- cpp_type_nested_vector/definition.py:75-92 `set` -/
def vset (start last : Int) (es : List CTree) (i : Int) (e : CTree) : CRes CTree :=
  let first := decide (last = -1)
  let start := if first then i else start
  let last := if first then i else last
  if i = start + es.length then .ok (.vec start (if first then last else last + 1) (es ++ [e]))
  else if start ≤ i ∧ i < start + es.length then .ok (.vec start last (es.set (i - start).toNat e))
  else .throw

/-- The statements `ptr1 = var.prepare(i1); ptr2 = ptr1->prepare(i2); ...; ptr->set(ik, value)`
(cpp_type_nested_vector/assign.py:59-88) with `prepare` (definition.py:68-73) and the default constructor (20).
`none` is the variable before the first assignment.  `prepare` of an index that is not there sets an empty element first,
which is then filled. -/
def vput : List Int → Option CTree → Val → CRes CTree
  | [], _, v => .ok (.leaf v)
  | _ :: _, some (.leaf _), _ => .undef
  | i :: is, none, v => do
    let e ← vput is none v
    vset 0 (-1) [] i e
  | i :: is, some (.vec start last es), v => do
    let old := if vcontains start last i then es[(i - start).toNat]? else none
    let e ← vput is old v
    vset start last es i e

/-- a chain of `operator[]` (definition.py:57-62); an element outside of the memory of the vector is undefined behaviour -/
def vget : List Int → CTree → CRes Val
  | [], .leaf v => .ok v
  | [], .vec _ _ _ => .undef
  | _ :: _, .leaf _ => .undef
  | i :: is, .vec start last es =>
    if vcontains start last i then
      match es[(i - start).toNat]? with
      | some e => vget is e
      | none => .undef
    else .throw

/-- cpp_type_nested_vector/query.py `did_read_var`: `contains(i1) && [i1].contains(i2) && ...` -/
def vhas : List Int → CTree → Bool
  | [], _ => true
  | _ :: _, .leaf _ => false
  | i :: is, .vec start last es =>
    vcontains start last i && (match es[(i - start).toNat]? with
      | some e => vhas is e
      | none => false)

mutual
/-- cpp_type_nested_vector/definition.py:128-143 `to_pydict` (`list_mode` off) -/
def CTree.toPy : CTree → Val
  | .leaf v => v
  | .vec start _ es => .dic (toPyL start es)
def toPyL (start : Int) : List CTree → DDic
  | [] => []
  | e :: es => (Key.idx start, e.toPy) :: toPyL (start + 1) es
end

/-- cpp_type_matrix2d/definition.py:14-37 `Matrix2d` after `init`.  Simplified: `size_t` is an unbounded integer. -/
structure CMat where
  rowStart : Int
  numRows : Int
  colStart : Int
  numCols : Int
  tri : Bool
  lower : Bool
  data : List Val

/-- cpp_type_matrix2d/definition.py:29-41 `init`; `zero` is the value of new elements.  Simplified: a negative number of
rows or columns, which `size_t` turns into a huge one, is an exception. -/
def matInit (zero : Val) (r0 r1 c0 c1 : Int) (tri lower : Bool) : CRes CMat :=
  if r1 - r0 + 1 < 0 ∨ c1 - c0 + 1 < 0 then .throw
  else .ok ⟨r0, r1 - r0 + 1, c0, c1 - c0 + 1, tri, lower, List.replicate ((r1 - r0 + 1) * (c1 - c0 + 1)).toNat zero⟩

/-- the position in `data` (cpp_type_matrix2d/definition.py:51-54) -/
def CMat.pos (m : CMat) (i j : Int) : Int := (i - m.rowStart) * m.numCols + (j - m.colStart)

/-- `m(i, j)` (cpp_type_matrix2d/definition.py:51-54) -/
def CMat.get (m : CMat) (i j : Int) : CRes Val :=
  if m.pos i j < 0 then .throw else CRes.ofOption m.data[(m.pos i j).toNat]?

/-- `m(i, j) = v` -/
def CMat.put (m : CMat) (i j : Int) (v : Val) : CRes CMat :=
  if m.pos i j < 0 ∨ m.data.length ≤ (m.pos i j).toNat then .throw
  else .ok { m with data := m.data.set (m.pos i j).toNat v }

/-- cpp_type_matrix2d/definition.py:68-88 `get_col_start_index(i)`, `get_col_last_index(i)` -/
def CMat.colFirst (m : CMat) (i : Int) : Int :=
  if !m.tri || m.lower then m.colStart else m.colStart + (i - m.rowStart)
def CMat.colLast (m : CMat) (i : Int) : Int :=
  if !m.tri || !m.lower then m.colStart + m.numCols - 1 else m.colStart + (i - m.rowStart)

/-- the columns of row `i`, from `j` on, `n` of them (cpp_type_matrix2d/definition.py:108-114) -/
def CMat.row (m : CMat) (i : Int) : Int → Nat → CRes DDic
  | _, 0 => .ok []
  | j, n + 1 => do
    let v ← m.get i j
    let r ← m.row i (j + 1) n
    .ok ((Key.idx j, v) :: r)

/-- the rows from `i` on, `n` of them (cpp_type_matrix2d/definition.py:103-117) -/
def CMat.rows (m : CMat) : Int → Nat → CRes DDic
  | _, 0 => .ok []
  | i, n + 1 => do
    let d ← m.row i (m.colFirst i) (m.colLast i + 1 - m.colFirst i).toNat
    let r ← m.rows (i + 1) n
    .ok ((Key.idx i, .dic d) :: r)

/-- cpp_type_matrix2d/definition.py:90-118 `to_pyobj` (`list_mode` off) -/
def CMat.toPy (m : CMat) : CRes Val := do
  let d ← m.rows m.rowStart m.numRows.toNat
  .ok (.dic d)

end Verif
