import Verif.Model.Eval
/-
Model of `endf_parserpy/interpreter/endf_mapping_core.py`: transfer between the fields of a record and the data
dictionary.
-/
namespace Verif

/-- tolerances in `parse_opts` (endf_mapping_core.py:84-89) -/
structure POpts where
  fuzzy : Bool := true
  ignoreZero : Bool := true
  ignoreNumber : Bool := false
  ignoreVarspec : Bool := true
  ignoreAll : Bool := false
  deriving DecidableEq

/-- `search_name(expr, "DESIRED_NUMBER")` (tree_utils.py, endf_mapping_core.py:126) -/
def Expr.hasDesired : Expr → Bool
  | .num _ | .var _ | .incons _ => false
  | .desired _ => true
  | .neg e => e.hasDesired
  | .add a b | .sub a b | .mul a b | .div a b | .mod a b => a.hasDesired || b.hasDesired

/-- `search_name(expr, "inconsistent_varspec")` (endf_mapping_core.py:127) -/
def Expr.hasIncons : Expr → Bool
  | .num _ | .var _ | .desired _ => false
  | .incons _ => true
  | .neg e => e.hasIncons
  | .add a b | .sub a b | .mul a b | .div a b | .mod a b => a.hasIncons || b.hasIncons

/-- `len(x)` for the objects that have one (endf_mapping_core.py:131-137) -/
def Val.len? : Val → Option Nat
  | .txt s => some s.length
  | .lst l => some l.length
  | .dic d => some d.length
  | .names l => some l.length
  | .num _ | .abb _ | .mark => none

/-- `x != y` on record values (endf_mapping_core.py:142); objects of different kinds are different -/
def Val.ne : Val → Val → Bool
  | .num x, .num y => x.val ≠ y.val
  | .lst l, .lst m => l.map PyNum.val ≠ m.map PyNum.val
  | .txt s, .txt t => s ≠ t
  | _, _ => true

/-- `math_isclose` (math_utils.py:95-121) with the tolerances of endf_mapping_core.py:144-146 -/
def isClose (x y : ℚ) : Bool := |x - y| ≤ 1 / 10 ^ 7 + 1 / 10 ^ 5 * |y|

/-- `not math_allclose(x, y)` (math_utils.py:301-325); texts and dictionaries do not support subtraction -/
def Val.notClose : Val → Val → Res Bool
  | .num x, .num y => .ok (!isClose x.val y.val)
  | .lst l, .lst m => .ok (!(l.zip m).all fun p => isClose p.1.val p.2.val)
  | _, _ => .error .typeError

/-- `x == 0` -/
def Val.isZero : Val → Bool
  | .num x => x.val = 0
  | _ => false

/-- endf_mapping_core.py:119-164: comparison of a field with its expected value -/
def checkField (po : POpts) (e : Expr) (src exp : Val) : Res Unit := do
  if src.len? ≠ exp.len? then .error .sizeMismatch
  else
    let mismatch ← if po.fuzzy then src.notClose exp else .ok (src.ne exp)
    if mismatch then
      if po.ignoreZero && exp.isZero then .ok ()
      else if po.ignoreNumber && e.hasDesired then .ok ()
      else if po.ignoreVarspec && e.hasIncons then .ok ()
      else if !po.ignoreAll then .error .numberMismatch
      else .ok ()
    else .ok ()

/-- endf_mapping_core.py:93-180: the fields of a record one after the other.  The flag tells that a field was passed
over because of several unknown variables. -/
def mapOnce (fuel : Nat) (po : POpts) (ups : List DDic) (lv : Dict Name Int) :
    List (Expr × Val) → DDic → Bool → Res (DDic × Bool)
  | [], cur, f => .ok (cur, f)
  | (e, src) :: rest, cur, f =>
    match evalExpr fuel ⟨cur, ups, lv⟩ ⟨false, !po.ignoreAll, true⟩ e with
    | .error .severalUnbound => mapOnce fuel po ups lv rest cur true
    | .error err => .error err
    | .ok v =>
      match v.x with
      | none =>
        if v.k.val ≠ 0 then .error .assertion
        else match checkField po e src v.c with
          | .error err => .error err
          | .ok () => mapOnce fuel po ups lv rest cur f
      | some r =>
        match solveField (!po.ignoreAll) v src with
        | .error err => .error err
        | .ok val =>
          match setVarval cur lv r val with
          | .error err => .error err
          | .ok cur' => mapOnce fuel po ups lv rest cur' f

/-- endf_mapping_core.py:226-241: up to three attempts -/
def mapTries (fuel : Nat) (po : POpts) (ups : List DDic) (lv : Dict Name Int) (fs : List (Expr × Val)) :
    Nat → DDic → Res DDic
  | 0, _ => .error .severalUnbound
  | n + 1, cur =>
    match mapOnce fuel po ups lv fs cur false with
    | .error err => .error err
    | .ok (cur', false) => .ok cur'
    | .ok (cur', true) => mapTries fuel po ups lv fs n cur'

/-- endf_mapping_core.py:211-252 `map_record_helper` with `rwmode="read"`; `zip(basekeys, expr_list)` -/
def mapRead (fuel : Nat) (po : POpts) (ups : List DDic) (lv : Dict Name Int) (es : List Expr) (vals : List Val)
    (cur : DDic) : Res DDic :=
  mapTries fuel po ups lv (es.zip vals) 3 cur

/-- endf_mapping_core.py:199-208 `map_datadic_to_recorddic` -/
def mapWrite (fuel : Nat) (env : Env) (es : List Expr) : Res (List Val) :=
  es.mapM (evalKnown fuel env false false)

/-- `textplaceholder` (endf_lark_ebnf.py:59) -/
structure TextField where
  ref : Option VarRef
  len : Option Nat

/-- endf_mapping_core.py:259-281: read direction of `map_text_record_helper` -/
def mapTextRead (lv : Dict Name Int) (full : Str) : List TextField → Nat → DDic → Res DDic
  | [], _, cur => .ok cur
  | f :: fs, pos, cur =>
    let upper := match f.len with
      | none => full.length
      | some n => pos + n
    if upper ≤ pos then .error .sizeMismatch
    else match f.ref with
      | none => mapTextRead lv full fs upper cur
      | some r =>
        match setVarval cur lv r (.txt (slice full pos upper)) with
        | .error e => .error e
        | .ok cur' => mapTextRead lv full fs upper cur'

/-- endf_mapping_core.py:285-304: the text of one field -/
def textPart (fuel : Nat) (env : Env) (f : TextField) : Res Str :=
  match f.ref with
  | some r => do
    match ← getVarvalFull fuel env true r with
    | .txt s =>
      match f.len with
      | some n => if s.length ≠ n then .error .sizeMismatch else .ok s
      | none => .ok s
    | _ => .error .typeError
  | none =>
    match f.len with
    | some n => .ok (List.replicate n ' ')
    | none => .error .indexError

/-- endf_mapping_core.py:282-305: write direction of `map_text_record_helper` -/
def mapTextWrite (fuel : Nat) (env : Env) : List TextField → Res Str
  | [] => .ok []
  | f :: fs => do
    let s ← textPart fuel env f
    return s ++ (← mapTextWrite fuel env fs)

end Verif
