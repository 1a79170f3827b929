import Verif.Model.Obj

/-! interpreter/endf_parser.py:333-391 `explain`. -/

namespace Verif

/-- `sd.exists(p)` for a path of one element: views of dictionaries and lists have this method, texts do not -/
def sdExists (sd : Obj) (p : PEl) : Res Bool :=
  match sd with
  | .dic _ => pexists [p] sd
  | .lst _ => pexists [p] sd
  | _ => .error .attributeError

/-- what one pass of the loop does -/
inductive ExStep
  | done (r : Res (Option Str))
  | next (stack : List (Nat × Obj))

/-- endf_parser.py:362-388 one pass of the loop.  The stack pairs `search_state` with `search_dicts`, top first, so that
`level` is its length minus one. -/
def explainStep (path : Path) : List (Nat × Obj) → ExStep
  | [] => .done (.ok none)
  | (s, sd) :: rest =>
    let ss := s + 1
    match path[rest.length]? with
    | none => .done (.error .indexError)
    | some p =>
      if rest.length + 1 = path.length then
        match sdExists sd p with
        | .error e => .done (.error e)
        | .ok true => match getItem sd p with
          | .ok (.str t) => .done (.ok (some t))
          | .ok _ => .next rest
          | .error e => .done (.error e)
        | .ok false => .next rest
      else if ss = 3 then .next rest
      else
        let ps := if ss = 1 then p else .name ['*']
        match sdExists sd ps with
        | .error e => .done (.error e)
        | .ok true => match getItem sd ps with
          | .ok c => .next ((0, c) :: (ss, sd) :: rest)
          | .error e => .done (.error e)
        | .ok false => .next ((ss, sd) :: rest)

/-- the loop; none if the given number of passes is not enough -/
def explainLoop (path : Path) : Nat → List (Nat × Obj) → Option (Res (Option Str))
  | 0, _ => none
  | n + 1, stack => match explainStep path stack with
    | .done r => some r
    | .next stack' => explainLoop path n stack'

/-- endf_parser.py:357-391 `explain` with `stdout=False`: the description, or none if there is none -/
def explain (descr : Obj) (path : Path) (passes : Nat) : Option (Res (Option Str)) := explainLoop path passes [(0, descr)]

end Verif
