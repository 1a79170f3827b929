import Verif.Model.PathText
import Verif.Model.UserTools
/-
The function `show_content` of `endf_parserpy/utils/user_tools.py`, used by `endf-cli show`.

Simplified: the result is the list of texts printed, and what was printed before an exception is not kept; `maxlevel` is
not negative (negative numbers are treated like zero); the text of a number is a parameter.
-/
namespace Verif

/-- `str(key)` -/
def PKey.text : PKey → Str
  | .int n => intStr n
  | .str s => s

/-- user_tools.py:161 `isinstance(v, (MutableSequence, MutableMapping))` -/
def Obj.isCont : Obj → Bool
  | .dic _ => true
  | .lst _ => true
  | _ => false

/-- `str(v)` of objects that are neither dictionaries nor lists (these are not printed) -/
def Obj.text (num : PyNum → Str) : Obj → Str
  | .none => "None".toList
  | .num x => num x
  | .str s => s
  | _ => []

/-- user_tools.py:151-156: keys and values; the keys of a list are its indices -/
def Obj.items : Obj → List (PKey × Obj)
  | .dic d => d
  | .lst l => l.zipIdx.map fun p => (.int p.2, p.1)
  | _ => []

/-- user_tools.py:160 `maxlen` (for at least one key) -/
def maxLen (pre : Str) (keys : List PKey) : Nat := keys.foldr (fun k n => max (pre ++ k.text).length n) 0

/-- user_tools.py:165-166, 168-169: one line -/
def showRow (num : PyNum → Str) (pre : Str) (w : Nat) (k : PKey) (v : Obj) : Str :=
  ljust (pre ++ k.text ++ [':']) (w + 2) ++ if v.isCont then "subsection or array".toList else v.text num

/-- user_tools.py:147-169 with the recursive call as argument (none: `maxlevel` is zero); `max` of no keys is a ValueError.
`EndfFloat` (math_utils.py:15) is not a subclass of `float`: line 158 -/
def showWith (num : PyNum → Str) (sub : Option (Str → Obj → Res (List Str))) (pre : Str) : Obj → Res (List Str)
  | .none => .error .other
  | .num (.num (.endf _ _)) => .error .other
  | .num x => .ok [num x]
  | .str s => .ok [s]
  | o =>
    if o.items.isEmpty then .error .valueError
    else do
      let w := maxLen pre (o.items.map (·.1))
      let ls ← o.items.mapM fun p =>
        if p.2.isCont then
          match sub with
          | some f => f (pre ++ p.1.text ++ ['/']) p.2
          | none => .ok [showRow num pre w p.1 p.2]
        else .ok [showRow num pre w p.1 p.2]
      return ls.flatten

/-- user_tools.py:147-169 `show_content(endf_dic, maxlevel, prefix)` -/
def showContent (num : PyNum → Str) : Nat → Str → Obj → Res (List Str)
  | 0, pre, o => showWith num none pre o
  | n + 1, pre, o => showWith num (some (showContent num n)) pre o

end Verif
