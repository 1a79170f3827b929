import Verif.Model.PathText
/-
Functions on the syntax trees of recipes and queries, `endf_parserpy/utils/tree_utils.py`.

Simplified: nodes are tokens or trees only (tree_utils.py:30-39 and 110-111 refuse anything else); the value of a token is a text.
-/
namespace Verif

/-- `lark.lexer.Token` and `lark.tree.Tree` -/
inductive Syn where
  | tok (type value : Str)
  | node (name : Str) (children : List Syn)

/-- tree_utils.py:24-39 `get_name` -/
def Syn.name : Syn → Str
  | .tok t _ => t
  | .node n _ => n

/-- tree_utils.py:50-57: the loop of `get_child`, with `idx - curidx` as counter -/
def childLoop (name : Str) : Nat → List Syn → Option Syn
  | _, [] => none
  | i, c :: cs =>
    if c.name = name then
      match i with
      | 0 => some c
      | i + 1 => childLoop name i cs
    else childLoop name i cs

/-- tree_utils.py:50-61 `get_child` without `nofail`; a token has no attribute `children` -/
def getChild (name : Str) (i : Nat) : Syn → Res Syn
  | .tok _ _ => .error .attributeError
  | .node _ cs => match childLoop name i cs with
    | some c => .ok c
    | none => .error .indexError

/-- tree_utils.py:65-68: the loop of `get_child_value` -/
def childValueLoop (name : Str) : List Syn → Option Str
  | [] => none
  | .tok t v :: cs => if t = name then some v else childValueLoop name cs
  | .node _ _ :: cs => childValueLoop name cs

/-- tree_utils.py:64-69 `get_child_value` -/
def getChildValue (name : Str) : Syn → Res Str
  | .tok _ _ => .error .attributeError
  | .node _ cs => match childValueLoop name cs with
    | some v => .ok v
    | none => .error .indexError

mutual
/-- tree_utils.py:80-87 `search_name` -/
def searchName (name : Str) : Syn → Bool
  | .tok t _ => t = name
  | .node n cs => if n = name then true else searchNames name cs
/-- tree_utils.py:84-87: the loop over the children -/
def searchNames (name : Str) : List Syn → Bool
  | [] => false
  | c :: cs => if searchName name c then true else searchNames name cs
end

mutual
/-- tree_utils.py:90-98 `retrieve_value` -/
def retrieveValue (name : Str) : Syn → Option Str
  | .tok t v => if t = name then some v else none
  | .node _ cs => retrieveValues name cs
/-- tree_utils.py:94-97: the loop over the children -/
def retrieveValues (name : Str) : List Syn → Option Str
  | [] => none
  | c :: cs => match retrieveValue name c with
    | some v => some v
    | none => retrieveValues name cs
end

mutual
/-- tree_utils.py:101-111 `reconstruct_tree_str` -/
def reconstruct : Syn → Str
  | .tok _ v => v
  | .node _ cs => (reconstructs cs).dropLast
/-- tree_utils.py:103-106: the loop over the children -/
def reconstructs : List Syn → Str
  | [] => []
  | c :: cs => reconstruct c ++ ' ' :: reconstructs cs
end

end Verif
