import Verif.Model.TreeUtils
/-
Nodes and tokens of a syntax tree.
-/
namespace Verif.Spec

/-- `s` occurs in the tree `t`, at any depth -/
inductive Within : Syn → Syn → Prop where
  | self (t : Syn) : Within t t
  | child {s c : Syn} {n : Str} {cs : List Syn} : c ∈ cs → Within s c → Within s (.node n cs)

mutual
/-- the tokens of a tree from left to right, with type and value -/
def tokens : Syn → List (Str × Str)
  | .tok t v => [(t, v)]
  | .node _ cs => tokensL cs
def tokensL : List Syn → List (Str × Str)
  | [] => []
  | c :: cs => tokens c ++ tokensL cs
end

mutual
/-- every tree in it has children -/
def Full : Syn → Prop
  | .tok _ _ => True
  | .node _ cs => cs ≠ [] ∧ FullL cs
def FullL : List Syn → Prop
  | [] => True
  | c :: cs => Full c ∧ FullL cs
end

end Verif.Spec
