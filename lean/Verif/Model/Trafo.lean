import Verif.Model.Fields

/-! Expression trees of the compiler and their transformations: endf_parserpy/compiler/expr_utils/.  Numbers are exact
rationals, see `XErr.…` for what can go wrong. -/

namespace Verif

/-- custom_nodes.py:21-61 `VariableToken`: a name and the texts of the indices -/
structure XVar where
  name : Str
  idx : List Str
  deriving DecidableEq, Repr

/-- A tree of lark nodes and tokens after `convert_to_exprtree` (conversion.py:57-63).  Simplified: the grammar
(endf_lark_ebnf.py:127-138) gives subtraction, division and modulo two children and a minus one, so they have arities here. -/
inductive X where
  | num (t : Str)
  | var (v : XVar)
  | add (l : List X)
  | mul (l : List X)
  | sub (a b : X)
  | div (a b : X)
  | mod (a b : X)
  | neg (a : X)
  deriving Repr

/-- what the functions raise -/
inductive XErr where
  | noFactor      -- TypeError of remove_factor_from_product and extract_factor
  | recursion     -- RecursionError
  | emptyMax      -- ValueError, max() of nothing
  | modulo        -- ModuloEquationError
  | multiple      -- MultipleVariableOccurrenceError
  | missing       -- VariableMissingError
  | strict        -- not in the code, see `removeFactor`
  deriving DecidableEq, Repr

mutual
/-- `==` of nodes.  Tokens of the same kind are equal if their texts are (lark's `Token.__eq__`), and the text of a
`VariableToken` is its name: indices are not compared (custom_nodes.py:54).  Trees are compared child by child. -/
def X.eqv : X → X → Bool
  | .num t, .num u => t == u
  | .var v, .var w => v.name == w.name
  | .add l, .add m => eqvL l m
  | .mul l, .mul m => eqvL l m
  | .sub a b, .sub c d => a.eqv c && b.eqv d
  | .div a b, .div c d => a.eqv c && b.eqv d
  | .mod a b, .mod c d => a.eqv c && b.eqv d
  | .neg a, .neg c => a.eqv c
  | _, _ => false
def eqvL : List X → List X → Bool
  | [], [] => true
  | x :: xs, y :: ys => x.eqv y && eqvL xs ys
  | _, _ => false
end

mutual
/-- equality as dictionary keys: the hash counts the indices (custom_nodes.py:63-64) -/
def X.keyEq : X → X → Bool
  | .num t, .num u => t == u
  | .var v, .var w => v.name == w.name && v.idx.length == w.idx.length
  | .add l, .add m => keyEqL l m
  | .mul l, .mul m => keyEqL l m
  | .sub a b, .sub c d => a.keyEq c && b.keyEq d
  | .div a b, .div c d => a.keyEq c && b.keyEq d
  | .mod a b, .mod c d => a.keyEq c && b.keyEq d
  | .neg a, .neg c => a.keyEq c
  | _, _ => false
def keyEqL : List X → List X → Bool
  | [], [] => true
  | x :: xs, y :: ys => x.keyEq y && keyEqL xs ys
  | _, _ => false
end

mutual
/-- tree_walkers.py:14-27 `transform_nodes` with a function that raises nothing: children first -/
def X.trans (f : X → X) : X → X
  | .num t => f (.num t)
  | .var v => f (.var v)
  | .add l => f (.add (transL f l))
  | .mul l => f (.mul (transL f l))
  | .sub a b => f (.sub (a.trans f) (b.trans f))
  | .div a b => f (.div (a.trans f) (b.trans f))
  | .mod a b => f (.mod (a.trans f) (b.trans f))
  | .neg a => f (.neg (a.trans f))
def transL (f : X → X) : List X → List X
  | [] => []
  | x :: xs => x.trans f :: transL f xs
end

mutual
/-- tree_walkers.py:14-27 `transform_nodes` -/
def X.transM (f : X → Except XErr X) : X → Except XErr X
  | .num t => f (.num t)
  | .var v => f (.var v)
  | .add l => do f (.add (← transML f l))
  | .mul l => do f (.mul (← transML f l))
  | .sub a b => do f (.sub (← a.transM f) (← b.transM f))
  | .div a b => do f (.div (← a.transM f) (← b.transM f))
  | .mod a b => do f (.mod (← a.transM f) (← b.transM f))
  | .neg a => do f (.neg (← a.transM f))
def transML (f : X → Except XErr X) : List X → Except XErr (List X)
  | [] => .ok []
  | x :: xs => do return (← x.transM f) :: (← transML f xs)
end

/-- node_trafos.py:46-51 `eliminate_subtraction` -/
def elimSub : X → X
  | .sub a b => .add [a, .neg b]
  | x => x

/-- node_trafos.py:54-61 `eliminate_minusexpr` -/
def elimNeg : X → X
  | .neg a => .mul [.num ['-', '1'], a]
  | x => x

/-- node_trafos.py:64-73 `factorout_division` -/
def divOut : X → X
  | .div a b => .mul [a, .div (.num ['1']) b]
  | x => x

/-- node_trafos.py:80-84: the children of products in place of the products -/
def mulParts : List X → List X
  | [] => []
  | .mul l :: xs => l ++ mulParts xs
  | x :: xs => x :: mulParts xs

/-- node_trafos.py:76-86 `flatten_multiplication` -/
def flatMul : X → X
  | .mul l => .mul (mulParts l)
  | x => x

/-- node_trafos.py:93-97 -/
def addParts : List X → List X
  | [] => []
  | .add l :: xs => l ++ addParts xs
  | x :: xs => x :: addParts xs

/-- node_trafos.py:89-99 `flatten_addition` -/
def flatAdd : X → X
  | .add l => .add (addParts l)
  | x => x

/-- the integer that `int(token.value)` gives -/
def X.int? : X → Option Int
  | .num t => pyInt t
  | _ => none

/-- node_trafos.py:117-124: the product of the integers, and the other factors -/
def splitProd : List X → Int × List X
  | [] => (1, [])
  | x :: xs => match x.int? with
    | some n => (n * (splitProd xs).1, (splitProd xs).2)
    | none => ((splitProd xs).1, x :: (splitProd xs).2)

/-- node_trafos.py:138-145 -/
def splitSum : List X → Int × List X
  | [] => (0, [])
  | x :: xs => match x.int? with
    | some n => (n + (splitSum xs).1, (splitSum xs).2)
    | none => ((splitSum xs).1, x :: (splitSum xs).2)

/-- node_trafos.py:127-130, 148-151: a single child replaces the node -/
def unwrap (mk : List X → X) : List X → X
  | [x] => x
  | l => mk l

/-- node_trafos.py:112-130 `evaluate_int_multiplication` -/
def foldMul : X → X
  | .mul l =>
    let r := splitProd l
    let fs := if r.1 ≠ 1 ∨ r.2 = [] then r.2 ++ [.num (intStr r.1)] else r.2
    unwrap .mul fs
  | x => x

/-- node_trafos.py:133-151 `evaluate_int_addition` -/
def foldAdd : X → X
  | .add l =>
    let r := splitSum l
    let ts := if r.1 ≠ 0 then r.2 ++ [.num (intStr r.1)] else r.2
    unwrap .add ts
  | x => x

/-- node_trafos.py:154-160 `evaluate_int_ops` -/
def foldInt : X → X
  | .add l => foldAdd (.add l)
  | .mul l => foldMul (.mul l)
  | x => x

/-- node_trafos.py:163-178 `_expand_twofactor_product` -/
def expand2 : X → X → X
  | .add l, .add m => .add (l.flatMap fun t1 => m.map fun t2 => .mul [t1, t2])
  | .add l, y => .add (l.map fun t => .mul [y, t])
  | x, .add m => .add (m.map fun t => .mul [x, t])
  | x, y => .mul [x, y]

/-- node_trafos.py:181-189 `expand_product`.  Simplified: an empty product, which the grammar does not allow, is an
IndexError in the code. -/
def expandProd : X → X
  | .mul [] => .mul []
  | .mul (x :: xs) => (xs.foldl expand2 x).trans flatMul
  | x => x

/-- tree_trafos.py:33-41 `normalize_exprtree` -/
def normalize (x : X) : X :=
  ((((((x.trans elimSub).trans elimNeg).trans divOut).trans flatMul).trans flatAdd).trans expandProd).trans flatAdd

/-- node_checks.py:53-56 `has_factor` -/
def hasFactor (node factor : X) : Bool :=
  match node with
  | .mul l => l.any factor.eqv
  | x => x.eqv factor

/-- node_trafos.py:200-205: the children without the first one that is the factor; none if it is not among them -/
def dropFactor (factor : X) : List X → Option (List X)
  | [] => none
  | c :: cs => if c.eqv factor then some cs else (dropFactor factor cs).map (c :: ·)

/-- node_trafos.py:192-211 `remove_factor_from_product`.  The code is `strict = false`; with `strict = true` the case of a
product with a single factor, where the code puts back the factor it has removed, is an error. -/
def removeFactor (strict : Bool) (node factor : X) : Except XErr X :=
  match node with
  | .mul l => match dropFactor factor l with
    | none => .error .noFactor
    | some [] => if strict then .error .strict else .ok (.mul [factor])
    | some cs => .ok (.mul cs)
  | x => if factor.eqv x then .ok (.num ['1']) else .error .noFactor

/-- node_trafos.py:221-224 -/
def removeAll (strict : Bool) (factor : X) : List X → Except XErr (List X)
  | [] => .ok []
  | t :: ts => do return (← removeFactor strict t factor) :: (← removeAll strict factor ts)

/-- node_trafos.py:225-229 -/
def joinTerms : List X → X
  | [x] => x
  | xs => .add xs

/-- node_trafos.py:214-229 `extract_factor` -/
def extractFactor (strict : Bool) (node factor : X) : Except XErr X :=
  match node with
  | .add ts => do return .mul [factor, joinTerms (← removeAll strict factor ts)]
  | .mul l => do return .mul [factor, joinTerms (← removeAll strict factor [.mul l])]
  | _ => .error .noFactor

/-- a key of a dictionary: added at the end if it is new -/
def keyAdd (l : List X) (k : X) : List X := if l.any k.keyEq then l else l ++ [k]

/-- node_trafos.py:232-244 `_get_term_factor_sets`: the factors of each distinct term.  A term that appears again adds
nothing. -/
def factorSets : List X → List X → List (List X)
  | _, [] => []
  | seen, t :: ts =>
    if seen.any t.keyEq then factorSets seen ts
    else (match t with
      | .mul l => l.foldl keyAdd []
      | x => [x]) :: factorSets (seen ++ [t]) ts

/-- node_trafos.py:251-253 -/
def countAdd (l : List (X × Nat)) (k : X) : List (X × Nat) :=
  match l with
  | [] => [(k, 1)]
  | (k', n) :: l' => if k.keyEq k' then (k', n + 1) :: l' else (k', n) :: countAdd l' k

/-- node_trafos.py:257-262 `get_most_common_factor`: the first of the factors found in most terms -/
def mostCommon (terms : List X) : Option X :=
  let counts := (factorSets [] terms).flatten.foldl countAdd []
  let maxc := counts.foldl (fun m c => max m c.2) 0
  (counts.find? fun c => c.2 == maxc).map (·.1)

/-- node_trafos.py:265-299 `factorout_common`; the first argument bounds the depth of the recursion -/
def factorout (strict : Bool) : Nat → X → Except XErr X
  | 0, _ => .error .recursion
  | _ + 1, .add [x] => .ok x
  | n + 1, .add ts => match mostCommon ts with
    | none => .error .emptyMax
    | some f =>
      let terms1 := ts.filter fun t => hasFactor t f
      let terms2 := ts.filter fun t => !hasFactor t f
      if terms1.length ≤ 1 then .ok (.add ts)
      else do
        let new ← extractFactor strict (.add terms1) f
        let new ← new.transM (factorout strict n)
        match terms2 with
        | [] => return new
        | [t] => return .add [new, t]
        | terms2 => return .add [new, ← factorout strict n (.add terms2)]
  | _ + 1, x => .ok x

/-- tree_trafos.py:44-49 `simplify_for_readability` -/
def simplify (strict : Bool) (depth : Nat) (x : X) : Except XErr X := do
  let x ← x.transM (factorout strict depth)
  return ((x.trans flatMul).trans flatAdd).trans foldInt

mutual
/-- equation_utils.py:38-47 `contains_variable` without filters -/
def X.hasVar (v : XVar) : X → Bool
  | .num _ => false
  | .var w => w.name == v.name
  | .add l => hasVarL v l
  | .mul l => hasVarL v l
  | .sub a b => a.hasVar v || b.hasVar v
  | .div a b => a.hasVar v || b.hasVar v
  | .mod a b => a.hasVar v || b.hasVar v
  | .neg a => a.hasVar v
def hasVarL (v : XVar) : List X → Bool
  | [] => false
  | x :: xs => x.hasVar v || hasVarL v xs
end

mutual
/-- `transform_nodes(·, node_contains_modulo)`, node_trafos.py:338-343 -/
def X.hasMod : X → Bool
  | .num _ => false
  | .var _ => false
  | .add l => hasModL l
  | .mul l => hasModL l
  | .sub a b => a.hasMod || b.hasMod
  | .div a b => a.hasMod || b.hasMod
  | .mod _ _ => true
  | .neg a => a.hasMod
def hasModL : List X → Bool
  | [] => false
  | x :: xs => x.hasMod || hasModL xs
end

/-- equation_utils.py:67-72: the terms without the variable go to the other side -/
def subtractConsts (v : XVar) : X → List X → X
  | rhs, [] => rhs
  | rhs, t :: ts => if t.hasVar v then subtractConsts v rhs ts else subtractConsts v (.sub rhs t) ts

/-- equation_utils.py:62-82 `_move_constants_to_rhs` -/
def moveConsts (v : XVar) (lhs rhs : X) : X × X :=
  match lhs with
  | .add ts =>
    let l := match ts.filter (X.hasVar v) with
      | [] => X.num ['0']
      | [t] => t
      | ts' => .add ts'
    (l, ((((subtractConsts v rhs ts).trans elimSub).trans elimNeg).trans flatMul).trans flatAdd)
  | x => (x, rhs)

/-- equation_utils.py:85-108 `_move_constfact_to_rhs` -/
def moveFactor (v : XVar) (lhs rhs : X) : Except XErr (X × X) :=
  match lhs with
  | .mul l => match l.filter (X.hasVar v) with
    | [x] => .ok (x, .div rhs (.mul (l.filter fun c => !c.hasVar v)))
    | _ => .error .multiple
  | x => if x.eqv (.var v) then .ok (x, rhs) else .error .missing

/-- equation_utils.py:119-120 -/
def isolate (strict : Bool) (v : XVar) (lhs : X) : Except XErr X :=
  if lhs.eqv (.var v) then .ok lhs else extractFactor strict lhs (.var v)

/-- equation_utils.py:116-124 -/
def solveMod (strict : Bool) (depth : Nat) (lhs rhs : X) (v : XVar) : Except XErr (X × X) := do
  let l ← isolate strict v (moveConsts v (normalize lhs) (normalize rhs)).1
  let m ← moveFactor v l (moveConsts v (normalize lhs) (normalize rhs)).2
  let y1 ← simplify strict depth m.1
  let y2 ← simplify strict depth m.2
  return (y1, y2)

/-- equation_utils.py:111-124 `solve_equation` -/
def solve (strict : Bool) (depth : Nat) (lhs rhs : X) (v : XVar) : Except XErr (X × X) :=
  if lhs.hasMod || rhs.hasMod then .error .modulo else solveMod strict depth lhs rhs v

/-- the token of equation_utils.py:133 that stands for the value of the field -/
def cppVal : XVar := ⟨"cpp_val".toList, []⟩

/-- equation_utils.py:127-135 `get_varassign_from_expr` -/
def varAssign (strict : Bool) (depth : Nat) (node : X) (v : XVar) : Except XErr (X × X) :=
  solve strict depth node (.var cppVal) v

mutual
/-- node_trafos.py:302-335 `transform_nodes(·, node2str)`; indices of variables are left out (`str(token)` is the name) -/
def X.str : X → Str
  | .num t => if (strip t).head? = some '-' then '(' :: t ++ [')'] else t
  | .var v => v.name
  | .add l => '(' :: strJoin '+' l ++ [')']
  | .mul l => '(' :: strJoin '*' l ++ [')']
  | .sub a b => '(' :: a.str ++ '-' :: b.str ++ [')']
  | .div a b => '(' :: a.str ++ '/' :: b.str ++ [')']
  | .mod a b => '(' :: a.str ++ '%' :: b.str ++ [')']
  | .neg a => '(' :: '-' :: a.str ++ [')']
def strJoin (c : Char) : List X → Str
  | [] => []
  | [x] => x.str
  | x :: y :: ys => x.str ++ c :: strJoin c (y :: ys)
end

mutual
/-- what the text means in C++ if all variables have type `int`: quotients are truncated, none for a division by zero.
Overflow is not modelled. -/
def X.cppInt (ρ : XVar → Int) : X → Option Int
  | .num t => pyInt t
  | .var v => some (ρ v)
  | .add l => cppSum ρ l
  | .mul l => cppProd ρ l
  | .sub a b => do return (← a.cppInt ρ) - (← b.cppInt ρ)
  | .div a b => do
    let y ← b.cppInt ρ
    if y = 0 then none else return (← a.cppInt ρ).tdiv y
  | .mod a b => do
    let y ← b.cppInt ρ
    if y = 0 then none else return (← a.cppInt ρ).tmod y
  | .neg a => do return - (← a.cppInt ρ)
def cppSum (ρ : XVar → Int) : List X → Option Int
  | [] => none
  | [x] => x.cppInt ρ
  | x :: y :: ys => do return (← x.cppInt ρ) + (← cppSum ρ (y :: ys))
def cppProd (ρ : XVar → Int) : List X → Option Int
  | [] => none
  | [x] => x.cppInt ρ
  | x :: y :: ys => do return (← x.cppInt ρ) * (← cppProd ρ (y :: ys))
end

end Verif
