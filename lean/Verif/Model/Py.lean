/-
Python text primitives used by endf-parserpy, on `List Char`.
These model the Python built-ins that the cited source lines call, not code of the repository.
-/
namespace Verif

/-- Texts. -/
abbrev Str := List Char

/-- Exceptions that can leave the modelled functions.  The repository's own classes are in
`endf_parserpy/interpreter/custom_exceptions.py`; the last ones are Python built-ins. -/
inductive Err where
  | invalidInteger          -- InvalidIntegerError (a ParserException)
  | invalidFloat            -- InvalidFloatError (a ParserException)
  | notSectionEnd           -- NotSectionEndError
  | unexpectedEnd           -- UnexpectedEndOfInputError
  | moreListElements        -- MoreListElementsExpectedError
  | unconsumedList          -- UnconsumedListElementsError
  | unexpectedControl       -- UnexpectedControlRecordError
  | blankLine               -- BlankLineError
  | numberMismatch          -- NumberMismatchError
  | inconsistentBracket     -- InconsistentVariableAssignmentError
  | severalUnbound          -- SeveralUnboundVariablesError
  | variableNotFound        -- VariableNotFoundError
  | stop                    -- StopException
  | loopVariable            -- LoopVariableError
  | unavailableIndex        -- UnavailableIndexError
  | varInDenominator        -- VariableInDenominatorError
  | abbrevCollision         -- AbbreviationNameCollisionError
  | sizeMismatch            -- SizeMismatchError
  | missingSection          -- MissingSectionError
  | inconsistentSection     -- InconsistentSectionBracketsError
  | other                   -- any further ParserException
  | valueError              -- Python ValueError
  | indexError              -- Python IndexError
  | keyError                -- Python KeyError
  | typeError               -- Python TypeError
  | zeroDivision            -- Python ZeroDivisionError
  | attributeError          -- Python AttributeError
  | fileExists              -- Python FileExistsError
  | recursion               -- Python RecursionError
  | assertion               -- Python AssertionError
  | unboundLocal            -- Python UnboundLocalError
  deriving DecidableEq, Repr

/-- Is the exception a subclass of `ParserException`
(custom_exceptions.py), i.e. caught by `except ParserException`? -/
def Err.isParser : Err → Bool
  | .valueError | .indexError | .keyError | .typeError | .zeroDivision
  | .attributeError | .fileExists | .recursion | .assertion | .unboundLocal => false
  | _ => true

/-- Result of a Python function that may raise. -/
abbrev Res (α : Type) := Except Err α

deriving instance DecidableEq for Except

/-- Characters removed by `str.strip()`; simplified to the ASCII ones. -/
def isWs (c : Char) : Bool :=
  c.toNat = 32 || (9 ≤ c.toNat && c.toNat ≤ 13) || (28 ≤ c.toNat && c.toNat ≤ 31)

/-- `str.isdigit()` / decimal digits; simplified to ASCII. -/
def isDig (c : Char) : Bool := 48 ≤ c.toNat && c.toNat ≤ 57

/-- value of a decimal digit character -/
def digVal (c : Char) : Nat := c.toNat - 48

/-- decimal digit character of a number below ten -/
def digChar (d : Nat) : Char := Char.ofNat (48 + d)

/-- `s.lstrip()` -/
def lstrip (s : Str) : Str := s.dropWhile isWs

/-- `s.rstrip()` -/
def rstrip (s : Str) : Str := (s.reverse.dropWhile isWs).reverse

/-- `s.strip()` -/
def strip (s : Str) : Str := rstrip (lstrip s)

/-- `s.rstrip(c)` for a single character -/
def rstripChar (c : Char) (s : Str) : Str := (s.reverse.dropWhile (· == c)).reverse

/-- Python slice `s[i:j]` for `0 ≤ i`, `0 ≤ j`. -/
def slice (s : List α) (i j : Nat) : List α := (s.take j).drop i

/-- `s.ljust(w)` -/
def ljust (s : Str) (w : Nat) : Str := s ++ List.replicate (w - s.length) ' '

/-- `s.rjust(w)` -/
def rjust (s : Str) (w : Nat) : Str := List.replicate (w - s.length) ' ' ++ s

/-- blank text of given width (`" " * w`) -/
def blanks (w : Nat) : Str := List.replicate w ' '

/-- `str(n)` for a natural number, with fuel. -/
def natStrF : Nat → Nat → Str
  | 0, _ => []
  | f+1, n => if n < 10 then [digChar n] else natStrF f (n / 10) ++ [digChar (n % 10)]

/-- `str(n)` for a natural number. -/
def natStr (n : Nat) : Str := natStrF (n+1) n

/-- `str(n)` for an integer. -/
def intStr : Int → Str
  | .ofNat n => natStr n
  | .negSucc n => '-' :: natStr (n+1)

/-- value of a digit string -/
def digitsVal (s : Str) : Nat := s.foldl (fun a c => 10 * a + digVal c) 0

/-- Python (PEP 515) allows single underscores between digits in `int()` and `float()`;
this removes them, or fails when one is misplaced. First argument: previous character was a digit. -/
def deUnderscore : Bool → Str → Option Str
  | _, [] => some []
  | prev, c :: cs =>
    if c = '_' then
      match cs with
      | [] => none
      | d :: _ => if prev && isDig d then deUnderscore false cs else none
    else (deUnderscore (isDig c) cs).map (c :: ·)

/-- optional sign: (negative?, rest) -/
def splitSign : Str → Bool × Str
  | '+' :: s => (false, s)
  | '-' :: s => (true, s)
  | s => (false, s)

/-- non-empty text of digits → number -/
def parseNat (s : Str) : Option Nat :=
  if s ≠ [] ∧ s.all isDig then some (digitsVal s) else none

def applySign (neg : Bool) (n : Nat) : Int := if neg then - (n : Int) else n

/-- Python `int(text)` (`none` = ValueError). -/
def pyInt (s : Str) : Option Int := do
  let t ← deUnderscore false (strip s)
  let (neg, u) := splitSign t
  let n ← parseNat u
  return applySign neg n

/-- A decimal number `m · 10^e`, the exact value denoted by a number text. -/
structure Dec where
  m : Int
  e : Int
  deriving DecidableEq, Repr

/-- exponent part of a float text: `""` or `[eE][+-]?digits` -/
def parseExp : Str → Option Int
  | [] => some 0
  | c :: s =>
    if c = 'e' ∨ c = 'E' then
      let (neg, u) := splitSign s
      (parseNat u).map (applySign neg)
    else none

/-- Python `float(text)` (`none` = ValueError) as exact decimal.
Simplified: `inf`, `infinity`, `nan` are not accepted by the model, and the rounding of the
decimal to the nearest double is not modelled. -/
def pyFloat (s : Str) : Option Dec := do
  let t ← deUnderscore false (strip s)
  let (neg, u) := splitSign t
  let ip := u.takeWhile isDig
  let r := u.dropWhile isDig
  match r with
  | '.' :: r' =>
    let fp := r'.takeWhile isDig
    let r'' := r'.dropWhile isDig
    if ip = [] ∧ fp = [] then none
    else
      let e ← parseExp r''
      return ⟨applySign neg (digitsVal (ip ++ fp)), e - fp.length⟩
  | _ =>
    if ip = [] then none
    else
      let e ← parseExp r
      return ⟨applySign neg (digitsVal ip), e⟩

end Verif
