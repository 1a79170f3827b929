import Verif.Lemmas.AbbrProg
import Verif.Props.CppFun

/-! C87: abbreviations in recipes, which the interpreter stores and the compiler writes out. -/

namespace Verif
open Spec

/-- Abbreviations are used behind their definition, not in conditions, not in inner sections and not in each other, no variable of
the section that is used behind has the same name, and what a branch introduces is not used outside of it. -/
def Spec.AbbrOk (p : Prog) : Prop := abbrA [] [] none [] [] p = true

instance (p : Prog) : Decidable (AbbrOk p) := by unfold AbbrOk; infer_instance

open CF in
/-- C87, for recipes with `AbbrOk`.  Reading a section with a recipe and with the recipe with its abbreviations written out has the
same outcome, the same dictionary, records and position in the lines, or the same exception.  The only other outcome is that the
interpreter refuses to introduce an abbreviation because there is a variable with that name. -/
theorem C87_partial (p : Prog) (hp : AbbrOk p) (c : RCtx) (h0 : 0 < c.fuel) (ignoreAll : Bool) :
    (∃ s, readSection c ignoreAll p = .ok s ∧ readSection c ignoreAll (writeOut p) = .ok s) ∨
    (∃ e s s', readSection c ignoreAll p = .err e s ∧ readSection c ignoreAll (writeOut p) = .err e s' ∧ s'.ofs = s.ofs ∧ s'.recs = s.recs) ∨
    ∃ s, readSection c ignoreAll p = .err .abbrevCollision s := by
  have hl : Lvl false ([] : DDic) := Lvl.of_clean (.dic _ .nil (fun _ _ h => by cases h) (fun _ _ h => by cases h))
  obtain ⟨b1, b2⟩ := bare_init hl
  have hs : StA true [] [] [] [] [] { cur := initWork [], ignoreAll := ignoreAll } :=
    ⟨b2, rfl, (fun _ h => by cases h), (fun _ _ h => by cases h), (fun _ h => by cases h)⟩
  have hb : bareSt { cur := initWork [], ignoreAll := ignoreAll } = { cur := initWork [], ignoreAll := ignoreAll } := by
    unfold bareSt; simp only [b1, List.map_nil]
  have hsim := readProg_sim h0 hp hs
  rw [hb] at hsim
  unfold readSection writeOut
  cases hr : readProg c p { cur := initWork [], ignoreAll := ignoreAll } with
  | err e s =>
    rw [hr] at hsim
    rcases hsim with rfl | ⟨h1, _⟩
    · exact .inr (.inr ⟨s, rfl⟩)
    · rw [h1]
      exact .inr (.inl ⟨e, s, bareSt s, rfl, rfl, rfl, rfl⟩)
  | ok s =>
    rw [hr] at hsim
    obtain ⟨h1, h2, _⟩ := hsim
    obtain ⟨d', g1, g2, g3⟩ := h2.cur.remove
    rw [h1]
    refine .inl ⟨{ s with cur := d' }, ?_, ?_⟩
    · simp only [Out.andThen, g1, Out.lift]
    · simp only [Out.andThen, show (bareSt s).cur = bare s.cur from rfl, g2, Out.lift]
      unfold bareSt
      simp only [h2.upsEq, List.map_nil]

namespace CF

theorem headed_expand (p : Prog) : ∀ A : Abbs, headed (A.prog p) = headed p := by
  induction p with
  | skip => intro A; rfl
  | abbr n e => intro A; rfl
  | seq a b iha ihb => intro A; simp only [Abbs.prog, headed, iha, ihb]
  | act a => intro A; cases a <;> first | rfl | (rename_i h _ _; cases h <;> rfl)
  | sect r b ih => intro A; rfl
  | loop v a b body ih => intro A; rfl
  | ite c l t e iht ihe => intro A; simp only [Abbs.prog, headed, iht, ihe]

end CF

/-- C83 for recipes with abbreviations: as in `C83_partial`, but the interpreter uses the recipe with abbreviations, and the compiler
writes them out. -/
theorem C83_abbr_partial (Γ : Kinds) (depth : Nat) (p : Prog) (hp : AbbrOk p) (code : Code) (defs : List VKey)
    (hcomp : compile depth (writeOut p) = some (code, defs))
    (hok : funOk Γ depth (writeOut p) code defs = true) (hwf : WF (writeOut p))
    (c : RCtx) (h0 : 0 < c.fuel) (cc : FunCtx) (hw : c.ro.width = 11) (hpres : c.ro.preserve = false) (hacc : cc.acc = c.ro.acceptSpaces) (hst : Strict c.po)
    (hpl : ∀ l ∈ c.lines, PlainLine l) (hbl : ∀ l ∈ c.lines, isBlankLine l = false)
    (mf : Int) (mt : Option Int) (k : Ctrl) (hk : FunCtrl c.lines mf mt k) (hfit : Fit c k (writeOut p) { cur := initWork [] })
    (s : RSt) (d : DDic) (hpy : readSection c false p = .ok s) (hhead : HasHead p s) (hcpp : runFun cc mf mt code defs c.lines = .ok d) :
    SameAt (.dic s.cur) (.dic d) := by
  have hpy' : readSection c false (writeOut p) = .ok s := by
    rcases C87_partial p hp c h0 false with ⟨s', h1, h2⟩ | ⟨e, s', _, h1, _⟩ | ⟨s', h1⟩
    · rw [hpy] at h1; cases h1; exact h2
    · rw [hpy] at h1; cases h1
    · rw [hpy] at h1; cases h1
  exact C83_partial Γ depth (writeOut p) code defs hcomp hok hwf c cc hw hpres hacc hst hpl hbl mf mt k hk hfit s d hpy'
    (hhead.imp_left fun h => (CF.headed_expand p none).trans h) hcpp

/-! ## cases -/

namespace AbbrEx
open FunEx

/-- `S := N + 1` and a loop over `i` from 1 to `S` with `W := 2*N` and a record with `X[i]` and `W + i`; a record with `S + Y` -/
def recipe : Prog := .seq hd (.seq (.abbr "S" (.add (var "N") (int 1)))
  (.seq (.loop "i" (int 1) (var "S") (.seq (.abbr "W" (.mul (int 2) (var "N"))) (cont2 (arr "X" (.var "i")) (.add (var "W") (var "i")))))
  (.seq (cont (.add (var "S") (var "Y"))) (.act .send))))

def lines : List Str := [hdLine "1", contLine2 "3.5" "3.0", contLine2 "4.5" "4.0", contLine "7.0", sendLine]

/-- `S := N`, `T := 5` if `N > 1`, and a record with `T` -/
def branch : Prog := .seq hd (.seq (.abbr "S" (var "N"))
  (.seq (.ite (.cmp .gt (var "N") (int 1)) none (.abbr "T" (int 5)) .skip) (.seq (cont (var "T")) (.act .send))))

/-- as `branch`, without `S` -/
def first : Prog := .seq hd (.seq (.ite (.cmp .gt (var "N") (int 1)) none (.abbr "T" (int 5)) .skip) (.seq (cont (var "T")) (.act .send)))

/-- a record with `S`, then `S := N` and a record with `S` -/
def clash : Prog := .seq hd (.seq (cont (var "S")) (.seq (.abbr "S" (var "N")) (.seq (cont (var "S")) (.act .send))))

end AbbrEx

open AbbrEx FunEx

/-- the hypothesis of `C87_partial` is met by a recipe with two abbreviations, one of them in a loop; the section is read -/
example : AbbrOk AbbrEx.recipe ∧ ∃ s, readSection (strict AbbrEx.lines) false AbbrEx.recipe = .ok s ∧
    readSection (strict AbbrEx.lines) false (writeOut AbbrEx.recipe) = .ok s ∧ numAt (valAt (.dic s.cur) [.var "X", .idx 2]) = some (9 / 2) ∧
    numAt (valAt (.dic s.cur) [.var "Y"]) = some 5 ∧ valAt (.dic s.cur) [.var "S"] = none := by
  have ho : AbbrOk AbbrEx.recipe := by decide +kernel
  refine ⟨ho, ?_⟩
  have h : (match readSection (strict AbbrEx.lines) false AbbrEx.recipe with
    | .ok s => decide (numAt (valAt (.dic s.cur) [.var "X", .idx 2]) = some (9 / 2) ∧ numAt (valAt (.dic s.cur) [.var "Y"]) = some 5) &&
        (valAt (.dic s.cur) [.var "S"]).isNone
    | _ => false) = true := by decide +kernel
  rcases C87_partial _ ho (strict AbbrEx.lines) (by decide) false with ⟨s, h1, h2⟩ | ⟨e, s', _, h1, _⟩ | ⟨s', h1⟩
  · rw [h1] at h
    simp only [Bool.and_eq_true, decide_eq_true_eq, Option.isNone_iff_eq_none] at h
    exact ⟨s, h1, h2, h.1.1, h.1.2, h.2⟩
  · rw [h1] at h; cases h
  · rw [h1] at h; cases h

/-- Behind a branch that was not entered, the compiled function uses the abbreviation introduced there, if there was an
abbreviation before: the interpreter reads the variable `T`, the compiled function expects the number 5. -/
theorem C87_branch_fails : ∃ (p : Prog) (lines : List Str) (s : RSt), readSection (strict lines) false p = .ok s ∧
    numAt (valAt (.dic s.cur) [.var "T"]) = some 7 ∧ cppRead (writeOut p) lines = some .throw := by
  have h : (match cppRead (writeOut branch) [hdLine "1", contLine "7.0", sendLine], readSection (strict [hdLine "1", contLine "7.0", sendLine]) false branch with
    | some .throw, .ok s => decide (numAt (valAt (.dic s.cur) [.var "T"]) = some 7)
    | _, _ => false) = true := by decide +kernel
  split at h
  · rename_i s h1 h2
    exact ⟨_, _, s, h2, of_decide_eq_true h, h1⟩
  · cases h

/-- If there was no abbreviation before, the compiled function does not know the one of a branch behind it, also if the branch was
entered: it reads a variable `T`, where the interpreter expects the number 5. -/
theorem C87_first_fails : ∃ (p : Prog) (lines : List Str) (s : RSt) (d : DDic), readSection (strict lines) false p = .err .numberMismatch s ∧
    cppRead (writeOut p) lines = some (.ok d) ∧ numAt (valAt (.dic d) [.var "T"]) = some 7 := by
  have h : (match cppRead (writeOut first) [hdLine "2", contLine "7.0", sendLine], readSection (strict [hdLine "2", contLine "7.0", sendLine]) false first with
    | some (.ok d), .err .numberMismatch _ => decide (numAt (valAt (.dic d) [.var "T"]) = some 7)
    | _, _ => false) = true := by decide +kernel
  split at h
  · rename_i d s h1 h2
    exact ⟨_, _, s, d, h2, h1, of_decide_eq_true h⟩
  · cases h

/-- An abbreviation with the name of a variable is refused by the interpreter when it reads, and accepted with the abbreviation
written out. -/
theorem C87_clash_fails : ∃ (p : Prog) (lines : List Str) (s : RSt) (d : DDic), readSection (strict lines) false p = .err .abbrevCollision s ∧
    cppRead (writeOut p) lines = some (.ok d) ∧ numAt (valAt (.dic d) [.var "S"]) = some 7 := by
  have h : (match cppRead (writeOut clash) [hdLine "1", contLine "7.0", contLine "1.0", sendLine],
      readSection (strict [hdLine "1", contLine "7.0", contLine "1.0", sendLine]) false clash with
    | some (.ok d), .err .abbrevCollision _ => decide (numAt (valAt (.dic d) [.var "S"]) = some 7)
    | _, _ => false) = true := by decide +kernel
  split at h
  · rename_i d s h1 h2
    exact ⟨_, _, s, d, h2, h1, of_decide_eq_true h⟩
  · cases h

end Verif
