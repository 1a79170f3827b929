import Verif.Props.Abbr
import Verif.Model.Shipped
import Verif.Spec.KindsOf

/-! C86: shipped recipes in the interpreter and in the compiled parser. -/

namespace Verif
open Spec

/-- recipes that are compared -/
def Shipped.compared : List Prog := [Shipped.mf0_mt0_tapehead, Shipped.mf1_mt451, Shipped.mf1_mt452, Shipped.mf1_mt455,
  Shipped.mf1_mt456, Shipped.mf1_mt458, Shipped.mf1_mt460, Shipped.mf3, Shipped.mf4, Shipped.mf5, Shipped.mf7_mt2, Shipped.mf7_mt4, Shipped.mf7_mt451,
  Shipped.mf8, Shipped.mf8_mt454, Shipped.mf8_mt457, Shipped.mf8_mt459, Shipped.mf9, Shipped.mf10, Shipped.mf12, Shipped.mf13,
  Shipped.mf14, Shipped.mf15, Shipped.mf23, Shipped.mf26, Shipped.mf27, Shipped.mf28, Shipped.mf31, Shipped.mf34, Shipped.mf35, Shipped.mf40,
  Shipped.ext_mf4, Shipped.jendl_mf8_mt457, Shipped.pendf_mf1_mt451, Shipped.pendf_mf3, Shipped.pendf_mf23,
  Shipped.mf6, Shipped.mf33, Shipped.mf31_mt452_455_456, Shipped.pendf_mf2_mt152, Shipped.pendf_mf2_mt153]

namespace CF

def wfB : Prog → Bool
  | .skip | .abbr _ _ => true
  | .seq a b => wfB a && wfB b
  | .act a => match a with
    | .text _ _ | .send | .stop => true
    | .cont _ _ fs | .tab1 _ fs _ _ _ | .tab2 _ fs _ | .list _ fs _ _ => fs.length == 6
    | .dir _ fs => fs.length == 4
    | .intg _ fs _ => fs.length == 3
  | .sect _ body => wfB body
  | .loop _ _ _ body => wfB body
  | .ite _ _ t e => wfB t && wfB e

theorem wfB_ok {p : Prog} (h : wfB p = true) : WF p := by
  induction p with
  | skip => trivial
  | abbr n e => trivial
  | seq a b iha ihb => simp only [wfB, Bool.and_eq_true] at h; exact ⟨iha h.1, ihb h.2⟩
  | act a => cases a <;> simp only [wfB, beq_iff_eq] at h <;> first | trivial | exact h
  | sect r b ih => exact ih h
  | loop v a b body ih => exact ih h
  | ite c l t e iht ihe => simp only [wfB, Bool.and_eq_true] at h; exact ⟨iht h.1, ihe h.2⟩

/-- the conditions of `C83_abbr_partial` on a recipe -/
def comparable (p : Prog) : Bool := decide (AbbrOk p) && wfB (writeOut p) && match compile 50 (writeOut p) with
  | some (code, defs) => funOk (kindsOf code) 50 (writeOut p) code defs
  | none => false

theorem compared_ok : Shipped.compared.all comparable = true := by decide +kernel

end CF

open CF in
/-- C86 for the recipes in `Shipped.compared`: the compiler accepts them; if both the interpreter, without tolerance for deviations,
and the compiled function accept the lines of a section, they return the same dictionary.  Lines have at least 66 characters and
are not blank, and for the section holds `Fit`.  The compiler writes out the abbreviations. -/
theorem C86_partial (p : Prog) (hp : p ∈ Shipped.compared) : ∃ code defs, compile 50 (writeOut p) = some (code, defs) ∧
    ∀ (c : RCtx) (cc : FunCtx), 0 < c.fuel → c.ro.width = 11 → c.ro.preserve = false → cc.acc = c.ro.acceptSpaces → Strict c.po →
    (∀ l ∈ c.lines, PlainLine l) → (∀ l ∈ c.lines, isBlankLine l = false) →
    ∀ (mf : Int) (mt : Option Int) (k : Ctrl), FunCtrl c.lines mf mt k → Fit c k (writeOut p) { cur := initWork [] } →
    ∀ (s : RSt) (d : DDic), readSection c false p = .ok s → HasHead p s → runFun cc mf mt code defs c.lines = .ok d →
    SameAt (.dic s.cur) (.dic d) := by
  have h := List.all_eq_true.1 compared_ok p hp
  simp only [comparable, Bool.and_eq_true] at h
  obtain ⟨⟨hab, hwf⟩, h⟩ := h
  cases hc : compile 50 (writeOut p) with
  | none => rw [hc] at h; cases h
  | some cd =>
    obtain ⟨code, defs⟩ := cd
    rw [hc] at h
    exact ⟨code, defs, rfl, fun c cc h0 h1 h2 h3 h4 h5 h6 mf mt k h7 h8 s d h9 h10 h11 =>
      C83_abbr_partial _ 50 p (of_decide_eq_true hab) code defs hc h (wfB_ok hwf) c h0 cc h1 h2 h3 h4 h5 h6 mf mt k h7 h8 s d h9 h10 h11⟩

namespace ShippedEx
open FunEx CF

def isOk (r : CRes Int) (n : Int) : Bool := match r with
  | .ok m => m == n
  | _ => false

theorem isOk_ok {r : CRes Int} {n : Int} (h : isOk r n = true) : r = .ok n := by
  unfold isOk at h
  split at h
  · rw [eq_of_beq h]
  · cases h

def ctrlB (lines : List Str) (mf : Int) (mt : Option Int) (k : Ctrl) : Bool :=
  isOk (cppMat (nextLine lines).1) k.mat && k.mf == mf && match mt with
    | some n => k.mt == n
    | none => isOk (cppMt (nextLine lines).1) k.mt

theorem ctrlB_ok {lines : List Str} {mf : Int} {mt : Option Int} {k : Ctrl} (h : ctrlB lines mf mt k = true) : FunCtrl lines mf mt k := by
  unfold ctrlB at h
  simp only [Bool.and_eq_true] at h
  refine ⟨isOk_ok h.1.1, eq_of_beq h.1.2, ?_⟩
  have := h.2
  cases mt with
  | some n => exact eq_of_beq this
  | none => exact isOk_ok this

/-- a section with the control numbers `k` that meets the conditions of `C86_partial`, with the number `x` at some place -/
def meets (p : Prog) (lines : List Str) (mf : Int) (mt : Option Int) (k : Ctrl) (at_ : List Key) (x : Rat) : Bool :=
  lines.all (fun l => decide (66 ≤ l.length) && !l.contains '_' && l.all (fun c => !isWs c || c == ' ') && !isBlankLine l) &&
  ctrlB lines mf mt k && fitB (strict lines) k (writeOut p) { cur := initWork [] } &&
  match compile 50 (writeOut p), readSection (strict lines) false p with
  | some (code, defs), .ok s => ctlNames.all (fun n => dHas (.var n) s.cur) &&
    (match runFun { ctrl := ⟨0, 0, 0⟩ } mf mt code defs lines with
    | .ok d => decide (numAt (valAt (.dic d) at_) = some x)
    | _ => false)
  | _, _ => false

theorem meets_ok {p : Prog} (hp : p ∈ Shipped.compared) {lines : List Str} {mf : Int} {mt : Option Int} {k : Ctrl} {at_ : List Key} {x : Rat}
    (h : meets p lines mf mt k at_ x = true) : ∃ code defs s d, compile 50 (writeOut p) = some (code, defs) ∧ readSection (strict lines) false p = .ok s ∧
    runFun { ctrl := ⟨0, 0, 0⟩ } mf mt code defs lines = .ok d ∧ SameAt (.dic s.cur) (.dic d) ∧ numAt (valAt (.dic d) at_) = some x := by
  unfold meets at h
  simp only [Bool.and_eq_true, List.all_eq_true, decide_eq_true_eq] at h
  obtain ⟨⟨⟨hl, hk⟩, hfit⟩, h⟩ := h
  split at h
  · rename_i code defs s hc hs
    simp only [Bool.and_eq_true, List.all_eq_true] at h
    obtain ⟨hn, h⟩ := h
    split at h
    · rename_i d hd
      refine ⟨code, defs, s, d, hc, hs, hd, ?_, of_decide_eq_true h⟩
      obtain ⟨code', defs', hc', hall⟩ := C86_partial p hp
      rw [hc] at hc'
      cases hc'
      refine hall (strict lines) _ (by decide : 0 < 100) rfl rfl rfl ⟨rfl, rfl, rfl, rfl⟩ ?_ ?_ mf mt k (ctrlB_ok hk) (fitB_ok hfit) s d hs
        (.inr fun n hm h0 => by have := hn n hm; unfold dHas at this; rw [h0] at this; cases this) hd
      · intro l hm
        obtain ⟨⟨⟨a1, a2⟩, a3⟩, _⟩ := hl l hm
        refine ⟨a1, by simpa using a2, fun c hc hw => ?_⟩
        have := a3 c hc
        rw [hw] at this
        simpa using this
      · intro l hm
        simpa using (hl l hm).2
    · cases h
  · cases h

def ctl : String := " 125 3  1    1"

/-- a section of MF3 -/
def lines3 : List Str := [line ["1.001+3", "0.99", "0", "0", "0", "0"] ctl, line ["0.0", "-2.5+6", "0", "0", "1", "3"] ctl,
  line ["3", "2"] ctl, line ["1.0-5", "20.4", "1.0", "20.3", "2.0+7", "0.48"] ctl,
  line ["0.0", "0.0", "0", "0", "0", "0"] " 125 3  0    1"]

/-- MF1/MT458 with NPLY=1: the branch is found by a lookahead over two records, and all HEAD records are in branches -/
def lines458 : List Str := [line ["1.001+3", "0.99", "0", "0", "0", "0"] " 125 1458    1",
  line ["0.0", "0.0", "0", "1", "36", "18"] " 125 1458    2",
  line ["1.0", "0.1", "2.0", "0.2", "3.0", "0.3"] " 125 1458    3", line ["4.0", "0.4", "5.0", "0.5", "6.0", "0.6"] " 125 1458    4",
  line ["7.0", "0.7", "8.0", "0.8", "9.0", "0.9"] " 125 1458    5", line ["1.0", "0.15", "2.0", "0.2", "3.0", "0.3"] " 125 1458    6",
  line ["4.0", "0.4", "5.0", "0.5", "6.0", "0.6"] " 125 1458    7", line ["7.0", "0.7", "8.0", "0.8", "9.0", "0.9"] " 125 1458    8",
  line ["0.0", "0.0", "0", "0", "0", "0"] " 125 1  099999"]

/-- MF34 with one sub-section: the condition for its branch depends on the control number MT -/
def lines34 : List Str := [line ["1.001+3", "0.99", "0", "1", "0", "1"] " 12534  2    1",
  line ["0.0", "0.0", "0", "2", "1", "1"] " 12534  2    2", line ["0.0", "0.0", "1", "1", "0", "1"] " 12534  2    3",
  line ["0.0", "0.0", "0", "1", "2", "1"] " 12534  2    4", line ["1.0-5", "0.04"] " 12534  2    5",
  line ["0.0", "0.0", "0", "0", "0", "0"] " 12534  099999"]

/-- MF6 with LAW=1: the number of values in the LIST record is an abbreviation -/
def lines6 : List Str := [line ["1.001+3", "0.99", "0", "1", "1", "0"] " 125 6 16    1",
  line ["1.0", "1.0", "0", "1", "1", "2"] " 125 6 16    2", line ["2", "2"] " 125 6 16    3",
  line ["1.0-5", "1.0", "2.0+7", "2.0"] " 125 6 16    4", line ["0.0", "0.0", "1", "2", "1", "1"] " 125 6 16    5",
  line ["1", "2"] " 125 6 16    6", line ["0.0", "5.0+6", "0", "1", "6", "2"] " 125 6 16    7",
  line ["0.0", "1.0", "0.25", "1.0+6", "0.5", "0.125"] " 125 6 16    8", line ["0.0", "0.0", "0", "0", "0", "0"] " 125 6  099999"]

/-- MF40 with an NC sub-subsection -/
def lines40 : List Str := [line ["1.001+3", "0.99", "0", "0", "1", "0"] " 12540  1    1",
  line ["0.0", "-2.5+6", "0", "0", "0", "1"] " 12540  1    2", line ["0.0", "0.0", "0", "1", "1", "0"] " 12540  1    3",
  line ["0.0", "0.0", "0", "0", "0", "0"] " 12540  1    4", line ["1.0-5", "2.0+7", "0", "0", "2", "1"] " 12540  1    5",
  line ["1.0", "2.0"] " 12540  1    6", line ["0.0", "0.0", "0", "0", "0", "0"] " 12540  099999"]

def refused : Bool := match compile 50 (writeOut Shipped.mf40), readSection (strict lines40) false Shipped.mf40 with
  | some (code, defs), .err .loopVariable _ => (match runFun { ctrl := ⟨0, 0, 0⟩ } 40 none code defs lines40 with
    | .ok d => decide (numAt (valAt (.dic d) [.var "subsection", .idx 1, .var "subsubsec", .idx 1, .var "nc_subsubsubsec", .idx 1,
      .var "XMT", .idx 1]) = some 2)
    | _ => false)
  | _, _ => false

end ShippedEx

open ShippedEx FunEx CF

/-- the conditions of `C86_partial` are met by a section of MF3, for the function that is generated for all MT numbers -/
example : ∃ code defs s d, compile 50 (writeOut Shipped.mf3) = some (code, defs) ∧ readSection (strict lines3) false Shipped.mf3 = .ok s ∧
    runFun { ctrl := ⟨0, 0, 0⟩ } 3 none code defs lines3 = .ok d ∧ SameAt (.dic s.cur) (.dic d) ∧
    numAt (valAt (.dic d) [.var "QI"]) = some (-2500000) :=
  meets_ok (by simp [Shipped.compared]) (k := ⟨125, 3, 1⟩) (by decide +kernel)

/-- a section whose records are found by lookahead -/
example : ∃ code defs s d, compile 50 (writeOut Shipped.mf1_mt458) = some (code, defs) ∧ readSection (strict lines458) false Shipped.mf1_mt458 = .ok s ∧
    runFun { ctrl := ⟨0, 0, 0⟩ } 1 (some 458) code defs lines458 = .ok d ∧ SameAt (.dic s.cur) (.dic d) ∧
    numAt (valAt (.dic d) [.var "dc_EFR", .idx 1]) = some (15 / 100) :=
  meets_ok (by simp [Shipped.compared]) (k := ⟨125, 1, 458⟩) (by decide +kernel)

/-- a section with a condition on the control number -/
example : ∃ code defs s d, compile 50 (writeOut Shipped.mf34) = some (code, defs) ∧ readSection (strict lines34) false Shipped.mf34 = .ok s ∧
    runFun { ctrl := ⟨0, 0, 0⟩ } 34 none code defs lines34 = .ok d ∧ SameAt (.dic s.cur) (.dic d) ∧
    numAt (valAt (.dic d) [.var "subsection", .idx 1, .var "Data", .idx 1, .idx 1, .idx 2]) = some (4 / 100) :=
  meets_ok (by simp [Shipped.compared]) (k := ⟨125, 34, 2⟩) (by decide +kernel)

/-- a section with an abbreviation -/
example : ∃ code defs s d, compile 50 (writeOut Shipped.mf6) = some (code, defs) ∧ readSection (strict lines6) false Shipped.mf6 = .ok s ∧
    runFun { ctrl := ⟨0, 0, 0⟩ } 6 none code defs lines6 = .ok d ∧ SameAt (.dic s.cur) (.dic d) ∧
    numAt (valAt (.dic d) [.var "subsection", .idx 1, .var "b", .idx 1, .idx 2, .idx 1]) = some (1 / 8) :=
  meets_ok (by simp [Shipped.compared]) (k := ⟨125, 6, 16⟩) (by decide +kernel)

/-- In MF40, the list of an NC sub-subsection is a loop over `i` inside of a loop over `i`: the interpreter refuses the section, the
compiled function reads it. -/
theorem C86_mf40_fails : ∃ code defs s d, compile 50 (writeOut Shipped.mf40) = some (code, defs) ∧
    readSection (strict lines40) false Shipped.mf40 = .err .loopVariable s ∧ runFun { ctrl := ⟨0, 0, 0⟩ } 40 none code defs lines40 = .ok d ∧
    numAt (valAt (.dic d) [.var "subsection", .idx 1, .var "subsubsec", .idx 1, .var "nc_subsubsubsec", .idx 1, .var "XMT", .idx 1]) = some 2 := by
  have h : refused = true := by decide +kernel
  unfold refused at h
  split at h
  · rename_i code defs s hc hs
    split at h
    · rename_i d hd
      exact ⟨code, defs, s, d, hc, hs, hd, of_decide_eq_true h⟩
    · cases h
  · cases h

/-- That holds for any content of the list, and any bounds: the interpreter never reads a list with a loop over a variable in use. -/
theorem C86_nested_fails (c : RCtx) (vals : List PyNum) (v : Name) (a b : Expr) (body : LBody) (l : LSt) (h : dHas v l.st.lv = true) :
    ∀ l', readBody c vals (.loop v a b body) l ≠ .ok l' := by
  intro l' hr
  simp only [readBody] at hr
  obtain ⟨x, hx, _⟩ := lift_ok hr
  unfold loopHead at hx
  simp only [bind_ok] at hx
  obtain ⟨_, _, _, _, _, _, _, _, hx⟩ := hx
  rw [if_pos (show dHas v l.st.env.lv = true from h)] at hx
  cases hx

end Verif
