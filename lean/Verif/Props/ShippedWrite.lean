import Verif.Props.Shipped
import Verif.Props.AbbrWrite

/-! C92: sections written with shipped recipes by the interpreter and by the compiled parser. -/

namespace Verif
open Spec

/-- recipes that are compared when sections are written -/
def Shipped.written : List Prog := [Shipped.mf0_mt0_tapehead, Shipped.mf1_mt451, Shipped.mf1_mt452, Shipped.mf1_mt455, Shipped.mf1_mt456,
  Shipped.mf1_mt458, Shipped.mf3, Shipped.mf4, Shipped.mf5, Shipped.mf7_mt2, Shipped.mf7_mt451, Shipped.mf8, Shipped.mf8_mt454, Shipped.mf8_mt457,
  Shipped.mf8_mt459, Shipped.mf9, Shipped.mf10, Shipped.mf12, Shipped.mf13, Shipped.mf14, Shipped.mf15, Shipped.mf23, Shipped.mf26, Shipped.mf27,
  Shipped.mf28, Shipped.mf31, Shipped.mf35, Shipped.pendf_mf1_mt451, Shipped.pendf_mf3, Shipped.pendf_mf23, Shipped.mf6,
  Shipped.pendf_mf2_mt152, Shipped.pendf_mf2_mt153, Shipped.mf33, Shipped.mf31_mt452_455_456, Shipped.pendf_mf6]

namespace CF

/-- the conditions of `C90_abbr_partial` on a recipe -/
def writes (p : Prog) : Bool := decide (AbbrOk p) && decide (AbbrFree p) && wfB (writeOut p) && plainTexts (writeOut p) &&
  match compile 50 (writeOut p) with
  | some (code, defs) => writeOk 50 code defs
  | none => false

theorem written_ok : Shipped.written.all writes = true := by decide +kernel

end CF

open CF in
/-- C92 for the recipes in `Shipped.written`: the compiler accepts them; if the interpreter and the compiled function both write a
dictionary, they write the same records.  Names that are searched for in enclosing sections are unique, and control numbers in the
dictionary are the same wherever there are any.  Variables with which loops start are not negative.  The compiler writes out the abbreviations. -/
theorem C92_partial (p : Prog) (hp : p ∈ Shipped.written) : ∃ code defs, compile 50 (writeOut p) = some (code, defs) ∧
    ∀ (fuel fuel' : Nat), 0 < fuel → ∀ (mf mt : Int) (omt : Option Int), omt = some mt ∨ omt = none → ∀ d : DDic, Clean (.dic d) →
    ∀ k : Ctrl, CtrlAll k (numbered mf mt d) → Unshadowed (looked (writeOut p)) (numbered mf mt d) → Positive (starts (writeOut p)) (numbered mf mt d) →
    ∀ (w : WSt) (v : WFun), writeSection fuel mf mt p d = .ok w → writeFun fuel' mf omt code defs d = .ok v →
    List.Forall₂ RecAs w.out v.out := by
  have h := List.all_eq_true.1 written_ok p hp
  simp only [writes, Bool.and_eq_true] at h
  obtain ⟨⟨⟨⟨hab, hfr⟩, hwf⟩, htx⟩, h⟩ := h
  cases hc : compile 50 (writeOut p) with
  | none => rw [hc] at h; cases h
  | some cd =>
    obtain ⟨code, defs⟩ := cd
    rw [hc] at h
    exact ⟨code, defs, rfl, fun fuel fuel' h0 mf mt omt hm d hd k hC hU hP w v h1 h2 =>
      C90_abbr_partial 50 p (of_decide_eq_true hab) (of_decide_eq_true hfr) code defs hc h (wfB_ok hwf) htx fuel fuel' h0 mf mt omt hm d hd k hC hU hP w v h1 h2⟩

namespace ShippedEx
open FunEx CF

/-- The section can be read by the interpreter, and the dictionary meets the conditions of `C92_partial` and is written by both, with
the number `x` at position `i` of record `j`. -/
def cycles (p : Prog) (lines : List Str) (mf mt : Int) (k : Ctrl) (j i : Nat) (x : Rat) : Bool :=
  match compile 50 (writeOut p), readSection (strict lines) false p with
  | some (code, defs), .ok s => cleanB (.dic s.cur) && ctrlAllB k (numbered mf mt s.cur) && unshadowedB (looked (writeOut p)) (numbered mf mt s.cur) &&
    positiveB (starts (writeOut p)) (numbered mf mt s.cur) &&
    (match writeSection 100 mf mt p s.cur, writeFun 100 mf none code defs s.cur with
    | .ok _, .ok v => decide (cfldAt v.out j i = some x)
    | _, _ => false)
  | _, _ => false

theorem cycles_ok {p : Prog} (hp : p ∈ Shipped.written) {lines : List Str} {mf mt : Int} {k : Ctrl} {j i : Nat} {x : Rat}
    (h : cycles p lines mf mt k j i x = true) : ∃ code defs s w v, compile 50 (writeOut p) = some (code, defs) ∧
    readSection (strict lines) false p = .ok s ∧ writeSection 100 mf mt p s.cur = .ok w ∧ writeFun 100 mf none code defs s.cur = .ok v ∧
    List.Forall₂ RecAs w.out v.out ∧ cfldAt v.out j i = some x := by
  unfold cycles at h
  split at h
  · rename_i code defs s hc hs
    simp only [Bool.and_eq_true] at h
    obtain ⟨⟨⟨⟨h1, h2⟩, h3⟩, h5⟩, h4⟩ := h
    split at h4
    · rename_i w v hw hv
      obtain ⟨code', defs', hc', hall⟩ := C92_partial p hp
      rw [hc] at hc'
      cases hc'
      exact ⟨code, defs, s, w, v, hc, hs, hw, hv, hall 100 100 (by decide) mf mt none (.inr rfl) s.cur (cleanB_ok h1) k (ctrlAllB_ok h2)
        (unshadowedB_ok h3) (positiveB_ok h5) w v hw hv, of_decide_eq_true h4⟩
    · cases h4
  · cases h

/-- MF33 with a symmetric matrix: its branch is found by a lookahead, and the number of values is half of `NE*(NE+1)` -/
def lines33 : List Str := [line ["1.001+3", "0.99", "0", "0", "0", "1"] " 12533  2    1",
  line ["0.0", "0.0", "0", "2", "0", "1"] " 12533  2    2", line ["0.0", "0.0", "1", "5", "6", "3"] " 12533  2    3",
  line ["1.0-5", "1.0", "2.0+7", "0.25", "0.125", "0.5"] " 12533  2    4", line ["0.0", "0.0", "0", "0", "0", "0"] " 12533  099999"]

/-- MF8/MT457 for a stable nucleus, as in the manual -/
def lines457 : List Str := [line ["1.001+3", "0.99", "0", "0", "1", "0"] " 125 8457    1",
  line ["0.0", "0.0", "0", "0", "6", "0"] " 125 8457    2", line ["0.0", "0.0", "0.0", "0.0", "0.0", "0.0"] " 125 8457    3",
  line ["0.5", "1.0", "0", "0", "6", "0"] " 125 8457    4", line ["0.0", "0.0", "0.0", "0.0", "0.0", "0.0"] " 125 8457    5",
  line ["0.0", "0.0", "0", "0", "0", "0"] " 125 8  099999"]

def refused457 : Bool := match compile 50 (writeOut Shipped.jendl_mf8_mt457), readSection (strict lines457) false Shipped.jendl_mf8_mt457 with
  | some (code, defs), .ok s =>
    (match runFun { ctrl := ⟨0, 0, 0⟩ } 8 (some 457) code defs lines457, writeSection 100 8 457 Shipped.jendl_mf8_mt457 s.cur, writeFun 100 8 (some 457) code defs s.cur with
    | .ok _, .ok w, .throw => decide (fldAt w.out 2 0 = some (1 / 2))
    | _, _, _ => false)
  | _, _ => false

/-- a section of MF1/MT460 with LO=1 -/
def data460 : DDic := [(.var "MAT", num 125), (.var "ZA", flt 92235), (.var "AWR", flt 233), (.var "LO", num 1), (.var "NG", num 1),
  (.var "E", .dic [(.idx 1, flt 2)]), (.var "NBT", .lst [.int 2]), (.var "INT", .lst [.int 2]),
  (.var "tint", .dic [(.idx 1, .lst [.num (.flt 1), .num (.flt 2)])]), (.var "T", .dic [(.idx 1, .lst [.num (.flt 3), .num (.flt 4)])])]

def refused460 : Bool := match compile 50 (writeOut Shipped.mf1_mt460), writeSection 100 1 460 Shipped.mf1_mt460 data460 with
  | some (code, defs), .ok w => decide (fldAt w.out 1 2 = some 1) && (match writeFun 100 1 (some 460) code defs data460 with
    | .throw => true
    | _ => false) && (match writeFun 100 1 (some 460) code defs (data460 ++ [(.var "i", num 1)]) with
    | .ok v => decide (cfldAt v.out 1 2 = some 1)
    | _ => false)
  | _, _ => false

end ShippedEx

open ShippedEx FunEx CF

/-- a section of MF3: what the interpreter reads is written by both in the same way -/
example : ∃ code defs s w v, compile 50 (writeOut Shipped.mf3) = some (code, defs) ∧ readSection (strict lines3) false Shipped.mf3 = .ok s ∧
    writeSection 100 3 1 Shipped.mf3 s.cur = .ok w ∧ writeFun 100 3 none code defs s.cur = .ok v ∧ List.Forall₂ RecAs w.out v.out ∧
    cfldAt v.out 1 1 = some (-2500000) :=
  cycles_ok (by simp [Shipped.written]) (k := ⟨125, 3, 1⟩) (by decide +kernel)

/-- a section whose records are found by lookahead -/
example : ∃ code defs s w v, compile 50 (writeOut Shipped.mf1_mt458) = some (code, defs) ∧ readSection (strict lines458) false Shipped.mf1_mt458 = .ok s ∧
    writeSection 100 1 458 Shipped.mf1_mt458 s.cur = .ok w ∧ writeFun 100 1 none code defs s.cur = .ok v ∧ List.Forall₂ RecAs w.out v.out ∧
    cfldAt v.out 1 19 = some (15 / 100) :=
  cycles_ok (by simp [Shipped.written]) (k := ⟨125, 1, 458⟩) (by decide +kernel)

/-- a section with an abbreviation -/
example : ∃ code defs s w v, compile 50 (writeOut Shipped.mf6) = some (code, defs) ∧ readSection (strict lines6) false Shipped.mf6 = .ok s ∧
    writeSection 100 6 16 Shipped.mf6 s.cur = .ok w ∧ writeFun 100 6 none code defs s.cur = .ok v ∧ List.Forall₂ RecAs w.out v.out ∧
    cfldAt v.out 3 5 = some (1 / 8) :=
  cycles_ok (by simp [Shipped.written]) (k := ⟨125, 6, 16⟩) (by decide +kernel)

/-- a section with a lookahead over a field whose variables are not those of the condition -/
example : ∃ code defs s w v, compile 50 (writeOut Shipped.mf33) = some (code, defs) ∧ readSection (strict lines33) false Shipped.mf33 = .ok s ∧
    writeSection 100 33 2 Shipped.mf33 s.cur = .ok w ∧ writeFun 100 33 none code defs s.cur = .ok v ∧ List.Forall₂ RecAs w.out v.out ∧
    cfldAt v.out 2 5 = some (1 / 2) :=
  cycles_ok (by simp [Shipped.written]) (k := ⟨125, 33, 2⟩) (by decide +kernel)

/-- The JENDL recipe for MF8/MT457 has the condition `JENDL_LIST_NPL != 6` with a lookahead.  A section of a stable nucleus as in the
manual is read by both, without an entry JENDL_LIST_NPL.  The interpreter writes it.  The compiled function takes the missing variable for a
number that is not 6, enters the other branch, and throws. -/
theorem C92_jendl_fails : ∃ code defs s d w, compile 50 (writeOut Shipped.jendl_mf8_mt457) = some (code, defs) ∧
    readSection (strict lines457) false Shipped.jendl_mf8_mt457 = .ok s ∧ runFun { ctrl := ⟨0, 0, 0⟩ } 8 (some 457) code defs lines457 = .ok d ∧
    writeSection 100 8 457 Shipped.jendl_mf8_mt457 s.cur = .ok w ∧ fldAt w.out 2 0 = some (1 / 2) ∧
    writeFun 100 8 (some 457) code defs s.cur = .throw := by
  have h : refused457 = true := by decide +kernel
  unfold refused457 at h
  split at h
  · rename_i code defs s hc hs
    split at h
    · rename_i d w hd hw hv
      exact ⟨code, defs, s, d, w, hc, hs, hd, hw, of_decide_eq_true h, hv⟩
    · cases h
  · cases h

/-- The shipped recipe for MF1/MT460 with LO=1 has the loop variable as a field.  The interpreter writes it; the compiled function
looks for it in the dictionary, and throws unless there is such an entry. -/
theorem C92_mf1_mt460_fails : ∃ code defs w, compile 50 (writeOut Shipped.mf1_mt460) = some (code, defs) ∧
    writeSection 100 1 460 Shipped.mf1_mt460 data460 = .ok w ∧ fldAt w.out 1 2 = some 1 ∧ writeFun 100 1 (some 460) code defs data460 = .throw ∧
    ∃ v, writeFun 100 1 (some 460) code defs (data460 ++ [(.var "i", num 1)]) = .ok v ∧ cfldAt v.out 1 2 = some 1 := by
  have h : refused460 = true := by decide +kernel
  unfold refused460 at h
  split at h
  · rename_i code defs w hc hw
    simp only [Bool.and_eq_true] at h
    obtain ⟨⟨h1, h2⟩, h3⟩ := h
    split at h2
    · rename_i hv
      split at h3
      · rename_i v hv2
        exact ⟨code, defs, w, hc, hw, of_decide_eq_true h1, hv, v, hv2, of_decide_eq_true h3⟩
      · cases h3
    · cases h2
  · cases h

end Verif
