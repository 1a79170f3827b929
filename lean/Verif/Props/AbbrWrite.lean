import Verif.Lemmas.AbbrWrite
import Verif.Props.Abbr
import Verif.Props.CppWriteFun

/-! C91: abbreviations in recipes when sections are written. -/

namespace Verif
open Spec CF

/-- no abbreviation has the name of a control number or of a text -/
def Spec.AbbrFree (p : Prog) : Prop := ∀ n ∈ abbrs p, n ∉ ctlNames ∧ n ∉ textNames p

instance (p : Prog) : Decidable (AbbrFree p) := by unfold AbbrFree; infer_instance

/-- C91, for recipes with `AbbrOk` and `AbbrFree`.  Writing a section with a recipe and with the recipe with its abbreviations written
out has the same outcome, the same records and the same dictionary, or the same exception.  The only other outcome is that the
interpreter refuses to introduce an abbreviation because there is a variable with that name. -/
theorem C91_partial (p : Prog) (hp : AbbrOk p) (hf : AbbrFree p) (fuel : Nat) (h0 : 0 < fuel) (mf mt : Int) (d : DDic) (hd : Clean (.dic d)) :
    (∃ w, writeSection fuel mf mt p d = .ok w ∧ writeSection fuel mf mt (writeOut p) d = .ok w) ∨
    (∃ e, writeSection fuel mf mt p d = .error e ∧ writeSection fuel mf mt (writeOut p) d = .error e) ∨
    writeSection fuel mf mt p d = .error .abbrevCollision := by
  have hl : Lvl false (numbered mf mt d) := Lvl.of_clean (numbered_clean hd mf mt)
  obtain ⟨b1, b2⟩ := bare_init hl
  have hM : ctlA (abbrs p) = true := by
    unfold ctlA
    rw [List.all_eq_true]
    intro n hn
    simp only [Bool.not_eq_true', List.contains_eq_mem, decide_eq_false_iff_not]
    exact fun h => (hf n h).1 hn
  have hs : StW (abbrs p) true [] [] [] [] [] { cur := initWork (numbered mf mt d) } :=
    ⟨⟨b2, rfl, (fun _ h => by cases h), (fun _ _ h => by cases h), (fun _ h => by cases h)⟩, fun _ h => by cases h⟩
  have hb : bareW { cur := initWork (numbered mf mt d) } = { cur := initWork (numbered mf mt d) } := by
    unfold bareW; simp only [b1, List.map_nil]
  have hsim := writeProg_simW hM h0 (A := none) hp (fun _ h => h) (fun n hn h => (hf n h).2 hn) hs
  rw [hb] at hsim
  change SimW _ _ _ (writeProg fuel (writeOut p) _) at hsim
  unfold writeSection
  have hn : (if dHas (Key.var "MT") (if dHas (Key.var "MF") d = true then d else dSet (Key.var "MF") (Val.num (PyNum.int mf)) d) = true then
      (if dHas (Key.var "MF") d = true then d else dSet (Key.var "MF") (Val.num (PyNum.int mf)) d)
      else dSet (Key.var "MT") (Val.num (PyNum.int mt)) (if dHas (Key.var "MF") d = true then d else dSet (Key.var "MF") (Val.num (PyNum.int mf)) d)) =
      numbered mf mt d := rfl
  simp only [hn]
  cases ctrlNum (if dHas (Key.var "MF") d = true then d else dSet (Key.var "MF") (Val.num (PyNum.int mf)) d) "MF" with
  | error e => exact .inr (.inl ⟨e, rfl, rfl⟩)
  | ok m =>
    by_cases hm : m = mf
    swap
    · exact .inr (.inl ⟨.unexpectedControl, by simp [bind, Except.bind, hm], by simp [bind, Except.bind, hm]⟩)
    subst hm
    simp only [bind, Except.bind, ne_eq, not_true_eq_false, if_false]
    cases ctrlNum (numbered m mt d) "MT" with
    | error e => exact .inr (.inl ⟨e, rfl, rfl⟩)
    | ok m' =>
      by_cases hm : m' = mt
      swap
      · exact .inr (.inl ⟨.unexpectedControl, by simp [hm], by simp [hm]⟩)
      subst hm
      simp only [not_true_eq_false, if_false]
      cases hr : writeProg fuel p { cur := initWork (numbered m m' d) } with
      | error e =>
        rw [hr] at hsim
        rcases hsim with rfl | h1
        · exact .inr (.inr rfl)
        · rw [h1]; exact .inr (.inl ⟨e, rfl, rfl⟩)
      | ok s =>
        rw [hr] at hsim
        obtain ⟨h1, h2⟩ := hsim
        obtain ⟨d', g1, g2, g3⟩ := h2.st.cur.remove
        have g1 : removeWork s.cur = .ok d' := g1
        have g2 : removeWork (bare s.cur) = .ok d' := g2
        rw [h1]
        refine .inl ⟨{ s with cur := d' }, ?_, ?_⟩
        · simp only [g1]; rfl
        · have hu : s.ups = [] := h2.st.upsEq
          simp only [show (bareW s).cur = bare s.cur from rfl, g2]
          unfold bareW
          simp only [hu, List.map_nil, pure, Except.pure]

/-- C90 for recipes with abbreviations: as in `C90_partial`, but the interpreter uses the recipe with abbreviations, and the compiler
writes them out. -/
theorem C90_abbr_partial (depth : Nat) (p : Prog) (hp : AbbrOk p) (hf : AbbrFree p) (code : Code) (defs : List VKey)
    (hcomp : compile depth (writeOut p) = some (code, defs))
    (hok : writeOk depth code defs = true) (hwf : WF (writeOut p)) (htx : plainTexts (writeOut p) = true) (fuel fuel' : Nat) (h0 : 0 < fuel)
    (mf mt : Int) (omt : Option Int) (hmt : omt = some mt ∨ omt = none) (d : DDic) (hd : Clean (.dic d)) (k : Ctrl) (hC : CtrlAll k (numbered mf mt d))
    (hU : Unshadowed (looked (writeOut p)) (numbered mf mt d)) (hP : Positive (starts (writeOut p)) (numbered mf mt d)) (w : WSt) (v : WFun)
    (hpy : writeSection fuel mf mt p d = .ok w) (hcpp : writeFun fuel' mf omt code defs d = .ok v) :
    List.Forall₂ RecAs w.out v.out := by
  have hpy' : writeSection fuel mf mt (writeOut p) d = .ok w := by
    rcases C91_partial p hp hf fuel h0 mf mt d hd with ⟨s', h1, h2⟩ | ⟨e, h1, _⟩ | h1
    · rw [hpy] at h1; cases h1; exact h2
    · rw [hpy] at h1; cases h1
    · rw [hpy] at h1; cases h1
  exact C90_partial depth (writeOut p) code defs hcomp hok hwf htx fuel fuel' mf mt omt hmt d hd k hC hU hP w v hpy' hcpp

/-! ## cases -/

namespace AbbrEx
open FunEx

/-- data for `recipe`: `X[1]`, `X[2]` and `Y` -/
def dataW : DDic := base 1 [(.var "X", .dic [(.idx 1, flt (7 / 2)), (.idx 2, flt (9 / 2))]), (.var "Y", flt 5)]

/-- `S := N` and a record with `S` -/
def named : Prog := .seq hd (.seq (.abbr "S" (var "N")) (.seq (cont (var "S")) (.act .send)))

end AbbrEx

open AbbrEx FunEx

/-- the hypotheses of `C91_partial` are met by a recipe with two abbreviations, one of them in a loop; the section is written, and the
values of the abbreviations are in the records -/
example : AbbrOk AbbrEx.recipe ∧ AbbrFree AbbrEx.recipe ∧ Clean (.dic dataW) ∧ ∃ w, writeSection 100 2 99 AbbrEx.recipe dataW = .ok w ∧
    writeSection 100 2 99 (writeOut AbbrEx.recipe) dataW = .ok w ∧ w.out.length = 5 ∧ fldAt w.out 2 0 = some (9 / 2) ∧ fldAt w.out 2 1 = some 4 ∧
    fldAt w.out 3 0 = some 7 := by
  have ho : AbbrOk AbbrEx.recipe := by decide +kernel
  have hf : AbbrFree AbbrEx.recipe := by decide +kernel
  have hc : Clean (.dic dataW) := cleanB_ok (by decide +kernel)
  refine ⟨ho, hf, hc, ?_⟩
  have h : (match writeSection 100 2 99 AbbrEx.recipe dataW with
    | .ok w => decide (w.out.length = 5 ∧ fldAt w.out 2 0 = some (9 / 2) ∧ fldAt w.out 2 1 = some 4 ∧ fldAt w.out 3 0 = some 7)
    | _ => false) = true := by decide +kernel
  rcases C91_partial _ ho hf 100 (by decide) 2 99 dataW hc with ⟨w, h1, h2⟩ | ⟨e, h1, _⟩ | h1
  · rw [h1] at h
    exact ⟨w, h1, h2, of_decide_eq_true h⟩
  · rw [h1] at h; cases h
  · rw [h1] at h; cases h

/-- If the dictionary has an entry with the name of an abbreviation, the interpreter refuses to write the section.  The compiled
function, which has no variable with that name, writes it. -/
theorem C91_clash_fails : ∃ (p : Prog) (d : DDic) (v : WFun), AbbrOk p ∧ AbbrFree p ∧ Clean (.dic d) ∧
    writeSection 100 2 99 p d = .error .abbrevCollision ∧ cppWrite (writeOut p) d = some (.ok v) ∧ cfldAt v.out 1 0 = some 1 := by
  have h : (match cppWrite (writeOut named) (base 1 [(.var "S", flt 5)]), writeSection 100 2 99 named (base 1 [(.var "S", flt 5)]) with
    | some (.ok v), .error .abbrevCollision => decide (cfldAt v.out 1 0 = some 1)
    | _, _ => false) = true := by decide +kernel
  split at h
  · rename_i v h1 h2
    exact ⟨_, _, v, by decide +kernel, by decide +kernel, cleanB_ok (by decide +kernel), h2, h1, of_decide_eq_true h⟩
  · cases h

end Verif
