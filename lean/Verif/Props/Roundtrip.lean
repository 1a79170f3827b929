import Verif.Lemmas.WholeCheck
import Verif.Lemmas.RewriteProg
/-
C39: writing what has been read gives the same records again.
-/
namespace Verif
open Spec

/-- C39 (partial): records read with a recipe are written again by the same recipe, if deviations are not tolerated while
reading (`Strict`); the recipe has the right number of fields (`WF`); every TEXT line is stored completely, PADLINE skips
zeros, and conditions are decided by variables that have values (`Tidy`); all records carry the control numbers of the
section; names that are searched for in enclosing sections are unique (`Unshadowed`); names of abbreviations are not used
for data (`Unused`).  Missing in comparison to the full claim: these conditions (see the `C39_…_fails` below for why each is
needed); that writing succeeds is a hypothesis here and proved in `C39_success_partial`. -/
theorem C39_partial (c : RCtx) (p : Prog) (k : Ctrl) (s : RSt) (fuel : Nat) (mf mt : Int) (w : WSt)
    (hs : Strict c.po) (hr : readSection c false p = .ok s) (hwf : WF p) (ht : Tidy c p { cur := initWork [] })
    (hk : ∀ r ∈ s.recs, r.ctrl = if r.kind = .send then { k with mt := 0 } else k)
    (hc : CtrlAll k s.cur) (hm : dHas (.var "MAT") s.cur = true)
    (hu : Unshadowed (looked p) s.cur) (hb : Unused (abbrs p) s.cur)
    (hw : writeSection fuel mf mt p s.cur = .ok w) : List.Forall₂ SameRec s.recs w.out := by
  unfold readSection at hr
  simp only [Out.andThen_ok, Out.lift_ok] at hr
  obtain ⟨s0, h0, D, hD, h1⟩ := hr
  cases h1
  dsimp only at hk hc hm hu hb hw ⊢
  have hnil : Lvl false ([] : DDic) := ⟨by unfold DNodup dKeys; simp, by simp [dGet], by simp [dGet], by simp [dGet], by simp [dGet]⟩
  have hw0 := (clean_work hnil).1
  obtain ⟨g1, g2⟩ := readProg_grow (s := { cur := initWork [] }) hw0 rfl rfl ht h0
  have hf := readProg_frame h0
  have hlD := removeWork_lvl g2.lvl hD
  have hup : dHas .up D = false := by
    rw [hlD.2, (hf.lvl hw0.lvl).2]; rfl
  have hcD : Clean (.dic D) := by
    have := hlD.1.clean
    rwa [dDel_none (dHas_none.1 hup)] at this
  have hH : Hold s0.cur D := fun n v hv ha => ⟨v, removeWork_get g2 hD rfl ha hv, .refl _⟩
  obtain ⟨m1, m2, m3⟩ := hc [] D .top hm
  have hMF : dHas (.var "MF") D = true := dHas_some.2 ⟨_, m2⟩
  have hMT : dHas (.var "MT") D = true := dHas_some.2 ⟨_, m3⟩
  unfold writeSection at hw
  simp only [hMF, hMT, if_true, bind_ok] at hw
  obtain ⟨_, _, hw⟩ := hw
  split at hw
  · cases hw
  simp only [bind_ok] at hw
  obtain ⟨_, _, hw⟩ := hw
  split at hw
  · cases hw
  simp only [bind_ok, pure_ok] at hw
  obtain ⟨w1, hw1, cur, hcur, rfl⟩ := hw
  have hlev : Lev (abbrs p) (looked p) (initWork []) (initWork D) D := by
    apply Lev.init
    have na : ∀ n e', ¬ dGet (.var n) D = some (.abb e') := fun n e' h => clean_get_not_abb hcD h e' rfl
    refine ⟨?_, fun n v hv => .inr hv, ?_, fun n e hv => absurd hv (na _ _), hup.symm⟩
    · intro n e
      exact ⟨fun h => by simp [dGet] at h, fun h => absurd h (na _ _)⟩
    · intro n v hv
      refine ⟨hv, ?_⟩
      cases hcD with
      | dic _ _ _ h3 => exact h3 _ _ hv
  have hat : At (abbrs p) (looked p) (Like k) D { cur := initWork [] } { cur := initWork D } D [] :=
    ⟨⟨⟨[], .top, by simp⟩, by simp, by simp, by simp⟩, hlev, rfl, rfl, rfl, .nil⟩
  have := (sim (s := { cur := initWork [] }) (pairs_like hs ⟨hu, hb⟩ hc) ⟨hu, hb⟩ hwf (fun _ h => h) (fun _ h => h) hw0 (clean_work hlD.1).1 rfl rfl ht h0 hw1 hat hH).recs
  dsimp only
  clear hw1 hcur
  revert this
  generalize w1.out = out
  clear h0 hat hw0 g1 g2 hf hlD hH
  revert hk
  generalize s0.recs = recs
  intro hk this
  induction this with
  | nil => exact .nil
  | cons hx _ ih =>
    exact .cons (hx (hk _ (by simp))) (ih fun r hr => hk r (List.mem_cons_of_mem _ hr))

/-! ## a concrete case -/

/-- C39 (partial): what has been read can be written, whatever deviations are tolerated while reading.  Conditions: the
recipe has the right number of fields (`WF`), `Tidy`, `CtrlAll`, `Unshadowed` and `Unused` as in `C39_partial`; every record
could be written with what was known right after it was read (`Whole`: nothing about later records); names of loop variables
are not names of data; and the depth allowed for abbreviations is not smaller than for reading.  Missing in comparison to the
full claim: these conditions (`C39_whole_fails`, `C39_loop_fails`). -/
theorem C39_writes_partial (c : RCtx) (p : Prog) (k : Ctrl) (s : RSt) (fuel : Nat)
    (hr : readSection c false p = .ok s) (hwf : WF p) (ht : Tidy c p { cur := initWork [] })
    (hwh : Whole c p { cur := initWork [] })
    (hc : CtrlAll k s.cur) (hm : dHas (.var "MAT") s.cur = true)
    (hu : Unshadowed (looked p) s.cur) (hb : Unused (abbrs p) s.cur) (hv : Unused (loopVars p) s.cur) (hf : c.fuel ≤ fuel) :
    ∃ w, writeSection fuel k.mf k.mt p s.cur = .ok w := by
  unfold readSection at hr
  simp only [Out.andThen_ok, Out.lift_ok] at hr
  obtain ⟨s0, h0, D, hD, h1⟩ := hr
  cases h1
  dsimp only at hc hm hu hb hv ⊢
  have hnil : Lvl false ([] : DDic) := ⟨by unfold DNodup dKeys; simp, by simp [dGet], by simp [dGet], by simp [dGet], by simp [dGet]⟩
  have hw0 := (clean_work hnil).1
  obtain ⟨g1, g2⟩ := readProg_grow (s := { cur := initWork [] }) hw0 rfl rfl ht h0
  have hf0 := readProg_frame h0
  have hlD := removeWork_lvl g2.lvl hD
  have hup : dHas .up D = false := by
    rw [hlD.2, (hf0.lvl hw0.lvl).2]; rfl
  have hcD : Clean (.dic D) := by
    have := hlD.1.clean
    rwa [dDel_none (dHas_none.1 hup)] at this
  letI L1 : Lit := ⟨true⟩
  have hH : Hold s0.cur D := fun n v hv ha => ⟨v, removeWork_get g2 hD rfl ha hv, .refl _⟩
  obtain ⟨m1, m2, m3⟩ := hc [] D .top hm
  have hMF : dHas (.var "MF") D = true := dHas_some.2 ⟨_, m2⟩
  have hMT : dHas (.var "MT") D = true := dHas_some.2 ⟨_, m3⟩
  have na : ∀ n e', ¬ dGet (.var n) D = some (.abb e') := fun n e' h => clean_get_not_abb hcD h e' rfl
  have hlev : Lev (abbrs p) (looked p) (initWork []) (initWork D) D := by
    apply Lev.init
    refine ⟨?_, fun n v hv => .inr hv, ?_, fun n e hv => absurd hv (na _ _), hup.symm⟩
    · intro n e
      exact ⟨fun h => by simp [dGet] at h, fun h => absurd h (na _ _)⟩
    · intro n v hv
      refine ⟨hv, ?_⟩
      cases hcD with
      | dic _ _ _ h3 => exact h3 _ _ hv
  have hat : At (abbrs p) (looked p) (fun _ _ => True) D { cur := initWork [] } { cur := initWork D } D [] :=
    ⟨⟨⟨[], .top, by simp⟩, by simp, by simp, by simp⟩, hlev, rfl, rfl, rfl, .nil⟩
  have hab : AbL (initWork D) := AbL.init na
  have hwD := (clean_work hlD.1).1
  obtain ⟨w1, hw1⟩ := run rfl (s := { cur := initWork [] }) (w := { cur := initWork D }) ⟨hu, hb⟩ hc hv hf hwf (fun _ h => h)
    (fun _ h => h) (fun _ h => h) hw0 hwD hab rfl rfl (by simp [dHas, dGet]) ht hwh h0 hat hH
  obtain ⟨cur, hcur⟩ := removeWork_run ((writeProg_frame hw1).inv hwD).1 (writeProg_abl hwD hab hw1)
  refine ⟨{ w1 with cur := cur }, ?_⟩
  unfold writeSection
  simp only [hMF, hMT, if_true, ctrlNum, m2, m3, bind, Except.bind, ne_eq, not_true_eq_false, if_false, hw1, hcur, pure, Except.pure]

/-- C39 (partial): what has been read can be written, and the same records come out.  In addition to the conditions of
`C39_partial`, every record could be written with what was known right after it was read (`Whole`: nothing about later
records), names of loop variables are not names of data, and the depth allowed for abbreviations is not smaller than for
reading.  Missing in comparison to the full claim: these conditions (`C39_whole_fails`, `C39_loop_fails`). -/
theorem C39_success_partial (c : RCtx) (p : Prog) (k : Ctrl) (s : RSt) (fuel : Nat)
    (hs : Strict c.po) (hr : readSection c false p = .ok s) (hwf : WF p) (ht : Tidy c p { cur := initWork [] })
    (hwh : Whole c p { cur := initWork [] })
    (hk : ∀ r ∈ s.recs, r.ctrl = if r.kind = .send then { k with mt := 0 } else k)
    (hc : CtrlAll k s.cur) (hm : dHas (.var "MAT") s.cur = true)
    (hu : Unshadowed (looked p) s.cur) (hb : Unused (abbrs p) s.cur) (hv : Unused (loopVars p) s.cur) (hf : c.fuel ≤ fuel) :
    ∃ w, writeSection fuel k.mf k.mt p s.cur = .ok w ∧ List.Forall₂ SameRec s.recs w.out := by
  obtain ⟨w, hw⟩ := C39_writes_partial c p k s fuel hr hwf ht hwh hc hm hu hb hv hf
  exact ⟨w, hw, C39_partial c p k s fuel k.mf k.mt w hs hr hwf ht hk hc hm hu hb hw⟩

namespace RoundtripExample

def head : Str := " 1.001000+3 9.991673-1          0          0          2          8 125 3  1".toList
def list : Str := "        0.0        0.0          0          0          6          7 125 3  1".toList
def vals : Str := "        1.5        2.5        3.5        0.0        0.0        0.0 125 3  1".toList
def tab : Str := "        0.0        0.5          0          0          1          2 125 3  1".toList
def tabn : Str := "          2          2                                             125 3  1".toList
def tabx : Str := "        1.0       20.0        2.0       30.0                       125 3  1".toList
def send : Str := "        0.0        0.0          0          0          0          0 125 3  0".toList

def v (n : Name) : Expr := .var ⟨n, []⟩
def i (n : Int) : Expr := .num (.int n)
def f : Expr := .num (.num (.flt 0))

/-- HEAD with a product to be solved for K, an abbreviation used in a section, PADLINE, a condition decided by a variable
read before, one with lookahead, and a table in a sub-dictionary -/
def recipe : Prog :=
  .seq (.act (.cont true {} [v "ZA", v "AWR", i 0, i 0, v "N", .mul (i 4) (v "K")]))
    (.seq (.abbr "M" (.add (v "N") (i 1)))
      (.seq (.ite (.cmp .ge (v "K") (i 2)) none
        (.sect ⟨"S", []⟩
          (.seq (.act (.list {} [f, f, i 0, i 0, v "NPL", v "N2"]
            (.seq (.loop "k" (i 1) (v "M") (.expr (.var ⟨"B", [.var "k"]⟩))) .pad) none))
          (.ite (.cmp .eq (v "Q") (.num (.num (.flt (1/2))))) (some (i 1))
            (.act (.tab1 {} [f, v "Q", i 0, i 0, v "NR", v "NP"] ⟨"X", []⟩ ⟨"Y", []⟩ (some ⟨"table", []⟩))) .skip)))
        .skip)
      (.act .send)))

def ctx : RCtx := { lines := [head, list, vals, tab, tabn, tabx, send], po := ⟨false, false, false, false, false⟩ }

def k : Ctrl := ⟨125, 3, 1⟩

/-- everything `C39_partial` demands, in one computation -/
def holds (c : RCtx) (p : Prog) (k : Ctrl) (mf mt : Int) : Bool :=
  tidyB c p { cur := initWork [] } &&
  match readSection c false p with
  | .err _ _ => false
  | .ok s =>
    s.recs.all (fun r => decide (r.ctrl = if r.kind = .send then { k with mt := 0 } else k)) &&
    ctrlAllB k s.cur && dHas (.var "MAT") s.cur && unshadowedB (looked p) s.cur && unusedB (abbrs p) s.cur &&
    resOk (writeSection 100 mf mt p s.cur)

theorem holds_ok {c : RCtx} {p : Prog} {k : Ctrl} {mf mt : Int} (hs : Strict c.po) (hwf : WF p) (h : holds c p k mf mt = true) :
    ∃ s w, readSection c false p = .ok s ∧ writeSection 100 mf mt p s.cur = .ok w ∧ List.Forall₂ SameRec s.recs w.out := by
  unfold holds at h
  rw [Bool.and_eq_true] at h
  obtain ⟨h1, h⟩ := h
  split at h
  · cases h
  · rename_i s hr
    simp only [Bool.and_eq_true, List.all_eq_true, decide_eq_true_eq] at h
    obtain ⟨⟨⟨⟨⟨a1, a2⟩, a3⟩, a4⟩, a5⟩, a6⟩ := h
    obtain ⟨w, hw⟩ := resOk_ok a6
    exact ⟨s, w, hr, hw, C39_partial c p k s 100 mf mt w hs hr hwf (tidyB_ok h1) a1 (ctrlAllB_ok a2) a3 (unshadowedB_ok a4)
      (unusedB_ok a5) hw⟩

/-- all hypotheses of `C39_partial` can be met -/
example : Strict ctx.po ∧ WF recipe ∧ holds ctx recipe k 3 1 = true := by
  refine ⟨⟨rfl, rfl, rfl, rfl⟩, ?_, by decide +kernel⟩
  simp [recipe, WF, ActWF]

/-- the four records of the example are written again -/
example : ∃ s w, readSection ctx false recipe = .ok s ∧ writeSection 100 3 1 recipe s.cur = .ok w ∧
    List.Forall₂ SameRec s.recs w.out :=
  holds_ok ⟨rfl, rfl, rfl, rfl⟩ (by simp [recipe, WF, ActWF]) (k := k) (by decide +kernel)

/-- everything `C39_success_partial` demands, in one computation -/
def holdsAll (c : RCtx) (p : Prog) (k : Ctrl) : Bool :=
  tidyB c p { cur := initWork [] } && wholeB c p { cur := initWork [] } &&
  match readSection c false p with
  | .err _ _ => false
  | .ok s =>
    s.recs.all (fun r => decide (r.ctrl = if r.kind = .send then { k with mt := 0 } else k)) &&
    ctrlAllB k s.cur && dHas (.var "MAT") s.cur && unshadowedB (looked p) s.cur && unusedB (abbrs p) s.cur && unusedB (loopVars p) s.cur

theorem holdsAll_ok {c : RCtx} {p : Prog} {k : Ctrl} (hs : Strict c.po) (hwf : WF p) (h : holdsAll c p k = true) {fuel : Nat}
    (hf : c.fuel ≤ fuel) :
    ∃ s w, readSection c false p = .ok s ∧ writeSection fuel k.mf k.mt p s.cur = .ok w ∧ List.Forall₂ SameRec s.recs w.out := by
  unfold holdsAll at h
  rw [Bool.and_eq_true, Bool.and_eq_true] at h
  obtain ⟨⟨h1, h2⟩, h⟩ := h
  split at h
  · cases h
  · rename_i s hr
    simp only [Bool.and_eq_true, List.all_eq_true, decide_eq_true_eq] at h
    obtain ⟨⟨⟨⟨⟨a1, a2⟩, a3⟩, a4⟩, a5⟩, a6⟩ := h
    obtain ⟨w, hw⟩ := C39_success_partial c p k s fuel hs hr hwf (tidyB_ok h1) (wholeB_ok h2) a1 (ctrlAllB_ok a2) a3 (unshadowedB_ok a4)
      (unusedB_ok a5) (unusedB_ok a6) hf
    exact ⟨s, w, hr, hw⟩

/-- all hypotheses of `C39_success_partial` can be met -/
example : Strict ctx.po ∧ WF recipe ∧ holdsAll ctx recipe k = true := by
  refine ⟨⟨rfl, rfl, rfl, rfl⟩, ?_, by decide +kernel⟩
  simp [recipe, WF, ActWF]

/-- everything `C39_writes_partial` demands can be met with the default options and a HEAD record whose third integer is not
the 0 of the recipe -/
def off : Str := " 1.001000+3 9.991673-1          0          5          2          8 125 3  1".toList

def ctxOff : RCtx := { lines := [off, list, vals, tab, tabn, tabx, send] }

example : ∃ s w, readSection ctxOff false recipe = .ok s ∧ writeSection 100 3 1 recipe s.cur = .ok w := by
  have h : holdsAll ctxOff recipe k = true := by decide +kernel
  unfold holdsAll at h
  rw [Bool.and_eq_true, Bool.and_eq_true] at h
  obtain ⟨⟨h1, h2⟩, h⟩ := h
  split at h
  · cases h
  · rename_i s hr
    simp only [Bool.and_eq_true, List.all_eq_true, decide_eq_true_eq] at h
    obtain ⟨⟨⟨⟨⟨_, a2⟩, a3⟩, a4⟩, a5⟩, a6⟩ := h
    obtain ⟨w, hw⟩ := C39_writes_partial ctxOff recipe k s 100 hr (by simp [recipe, WF, ActWF]) (tidyB_ok h1) (wholeB_ok h2)
      (ctrlAllB_ok a2) a3 (unshadowedB_ok a4) (unusedB_ok a5) (unusedB_ok a6) (by decide)
    exact ⟨s, w, hr, hw⟩

/-! ## what goes wrong otherwise -/

def sameValB : Val → Val → Bool
  | .num x, .num y => x.val == y.val
  | .lst l, .lst m => l.map PyNum.val == m.map PyNum.val
  | .txt s, .txt t => s == t
  | _, _ => false

theorem sameValB_ok {v v' : Val} (h : SameVal v v') : sameValB v v' = true := by
  cases v <;> cases v' <;> simp only [SameVal] at h <;> simp [sameValB, h]

def all2 {α : Type} (f : α → α → Bool) : List α → List α → Bool
  | [], [] => true
  | a :: l, b :: m => f a b && all2 f l m
  | _, _ => false

theorem all2_ok {α : Type} {f : α → α → Bool} {R : α → α → Prop} (hf : ∀ a b, R a b → f a b = true) {l m : List α}
    (h : List.Forall₂ R l m) : all2 f l m = true := by
  induction h with
  | nil => rfl
  | cons h _ ih => simp [all2, hf _ _ h, ih]

def sameRecB (r r' : ARec) : Bool :=
  r.kind == r'.kind && all2 sameValB r.flds r'.flds && all2 sameValB r.tbl r'.tbl

theorem sameRecB_ok (r r' : ARec) (h : SameRec r r') : sameRecB r r' = true := by
  simp [sameRecB, h.kind, all2_ok (fun _ _ => sameValB_ok) h.flds, all2_ok (fun _ _ => sameValB_ok) h.tbl]

/-- reading and writing succeed, but the records written are other ones -/
def lost (c : RCtx) (p : Prog) (mf mt : Int) : Bool :=
  match readSection c false p with
  | .err _ _ => false
  | .ok s => match writeSection 100 mf mt p s.cur with
    | .error _ => false
    | .ok w => !all2 sameRecB s.recs w.out

theorem lost_ok {c : RCtx} {p : Prog} {mf mt : Int} (h : lost c p mf mt = true) :
    ∃ s w, readSection c false p = .ok s ∧ writeSection 100 mf mt p s.cur = .ok w ∧ ¬ List.Forall₂ SameRec s.recs w.out := by
  unfold lost at h
  split at h
  · cases h
  · rename_i s hs
    split at h
    · cases h
    · rename_i w hw
      refine ⟨s, w, hs, hw, fun hf => ?_⟩
      rw [all2_ok sameRecB_ok hf] at h
      cases h

def strict : POpts := ⟨false, false, false, false, false⟩

/-- HEAD with `0` in the last field -/
def zeroRecipe : Prog := .act (.cont true {} [v "ZA", v "AWR", i 0, i 0, v "N", i 0])

/-- HEAD, then LIST if `N2 = 7` and nothing otherwise, then a record with N2 -/
def missRecipe : Prog :=
  .seq (.act (.cont true {} [v "ZA", v "AWR", i 0, i 0, v "N", v "K"]))
    (.seq (.ite (.cmp .eq (v "N2") (i 7)) none (.act (.cont false {} [f, f, i 0, i 0, i 0, i 0])) .skip)
      (.act (.cont false {} [f, f, i 0, i 0, v "N1", v "N2"])))

/-- LIST with two numbers and PADLINE -/
def padRecipe : Prog :=
  .seq (.act (.cont true {} [v "ZA", v "AWR", i 0, i 0, v "N", v "K"]))
    (.act (.list {} [f, f, i 0, i 0, i 6, i 7] (.seq (.loop "k" (i 1) (i 2) (.expr (.var ⟨"B", [.var "k"]⟩))) .pad) none))

/-- two TEXT records for the same variable -/
def textRecipe : Prog :=
  .seq (.act (.text {} [⟨some ⟨"T", []⟩, none⟩])) (.act (.text {} [⟨some ⟨"T", []⟩, none⟩]))

/-- a loop in a section, whose limit is a variable outside; then a variable of the same name in the section -/
def shadowRecipe : Prog :=
  .seq (.act (.cont true {} [v "ZA", v "AWR", i 0, i 0, v "N", v "K"]))
    (.sect ⟨"S", []⟩ (.seq (.loop "k" (i 1) (v "N") (.act (.cont false {} [f, f, i 0, i 0, v "N1", v "N2"])))
      (.act (.cont false {} [f, f, i 0, i 0, v "N", v "N2"]))))

/-- HEAD with a sum in which K has a factor that is zero: only M gets a value -/
def factorRecipe : Prog := .act (.cont true {} [v "ZA", v "AWR", v "Z", v "L", v "N", .add (.mul (v "Z") (v "K")) (v "M")])

/-- a record in a loop with the value of the loop variable, and one after the loop with data of this name -/
def loopRecipe : Prog :=
  .seq (.act (.cont true {} [v "ZA", v "AWR", i 0, i 0, v "N", v "K"]))
    (.seq (.loop "k" (i 6) (i 6) (.act (.cont false {} [f, f, i 0, i 0, v "k", v "M"])))
      (.act (.cont false {} [f, f, i 0, i 0, v "k", i 7])))

/-- reading succeeds and writing does not -/
def refused (c : RCtx) (p : Prog) (mf mt : Int) : Bool :=
  match readSection c false p with
  | .err _ _ => false
  | .ok s => match writeSection 100 mf mt p s.cur with
    | .error _ => true
    | .ok _ => false

theorem refused_ok {c : RCtx} {p : Prog} {mf mt : Int} (h : refused c p mf mt = true) :
    ∃ s e, readSection c false p = .ok s ∧ writeSection 100 mf mt p s.cur = .error e := by
  unfold refused at h
  split at h
  · cases h
  · rename_i s hs
    split at h
    · rename_i e he; exact ⟨s, e, hs, he⟩
    · cases h

end RoundtripExample

open RoundtripExample

/-- C39 fails with the default options: where the recipe has the number 0, any number in the file is accepted, and 0 is
written. -/
theorem C39_zero_fails : ∃ s w, readSection { lines := [head] } false zeroRecipe = .ok s ∧
    writeSection 100 3 1 zeroRecipe s.cur = .ok w ∧ ¬ List.Forall₂ SameRec s.recs w.out :=
  lost_ok (by decide +kernel)

/-- C39 fails, also with strict options, if a condition is false because its variable is still missing and gets a value
later that makes it true: a record is written that has not been read. -/
theorem C39_missing_fails : ∃ s w, readSection { lines := [head, list], po := strict } false missRecipe = .ok s ∧
    writeSection 100 3 1 missRecipe s.cur = .ok w ∧ ¬ List.Forall₂ SameRec s.recs w.out :=
  lost_ok (by decide +kernel)

/-- C39 fails for numbers skipped by PADLINE that are not zero. -/
theorem C39_pad_fails : ∃ s w, readSection { lines := [head, list, vals], po := strict } false padRecipe = .ok s ∧
    writeSection 100 3 1 padRecipe s.cur = .ok w ∧ ¬ List.Forall₂ SameRec s.recs w.out :=
  lost_ok (by decide +kernel)

/-- C39 fails for two TEXT records with the same variable: TEXT fields are stored without comparison with an earlier value. -/
theorem C39_text_fails : ∃ s w, readSection { lines := [head, list], po := strict } false textRecipe = .ok s ∧
    writeSection 100 3 1 textRecipe s.cur = .ok w ∧ ¬ List.Forall₂ SameRec s.recs w.out :=
  lost_ok (by decide +kernel)

/-- C39 fails if a section has a variable with the name of one outside that was used before. -/
theorem C39_shadow_fails :
    ∃ s w, readSection { lines := [head, list, list, list], po := strict } false shadowRecipe = .ok s ∧
    writeSection 100 3 1 shadowRecipe s.cur = .ok w ∧ ¬ List.Forall₂ SameRec s.recs w.out :=
  lost_ok (by decide +kernel)

/-- C39 fails if a missing variable has a factor that is zero: the field is accepted, the variable gets no value, and
without it the record cannot be written. -/
theorem C39_whole_fails : ∃ s e, readSection { lines := [head], po := strict } false factorRecipe = .ok s ∧
    writeSection 100 3 1 factorRecipe s.cur = .error e :=
  refused_ok (by decide +kernel)

/-- C39 fails if data has the name of a loop variable: read after the loop it is no problem, but in writing it is there
already when the loop runs, and the loop variable cannot be used. -/
theorem C39_loop_fails : ∃ s e, readSection { lines := [head, list, list], po := strict } false loopRecipe = .ok s ∧
    writeSection 100 3 1 loopRecipe s.cur = .error e :=
  refused_ok (by decide +kernel)

end Verif
