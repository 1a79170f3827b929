import Verif.Lemmas.CppMain
import Verif.Lemmas.FitCheck

/-! C83: sections in the interpreter and in the compiled parser. -/

namespace Verif
open Spec

/-- conditions on a recipe and on the code generated for it, see Spec/CppOk -/
def Spec.funOk (Γ : Kinds) (depth : Nat) (p : Prog) (code : Code) (defs : List VKey) : Bool :=
  ctlNames.all (fun n => defs.contains (n, 0)) && topOk true p &&
  allWays code fun w => ctlFree (wayΓ Γ code w) && codeOk (wayΓ Γ code w) (wayΓ Γ code w) depth true [] defs [] code w

/-- the control numbers for the function: the numbers for which it has been generated, the others are in the first line -/
def Spec.FunCtrl (lines : List Str) (mf : Int) (mt : Option Int) (k : Ctrl) : Prop :=
  cppMat (nextLine lines).1 = .ok k.mat ∧ k.mf = mf ∧ match mt with
    | some n => k.mt = n
    | none => cppMt (nextLine lines).1 = .ok k.mt

namespace CF

theorem blk_start {Γ : Kinds} (hΓ : ∀ n ∈ ctlNames, Γ n = none) {defs : List VKey} (hd : ∀ n ∈ ctlNames, (n, 0) ∈ defs) (k : Ctrl) :
    Blk Γ (some k) (initWork []) ⟨defs, [(("MAT", 0), .leaf (.num (.int k.mat))), (("MF", 0), .leaf (.num (.int k.mf))),
      (("MT", 0), .leaf (.num (.int k.mt)))], setCtrl k []⟩ := by
  have hv : ∀ n kk ar, Γ n = some (kk, ar) → n ≠ "MAT" ∧ n ≠ "MF" ∧ n ≠ "MT" := by
    intro n kk ar hn
    refine ⟨?_, ?_, ?_⟩ <;> rintro rfl <;> rw [hΓ _ (by simp [ctlNames])] at hn <;> cases hn
  have hb : Blk Γ (some k) [] ⟨defs, [(("MAT", 0), .leaf (.num (.int k.mat))), (("MF", 0), .leaf (.num (.int k.mf))),
      (("MT", 0), .leaf (.num (.int k.mt)))], setCtrl k []⟩ := by
    refine ⟨fun n kk ar v _ h => by simp [dGet] at h, ?_, ?_, .nil, fun i => rfl, ?_, ?_, ?_⟩
    · intro key t hk
      have : key = ("MAT", 0) ∨ key = ("MF", 0) ∨ key = ("MT", 0) := by
        simp only [dGet] at hk
        split at hk
        · rename_i h; exact .inl h.symm
        split at hk
        · rename_i h; exact .inr (.inl h.symm)
        split at hk
        · rename_i h; exact .inr (.inr h.symm)
        · cases hk
      rcases this with rfl | rfl | rfl
      all_goals
        refine ⟨hd _ (by simp [ctlNames]), ?_⟩
        rw [hΓ _ (by simp [ctlNames])]
        simp
    · intro n kk ar hn is _
      obtain ⟨h1, h2, h3⟩ := hv n kk ar hn
      unfold look clook
      have : dGet (n, ar) ([(("MAT", 0), .leaf (.num (.int k.mat))), (("MF", 0), .leaf (.num (.int k.mf))),
          (("MT", 0), .leaf (.num (.int k.mt)))] : Dict VKey CTree) = none := by
        simp [dGet, h1.symm, h2.symm, h3.symm]
      rw [this]
      rfl
    · intro n _ hn
      rw [setCtrl_other (by rintro m hm e; cases e; exact hn hm)]
      exact OptSame.refl _
    · intro key v hk
      by_cases h : ∃ n ∈ ctlNames, key = .var n
      · obtain ⟨n, hn, rfl⟩ := h
        exact ⟨n, rfl, hΓ n hn⟩
      · rw [setCtrl_other (fun n hn e => h ⟨n, hn, e⟩)] at hk
        simp [dGet] at hk
    · intro n hn
      rcases ctl_cases hn with rfl | rfl | rfl
      · exact ⟨k.mat, rfl, .inl rfl, rfl, rfl⟩
      · exact ⟨k.mf, rfl, .inl rfl, rfl, rfl⟩
      · exact ⟨k.mt, rfl, .inl rfl, rfl, rfl⟩
  exact blk_dSet (blk_dSet hb _ (by simp) (by simp)) _ (by simp) (by simp)

theorem readFun_ok {cc : FunCtx} {mf : Int} {mt : Option Int} {code : Code} {defs : List VKey} {lines : List Str} {d : DDic} {r : List Str} {k : Ctrl}
    (hk : FunCtrl lines mf mt k) (h : readFun cc mf mt code defs lines = .ok (d, r)) :
    ∃ cs1, runCode { cc with ctrl := ⟨k.mat, k.mf, k.mt⟩ } code { cur := ⟨defs, [(("MAT", 0), .leaf (.num (.int k.mat))),
      (("MF", 0), .leaf (.num (.int k.mf))), (("MT", 0), .leaf (.num (.int k.mt)))], setCtrl k []⟩, ls := lines } = .ok cs1 ∧
      d = storeVars cs1.cur.vars cs1.cur.defs cs1.cur.pd ∧ r = cs1.ls := by
  obtain ⟨k1, k2, k3⟩ := hk
  subst k2
  unfold readFun at h
  dsimp only at h
  rw [k1] at h
  cases mt with
  | some n =>
    dsimp only at k3 h
    subst k3
    simp only [cbind_ok'] at h
    obtain ⟨_, h1, _, h2, cs1, h3, h4⟩ := h
    cases h1; cases h2; cases h4
    exact ⟨cs1, h3, rfl, rfl⟩
  | none =>
    dsimp only at k3 h
    rw [k3] at h
    simp only [cbind_ok'] at h
    obtain ⟨_, h1, _, h2, cs1, h3, h4⟩ := h
    cases h1; cases h2; cases h4
    exact ⟨cs1, h3, rfl, rfl⟩

theorem runFun_read {cc : FunCtx} {mf : Int} {mt : Option Int} {code : Code} {defs : List VKey} {lines : List Str} {d : DDic} :
    runFun cc mf mt code defs lines = .ok d ↔ ∃ r, readFun cc mf mt code defs lines = .ok (d, r) := by
  unfold runFun
  constructor
  · intro h
    obtain ⟨⟨d', r⟩, h1, h2⟩ := cbind_ok'.1 h
    cases h2
    exact ⟨r, h1⟩
  · rintro ⟨r, h⟩
    rw [h, cbind_ok]

end CF

/-- the interpreter has read a HEAD or TEXT record and has stored MAT, MF and MT -/
def Spec.HasHead (p : Prog) (s : RSt) : Prop := headed p = true ∨ ∀ n ∈ ctlNames, dGet (.var n) s.cur ≠ none

open CF in
/-- what both parsers make of a section, and what the compiled function leaves of the lines -/
theorem CF.fun_read (Γ : Kinds) (depth : Nat) (p : Prog) (code : Code) (defs : List VKey) (hcomp : compile depth p = some (code, defs))
    (hok : funOk Γ depth p code defs = true) (hwf : WF p)
    (c : RCtx) (cc : FunCtx) (hw : c.ro.width = 11) (hpres : c.ro.preserve = false) (hacc : cc.acc = c.ro.acceptSpaces) (hst : Strict c.po)
    (hpl : ∀ l ∈ c.lines, PlainLine l) (hbl : ∀ l ∈ c.lines, isBlankLine l = false)
    (mf : Int) (mt : Option Int) (k : Ctrl) (hk : FunCtrl c.lines mf mt k) (hfit : Fit c k p { cur := initWork [] })
    (s : RSt) (d : DDic) (r : List Str) (hpy : readSection c false p = .ok s) (hhead : HasHead p s) (hcpp : readFun cc mf mt code defs c.lines = .ok (d, r)) :
    SameAt (.dic s.cur) (.dic d) ∧ (endsSend p = true → r = c.lines.drop (s.ofs + 1)) ∧ (endsPlain p = true → r = c.lines.drop s.ofs) := by
  simp only [funOk, Bool.and_eq_true, List.all_eq_true, List.contains_eq_mem, decide_eq_true_eq] at hok
  obtain ⟨⟨hctl, htop⟩, hcode⟩ := hok
  unfold compile at hcomp
  simp only [Option.bind_eq_bind, Option.bind_eq_some_iff, Option.pure_def, Option.some.injEq, Prod.mk.injEq] at hcomp
  obtain ⟨⟨x, ds⟩, hg, rfl, rfl⟩ := hcomp
  obtain ⟨w, hway, hfol⟩ := allWays_ok (c := c) hg { cur := initWork [] } hcode
  simp only [Bool.and_eq_true] at hway
  obtain ⟨hfree, hcode⟩ := hway
  have hΓ := ctlFree_spec hfree
  unfold readSection at hpy
  obtain ⟨s1, hs1, hpy⟩ := andThen_ok hpy
  obtain ⟨cur, hcur, hpy⟩ := lift_ok hpy
  cases hpy
  obtain ⟨cs1, hcs1, rfl, rfl⟩ := readFun_ok hk hcpp
  obtain ⟨-, rfl, -⟩ := hk
  have hb : Both (wayΓ Γ x w) c { cc with ctrl := ⟨k.mat, k.mf, k.mt⟩ } := ⟨hw, hpres, hacc, hst, hpl, hbl, hΓ⟩
  have hblk := blk_start hΓ hctl k
  have hrel : CF.Rel (wayΓ Γ x w) (wayΓ Γ x w) k [] ds.defs [] { cur := initWork [] } { cur := ⟨ds.defs, [(("MAT", 0), .leaf (.num (.int k.mat))),
      (("MF", 0), .leaf (.num (.int k.mf))), (("MT", 0), .leaf (.num (.int k.mt)))], setCtrl k []⟩, ls := c.lines } :=
    ⟨rfl, ⟨by simp, fun _ _ => rfl⟩, fun n i h => by simp [dGet] at h, rfl, rfl, .top hblk (fun _ _ h => h), rfl, rfl⟩
  obtain ⟨e1, e2, e3, e4⟩ := prog_step hb hg hcode htop (fun _ => rfl) hwf hfit hfol hrel rfl hs1 hcs1
  have hrel2 := hrel.step e1
  have hab : dGet .abbrevs s1.cur = some (.names []) := by rw [e1.upd.other _ (by simp)]; rfl
  unfold removeWork at hcur
  rw [hab] at hcur
  simp only [List.foldlM_nil, pure_bind, pure_ok] at hcur
  subst hcur
  have hnd := hrel2.blk.nodup
  have hups : s1.ups = [] := e1.ups
  have hbl2 := hrel2.blk
  rw [hups] at hbl2
  refine ⟨?_, e4, fun hp => e2 (.inr hp)⟩
  refine blk_same hΓ (blk_dDel (blk_dDel hbl2 (by simp)) (by simp)) ?_ ?_
  · intro key hkey
    rw [dGet_dDel (dDel_nodup hnd), dGet_dDel hnd]
    split
    · rfl
    · split
      · rfl
      · rename_i q1 q2
        rw [e1.upd.other _ hkey]
        show dGet key (dSet Key.startidcs Val.mark (dSet Key.abbrevs (Val.names []) [])) = none
        rw [dGet_dSet_ne (by tauto), dGet_dSet_ne (by tauto)]
        rfl
  · intro _ n hn
    rcases hhead with hhead | hhead
    · rw [dGet_dDel (dDel_nodup hnd), dGet_dDel hnd, if_neg (by simp), if_neg (by simp)]
      exact e3 hhead n hn
    · exact hhead n hn

open CF in
/-- C83, for recipes that the compiler accepts and that meet `funOk`, sections for which `Fit` holds, and lines with at least 66
characters that are not blank.  If the interpreter, without tolerance for deviations, and the compiled function both accept the
lines, they return the same dictionary. -/
theorem C83_partial (Γ : Kinds) (depth : Nat) (p : Prog) (code : Code) (defs : List VKey) (hcomp : compile depth p = some (code, defs))
    (hok : funOk Γ depth p code defs = true) (hwf : WF p)
    (c : RCtx) (cc : FunCtx) (hw : c.ro.width = 11) (hpres : c.ro.preserve = false) (hacc : cc.acc = c.ro.acceptSpaces) (hst : Strict c.po)
    (hpl : ∀ l ∈ c.lines, PlainLine l) (hbl : ∀ l ∈ c.lines, isBlankLine l = false)
    (mf : Int) (mt : Option Int) (k : Ctrl) (hk : FunCtrl c.lines mf mt k) (hfit : Fit c k p { cur := initWork [] })
    (s : RSt) (d : DDic) (hpy : readSection c false p = .ok s) (hhead : HasHead p s) (hcpp : runFun cc mf mt code defs c.lines = .ok d) :
    SameAt (.dic s.cur) (.dic d) := by
  obtain ⟨r, hr⟩ := runFun_read.1 hcpp
  exact (CF.fun_read Γ depth p code defs hcomp hok hwf c cc hw hpres hacc hst hpl hbl mf mt k hk hfit s d r hpy hhead hr).1

/-! ## a section read by both -/

namespace FunEx

def var (n : String) : Expr := .var ⟨n, []⟩
def arr (n : String) (i : Idx) : Expr := .var ⟨n, [i]⟩
def int (n : Int) : Expr := .num (.int n)

/-- a HEAD record; for each of `NK` subsections a TAB1 record, a LIST record, and one of two kinds of CONT records -/
def recipe : Prog :=
  .seq (.act (.cont true {} [var "ZA", var "AWR", int 0, int 0, var "NK", .add (var "NK") (var "M")]))
  (.seq (.loop "k" (int 1) (var "NK") (.sect ⟨"sub", [.var "k"]⟩ (.seq
    (.act (.tab1 {} [var "C", arr "D" (.num 1), var "L", int 0, int 0, int 0] ⟨"E", []⟩ ⟨"F", []⟩ (some ⟨"table", []⟩)))
    (.seq (.act (.list {} [int 0, int 0, int 0, int 0, .mul (int 2) (var "NR"), var "NR"]
      (.loop "i" (int 1) (var "NR") (.seq (.expr (arr "a" (.var "i"))) (.expr (arr "b" (.var "i"))))) none))
    (.ite (.cmp .gt (var "NR") (int 1)) none (.act (.cont false {} [var "X", int 0, int 0, int 0, int 0, int 0]))
      (.act (.cont false {} [var "Y", int 0, int 0, int 0, int 0, int 0])))))))
  (.act .send))

def kinds : Kinds := fun n => dGet n [("ZA", (.flt, 0)), ("AWR", (.flt, 0)), ("NK", (.int, 0)), ("M", (.int, 0)), ("X", (.flt, 0)), ("Y", (.flt, 0)),
  ("C", (.flt, 0)), ("D", (.flt, 1)), ("L", (.int, 0)), ("NBT", (.ivec, 0)), ("INT", (.ivec, 0)), ("E", (.fvec, 0)), ("F", (.fvec, 0)),
  ("NR", (.int, 0)), ("a", (.flt, 1)), ("b", (.flt, 1))]

/-- right-justified fields and the control numbers -/
def line (fs : List String) (k : String) : Str :=
  let t := fs.flatMap fun f => List.replicate (11 - f.length) ' ' ++ f.toList
  t ++ List.replicate (66 - t.length) ' ' ++ k.toList

def ctl : String := " 125 2 99    1"

def lines : List Str := [line ["1.001+3", "0.99", "0", "0", "2", "4"] ctl,
  line ["1.5", "2.5", "7", "0", "1", "2"] ctl, line ["2", "2"] ctl, line ["1.0", "3.0", "2.0", "4.0"] ctl,
  line ["0.0", "0.0", "0", "0", "4", "2"] ctl, line ["1.", "2.", "3.", "4."] ctl,
  line ["9.5", "0.0", "0", "0", "0", "0"] ctl,
  line ["1.5", "2.5", "7", "0", "1", "2"] ctl, line ["2", "2"] ctl, line ["1.0", "3.0", "2.0", "4.0"] ctl,
  line ["0.0", "0.0", "0", "0", "2", "1"] ctl, line ["1.", "2."] ctl,
  line ["8.5", "0.0", "0", "0", "0", "0"] ctl, line ["0.0", "0.0", "0", "0", "0", "0"] " 125 2  0    1"]

def strict (lines : List Str) : RCtx := { lines := lines, po := { fuzzy := false, ignoreZero := false, ignoreVarspec := false } }


/-- what the compiled function makes of the lines of MF2/MT99, with the default options -/
def cppRead (p : Prog) (lines : List Str) : Option (CRes DDic) :=
  (compile 9 p).map fun (code, defs) => runFun { ctrl := ⟨0, 0, 0⟩ } 2 (some 99) code defs lines

/-- both accept the lines, and the dictionaries meet `f` -/
def bothRead (po : POpts) (p : Prog) (lines : List Str) (f : DDic → DDic → Bool) : Bool :=
  match cppRead p lines, readSection { lines := lines, po := po } false p with
  | some (.ok d), .ok s => f s.cur d
  | _, _ => false

theorem bothRead_ok {po : POpts} {p : Prog} {lines : List Str} {f : DDic → DDic → Bool} (h : bothRead po p lines f = true) :
    ∃ s d, readSection { lines := lines, po := po } false p = .ok s ∧ cppRead p lines = some (.ok d) ∧ f s.cur d = true := by
  unfold bothRead at h
  split at h
  · rename_i d s h1 h2
    exact ⟨s, d, h2, h1, h⟩
  · cases h

/-- a number at some place -/
def numAt (v : Option Val) : Option Rat :=
  match v with
  | some (.num x) => some x.val
  | _ => none

theorem numAt_same {u w : Val} (h : SameAt u w) (p : List Key) : numAt (valAt u p) = numAt (valAt w p) := by
  have := h p
  unfold numAt
  split at this
  · rename_i h1 h2; rw [h1, h2]
  · rw [this]

def allOk (p : Prog) (lines : List Str) (k : Ctrl) : Bool :=
  (match compile 9 p with
  | some (code, defs) => funOk kinds 9 p code defs
  | none => false) &&
  lines.all (fun l => decide (66 ≤ l.length) && !l.contains '_' && l.all (fun c => !isWs c || c == ' ') && !isBlankLine l) &&
  CF.fitB (strict lines) k p { cur := initWork [] }

end FunEx

open FunEx CF in
/-- the hypotheses of `C83_partial` are met by a section with fourteen lines -/
example : ∃ s d, readSection (strict FunEx.lines) false recipe = .ok s ∧ cppRead recipe FunEx.lines = some (.ok d) ∧
    SameAt (.dic s.cur) (.dic d) ∧ (numAt (valAt (.dic d) [.var "sub", .idx 1, .var "a", .idx 2]) = some 3 ∧ numAt (valAt (.dic d) [.var "sub", .idx 2, .var "Y"]) = some (17 / 2)) := by
  obtain ⟨s, d, h1, h2, h3⟩ : ∃ s d, readSection (strict FunEx.lines) false recipe = .ok s ∧ cppRead recipe FunEx.lines = some (.ok d) ∧
      decide ((numAt (valAt (.dic d) [.var "sub", .idx 1, .var "a", .idx 2]) = some 3 ∧ numAt (valAt (.dic d) [.var "sub", .idx 2, .var "Y"]) = some (17 / 2))) = true :=
    bothRead_ok (f := fun _ d => decide ((numAt (valAt (.dic d) [.var "sub", .idx 1, .var "a", .idx 2]) = some 3 ∧ numAt (valAt (.dic d) [.var "sub", .idx 2, .var "Y"]) = some (17 / 2)))) (by decide +kernel)
  have hall : allOk recipe FunEx.lines ⟨125, 2, 99⟩ = true := by decide +kernel
  simp only [allOk, Bool.and_eq_true] at hall
  obtain ⟨⟨hf, hl⟩, hfit⟩ := hall
  refine ⟨s, d, h1, h2, ?_, of_decide_eq_true h3⟩
  unfold cppRead at h2
  cases hc : compile 9 recipe with
  | none => rw [hc] at hf; cases hf
  | some cd =>
    obtain ⟨code, defs⟩ := cd
    rw [hc] at hf h2
    simp only [Option.map_some, Option.some.injEq] at h2
    rw [List.all_eq_true] at hl
    refine C83_partial kinds 9 recipe code defs hc hf ?_ (strict FunEx.lines) _ rfl rfl rfl ⟨rfl, rfl, rfl, rfl⟩ ?_ ?_ 2 (some 99) ⟨125, 2, 99⟩
      ⟨by decide +kernel, rfl, rfl⟩ (fitB_ok hfit) s d h1 (.inl rfl) h2
    · simp [recipe, WF, ActWF]
    · intro l hm
      have := hl l hm
      simp only [Bool.and_eq_true, decide_eq_true_eq, Bool.not_eq_true', List.all_eq_true, Bool.or_eq_true, beq_iff_eq] at this
      obtain ⟨⟨⟨a1, a2⟩, a3⟩, _⟩ := this
      refine ⟨a1, by simpa using a2, fun c hc hw => (a3 c hc).resolve_left (by rw [hw]; simp)⟩
    · intro l hm
      have := hl l hm
      simp only [Bool.and_eq_true, Bool.not_eq_true'] at this
      exact this.2

/-! ## deviations -/

namespace FunEx

def hd : Prog := .act (.cont true {} [var "ZA", var "AWR", int 0, int 0, int 0, var "N"])
def cont (e : Expr) : Prog := .act (.cont false {} [e, int 0, int 0, int 0, int 0, int 0])
def hdLine (n : String) : Str := line ["1.0", "2.0", "0", "0", "0", n] ctl
def contLine (x : String) : Str := line [x, "0.0", "0", "0", "0", "0"] ctl
def sendLine : Str := line ["0.0", "0.0", "0", "0", "0", "0"] " 125 2  0    1"
def fendLine : Str := line ["0.0", "0.0", "0", "0", "0", "0"] " 125 0  0    0"

/-- a section in two parts -/
def reopen : Prog := .seq hd (.seq (.sect ⟨"s", []⟩ (cont (arr "a" (.num 1)))) (.seq (.sect ⟨"s", []⟩ (cont (arr "a" (.num 2)))) (.act .send)))

/-- a LIST record with `N` values, and a CONT record -/
def values : Prog := .seq hd (.seq (.act (.list {} [int 0, int 0, int 0, int 0, var "N", int 0]
  (.loop "i" (int 1) (var "N") (.expr (arr "a" (.var "i")))) none)) (.seq (cont (var "X")) (.act .send)))

/-- `N` CONT records with the same variable -/
def twice : Prog := .seq hd (.seq (.loop "i" (int 1) (var "N") (cont (var "X"))) (.act .send))

/-- a CONT record with the number 4 -/
def four : Prog := .seq hd (.seq (cont (int 4)) (.act .send))

/-- a CONT record with `X` if `N > 1`, and another one if `N > X` -/
def cond : Prog := .seq hd (.seq (.ite (.cmp .gt (var "N") (int 1)) none (cont (var "X")) .skip)
  (.seq (.ite (.cmp .gt (var "N") (var "X")) none (cont (var "Y")) .skip) (.act .send)))

/-- a `stop` if `N > 1` -/
def halt : Prog := .seq hd (.seq (.ite (.cmp .gt (var "N") (int 1)) none (.act .stop) .skip) (.seq (cont (var "X")) (.act .send)))

def cont2 (e f : Expr) : Prog := .act (.cont false {} [e, f, int 0, int 0, int 0, int 0])
def contLine2 (x y : String) : Str := line [x, y, "0", "0", "0", "0"] ctl

/-- `N` CONT records with `X?`, and `Y` if `X` is 1, and otherwise `Z` -/
def again : Prog := .seq hd (.seq (.loop "i" (int 1) (var "N") (.ite (.cmp .eq (var "X") (int 1)) (some (int 1))
  (cont2 (.incons ⟨"X", []⟩) (arr "Y" (.var "i"))) (cont2 (.incons ⟨"X", []⟩) (arr "Z" (.var "i"))))) (.act .send))

def cont99 (e : Expr) : Prog := .act (.cont false { mt := some 99 } [e, int 0, int 0, int 0, int 0, int 0])

/-- one CONT record, or two of them if their numbers are zero -/
def past : Prog := .seq hd (.seq (.ite (.and (.cmp .eq (var "X") (int 0)) (.cmp .eq (var "Y") (int 0))) (some (int 2))
  (.seq (cont99 (var "X")) (cont99 (var "Y"))) (cont99 (var "X"))) (.act .send))

end FunEx

open FunEx

/-- If a section is opened twice, the compiled function loses elements of arrays. -/
theorem C83_reopen_fails : ∃ (p : Prog) (lines : List Str) (s : RSt) (d : DDic),
    readSection (strict lines) false p = .ok s ∧ cppRead p lines = some (.ok d) ∧
    numAt (valAt (.dic s.cur) [.var "s", .var "a", .idx 1]) = some 3 ∧ valAt (.dic d) [.var "s", .var "a", .idx 1] = none ∧
    ¬ SameAt (.dic s.cur) (.dic d) := by
  have h : bothRead (strict []).po reopen [hdLine "1", contLine "3.0", contLine "4.0", sendLine] (fun s d =>
    decide (numAt (valAt (.dic s) [.var "s", .var "a", .idx 1]) = some 3) && (valAt (.dic d) [.var "s", .var "a", .idx 1]).isNone) = true := by
    decide +kernel
  obtain ⟨s, d, h1, h2, h3⟩ := bothRead_ok h
  simp only [Bool.and_eq_true, decide_eq_true_eq, Option.isNone_iff_eq_none] at h3
  refine ⟨_, _, s, d, h1, h2, h3.1, h3.2, fun hs => ?_⟩
  have := numAt_same hs [.var "s", .var "a", .idx 1]
  rw [h3.1, h3.2] at this
  cases this

/-- For a LIST record without values the compiled function skips one line: here, `X` is taken from the SEND record, and the FEND
record is taken for the SEND record. -/
theorem C83_empty_list_fails : ∃ (p : Prog) (lines : List Str) (s : RSt) (d : DDic),
    readSection (strict lines) false p = .ok s ∧ cppRead p lines = some (.ok d) ∧
    numAt (valAt (.dic s.cur) [.var "X"]) = some 4 ∧ numAt (valAt (.dic d) [.var "X"]) = some 0 ∧
    ¬ SameAt (.dic s.cur) (.dic d) := by
  have h : bothRead (strict []).po values [hdLine "0", contLine "0.0", contLine "4.0", sendLine, fendLine] (fun s d =>
    decide (numAt (valAt (.dic s) [.var "X"]) = some 4) && decide (numAt (valAt (.dic d) [.var "X"]) = some 0)) = true := by
    decide +kernel
  obtain ⟨s, d, h1, h2, h3⟩ := bothRead_ok h
  simp only [Bool.and_eq_true, decide_eq_true_eq] at h3
  refine ⟨_, _, s, d, h1, h2, h3.1, h3.2, fun hs => ?_⟩
  have := numAt_same hs [.var "X"]
  rw [h3.1, h3.2] at this
  exact absurd (Option.some.inj this) (by norm_num)

/-- In a loop the compiled function overwrites a variable by another value, which the interpreter refuses. -/
theorem C83_overwrite_fails : ∃ (p : Prog) (lines : List Str) (d : DDic),
    (∀ s, readSection { lines := lines } false p ≠ .ok s) ∧ cppRead p lines = some (.ok d) ∧ numAt (valAt (.dic d) [.var "X"]) = some 4 := by
  have h : (match readSection { lines := [hdLine "2", contLine "3.0", contLine "4.0", sendLine] } false twice with
    | .ok _ => false
    | .err _ _ => true) = true := by decide +kernel
  have h' : (match cppRead twice [hdLine "2", contLine "3.0", contLine "4.0", sendLine] with
    | some (.ok d) => decide (numAt (valAt (.dic d) [.var "X"]) = some 4)
    | _ => false) = true := by decide +kernel
  split at h'
  · rename_i d hd
    refine ⟨_, _, d, fun s hs => ?_, hd, of_decide_eq_true h'⟩
    rw [hs] at h
    cases h
  · cases h'

/-- With the default options the interpreter accepts a number close to the one expected, and the compiled function throws. -/
theorem C83_close_fails : ∃ (p : Prog) (lines : List Str) (s : RSt),
    readSection { lines := lines } false p = .ok s ∧ cppRead p lines = some .throw := by
  have h : (match cppRead four [hdLine "2", contLine "4.000001", sendLine], readSection { lines := [hdLine "2", contLine "4.000001", sendLine] } false four with
    | some .throw, .ok _ => true
    | _, _ => false) = true := by decide +kernel
  split at h
  · rename_i s h1 h2
    exact ⟨_, _, s, h2, h1⟩
  · cases h

/-- A variable without a value on the right-hand side of a comparison: the compiled function uses an uninitialised variable. -/
theorem C83_right_fails : ∃ (p : Prog) (lines : List Str) (s : RSt),
    readSection { lines := lines } false p = .ok s ∧ cppRead p lines = some .undef := by
  have h : (match cppRead cond [hdLine "1", sendLine], readSection { lines := [hdLine "1", sendLine] } false cond with
    | some .undef, .ok _ => true
    | _, _ => false) = true := by decide +kernel
  split at h
  · rename_i s h1 h2
    exact ⟨_, _, s, h2, h1⟩
  · cases h

/-- The compiled function ignores `stop`: it returns a section that the interpreter refuses with the message of the recipe. -/
theorem C83_stop_fails : ∃ (p : Prog) (lines : List Str) (s : RSt) (d : DDic),
    readSection { lines := lines } false p = .err .stop s ∧ cppRead p lines = some (.ok d) ∧ numAt (valAt (.dic d) [.var "X"]) = some 3 := by
  have h : (match cppRead halt [hdLine "2", contLine "3.0", sendLine], readSection { lines := [hdLine "2", contLine "3.0", sendLine] } false halt with
    | some (.ok d), .err .stop _ => decide (numAt (valAt (.dic d) [.var "X"]) = some 3)
    | _, _ => false) = true := by decide +kernel
  split at h
  · rename_i d s h1 h2
    exact ⟨_, _, s, d, h2, h1, of_decide_eq_true h⟩
  · cases h

/-- A variable that has a value keeps it during a lookahead of the interpreter, and gets a new one by a lookahead of the compiled
function: they enter different branches. -/
theorem C83_lookahead_fails : ∃ (p : Prog) (lines : List Str) (s : RSt) (d : DDic),
    readSection { lines := lines } false p = .ok s ∧ cppRead p lines = some (.ok d) ∧
    numAt (valAt (.dic s.cur) [.var "Y", .idx 2]) = some 6 ∧ numAt (valAt (.dic d) [.var "Y", .idx 2]) = none ∧
    numAt (valAt (.dic d) [.var "Z", .idx 2]) = some 6 := by
  have h : bothRead {} again [hdLine "2", contLine2 "1.0" "5.0", contLine2 "2.0" "6.0", sendLine] (fun s d =>
    decide (numAt (valAt (.dic s) [.var "Y", .idx 2]) = some 6 ∧ numAt (valAt (.dic d) [.var "Y", .idx 2]) = none ∧
      numAt (valAt (.dic d) [.var "Z", .idx 2]) = some 6)) = true := by decide +kernel
  obtain ⟨s, d, h1, h2, h3⟩ := bothRead_ok h
  exact ⟨_, _, s, d, h1, h2, of_decide_eq_true h3⟩

/-- The compiled function does not check the control numbers of the records it looks at: it takes the SEND record for a second CONT
record, enters the other branch, and takes the FEND record for the SEND record. -/
theorem C83_lookahead_end_fails : ∃ (p : Prog) (lines : List Str) (s : RSt) (d : DDic),
    readSection { lines := lines } false p = .ok s ∧ cppRead p lines = some (.ok d) ∧
    valAt (.dic s.cur) [.var "Y"] = none ∧ numAt (valAt (.dic d) [.var "Y"]) = some 0 := by
  have h : bothRead {} past [hdLine "2", contLine "0.0", sendLine, fendLine] (fun s d =>
    (valAt (.dic s) [.var "Y"]).isNone && decide (numAt (valAt (.dic d) [.var "Y"]) = some 0)) = true := by decide +kernel
  obtain ⟨s, d, h1, h2, h3⟩ := bothRead_ok h
  simp only [Bool.and_eq_true, decide_eq_true_eq, Option.isNone_iff_eq_none] at h3
  exact ⟨_, _, s, d, h1, h2, h3⟩

end Verif
