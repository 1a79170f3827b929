import Verif.Lemmas.CppWSim
import Verif.Lemmas.TidyCheck
import Verif.Props.Forward
import Verif.Props.CppFun

/-! C90: sections written by the interpreter and by the compiled parser. -/

namespace Verif
open Spec

/-- the variables that are known at the begin of a function -/
def Spec.ctlRefs : List VarRef := [⟨"MAT", []⟩, ⟨"MF", []⟩, ⟨"MT", []⟩]

/-- conditions on the code generated for a recipe, see Spec/CppWriteOk -/
def Spec.writeOk (depth : Nat) (code : Code) (defs : List VKey) : Bool := (wCodeOk depth code [] [(defs, ctlRefs)]).isSome

theorem dictVal_plain {d : DDic} {n : Name} {v : Val} (h : dictVal d [] ⟨n, []⟩ = .ok v) : dGet (.var n) d = some v := by
  unfold dictVal at h
  have hi : cIdxs [] (VarRef.mk n []).idx = CRes.ok [] := rfl
  rw [hi] at h
  change (match dGet (.var n) d with | none => CRes.throw | some v => match getArr v [] with | .ok u => CRes.ok u | .error _ => .throw) = .ok v at h
  cases hx : dGet (.var n) d with
  | none => rw [hx] at h; cases h
  | some u =>
    rw [hx] at h
    dsimp only at h
    cases u <;> simp only [getArr, CRes.ok.injEq] at h <;> rw [h]

theorem ctrlD_get {d : DDic} {n : Name} {i : Int} (h : ctrlD d n none = .ok i) : dGet (.var n) d = some (.num (.int i)) := by
  simp only [ctrlD, cbind_ok'] at h
  obtain ⟨v, hv0, w, hw, h⟩ := h
  have hv := dictVal_plain hv0
  clear hv0
  cases v <;> simp only [pyCast, reduceCtorEq] at hw
  rename_i x
  cases x with
  | int m =>
    simp only [castInt, cbind_ok'] at hw
    obtain ⟨y, hy, hw⟩ := hw
    split at hy
    · cases hy; cases hw; cases h; exact hv
    · cases hy
  | num y => simp [castInt, bind, CRes.bind] at hw

theorem numbered_setCtrl {d : DDic} {mat mf mt : Int} (hmat : dGet (.var "MAT") d = some (.num (.int mat)))
    (hmf : dHas (.var "MF") d = true → dGet (.var "MF") d = some (.num (.int mf)))
    (hmt : dHas (.var "MT") d = true → dGet (.var "MT") d = some (.num (.int mt))) : setCtrl ⟨mat, mf, mt⟩ d = numbered mf mt d := by
  unfold setCtrl numbered
  dsimp only
  rw [dSet_same hmat]
  have h1 : dSet (.var "MF") (.num (.int mf)) d = if dHas (.var "MF") d then d else dSet (.var "MF") (.num (.int mf)) d := by
    split
    · rename_i h; exact dSet_same (hmf h)
    · rfl
  conv_lhs => rw [h1]
  have hd : ∀ h : dHas (.var "MT") (if dHas (.var "MF") d then d else dSet (.var "MF") (.num (.int mf)) d) = true,
      dGet (.var "MT") (if dHas (.var "MF") d then d else dSet (.var "MF") (.num (.int mf)) d) = some (.num (.int mt)) := by
    intro h
    split at h
    · rename_i h2; rw [if_pos h2]; exact hmt h
    · rename_i h2
      rw [if_neg h2, dGet_dSet_ne (by simp)]
      refine hmt ?_
      obtain ⟨v, hv⟩ := dHas_some.1 h
      rw [dGet_dSet_ne (by simp)] at hv
      exact dHas_some.2 ⟨v, hv⟩
  clear hmat hmf hmt h1
  generalize (if dHas (.var "MF") d then d else dSet (.var "MF") (.num (.int mf)) d) = x at *
  split
  · rename_i h; exact dSet_same (hd h)
  · rfl

/-- the block at the begin of a function -/
theorem goodW_start {defs : List VKey} {k : Ctrl} {d : DDic} :
    GoodW ⟨defs, [(("MAT", 0), .leaf (.num (.int k.mat))), (("MF", 0), .leaf (.num (.int k.mf))), (("MT", 0), .leaf (.num (.int k.mt)))], setCtrl k d⟩ := by
  refine ⟨?_, ?_⟩
  · intro key t h
    simp only [dGet] at h
    split at h
    · rename_i e; subst e; cases h; trivial
    split at h
    · rename_i e; subst e; cases h; trivial
    split at h
    · rename_i e; subst e; cases h; trivial
    · cases h
  · intro n ar is w hl h
    unfold clook at h
    dsimp only at h
    have hone : ∀ i : Int, ar = 0 → find (some (CTree.toPy (.leaf (.num (.int i))))) is = some w → dGet (.var n) (setCtrl k d) = some (.num (.int i)) →
        ∃ u, look (setCtrl k d) n is = some u ∧ SameVal u w := by
      intro i ha hf hx
      unfold look
      rw [hx]
      have : is = [] := List.length_eq_zero_iff.1 (hl.trans ha)
      subst this
      cases hf
      exact ⟨_, rfl, rfl⟩
    simp only [dGet, Prod.mk.injEq] at h
    split at h
    · rename_i e
      exact hone _ e.2.symm h (by rw [← e.1]; unfold setCtrl; rw [dGet_dSet_ne (by simp), dGet_dSet_ne (by simp), dGet_dSet_self])
    split at h
    · rename_i e
      exact hone _ e.2.symm h (by rw [← e.1]; unfold setCtrl; rw [dGet_dSet_ne (by simp), dGet_dSet_self])
    split at h
    · rename_i e
      exact hone _ e.2.symm h (by rw [← e.1]; unfold setCtrl; rw [dGet_dSet_self])
    · simp [find] at h

/-- C90, for recipes that the compiler accepts and whose code meets `writeOk`.  If the interpreter and the compiled function both
write the section, they write the same records: the same kinds in the same order with the same control numbers and, at each
position, the same values.  Names that are searched for in enclosing sections are unique (`Unshadowed`), and control numbers in
the dictionary are the same wherever there are any (`CtrlAll`).  Variables with which loops start are not negative (`Positive`).
Missing: division other than by two of numbers known to be even, refusals. -/
theorem C90_partial (depth : Nat) (p : Prog) (code : Code) (defs : List VKey) (hcomp : compile depth p = some (code, defs))
    (hok : writeOk depth code defs = true) (hwf : WF p) (htx : plainTexts p = true) (fuel fuel' : Nat) (mf mt : Int) (omt : Option Int)
    (hmt : omt = some mt ∨ omt = none) (d : DDic) (hd : Clean (.dic d)) (k : Ctrl) (hC : CtrlAll k (numbered mf mt d))
    (hU : Unshadowed (looked p) (numbered mf mt d)) (hP : Positive (starts p) (numbered mf mt d)) (w : WSt) (v : WFun)
    (hpy : writeSection fuel mf mt p d = .ok w) (hcpp : writeFun fuel' mf omt code defs d = .ok v) :
    List.Forall₂ RecAs w.out v.out := by
  unfold compile at hcomp
  simp only [Option.bind_eq_bind, Option.bind_eq_some_iff, Option.pure_def, Option.some.injEq, Prod.mk.injEq] at hcomp
  obtain ⟨⟨x, ds⟩, hg, rfl, rfl⟩ := hcomp
  unfold writeOk at hok
  obtain ⟨S', hS'⟩ := Option.isSome_iff_exists.1 hok
  -- the interpreter
  unfold writeSection at hpy
  simp only [bind_ok] at hpy
  obtain ⟨m, hm, hpy⟩ := hpy
  split at hpy
  · cases hpy
  rename_i hm1
  simp only [ne_eq, not_not] at hm1
  subst hm1
  simp only [bind_ok] at hpy
  obtain ⟨m', hm', hpy⟩ := hpy
  split at hpy
  · cases hpy
  rename_i hm2
  simp only [ne_eq, not_not] at hm2
  subst hm2
  simp only [bind_ok, pure_ok] at hpy
  obtain ⟨w1, hw1, cur, hcur, rfl⟩ := hpy
  change writeProg fuel p { cur := initWork (numbered m m' d) } = .ok w1 at hw1
  -- the compiled function
  unfold writeFun at hcpp
  simp only [cbind_ok'] at hcpp
  obtain ⟨mat, hmat, mt', hmt', hcpp⟩ := hcpp
  have hmat := ctrlD_get hmat
  have hctl : ∀ {x : DDic} {n : Name} {i : Int}, ctrlNum x n = .ok i → dGet (.var n) x = some (.num (.int i)) := by
    intro x n i h
    unfold ctrlNum at h
    split at h
    · cases h
    · rename_i h1; cases h; exact h1
    · cases h
  have hMF : dHas (.var "MF") d = true → dGet (.var "MF") d = some (.num (.int m)) := by
    intro h
    rw [if_pos h] at hm
    exact hctl hm
  have hMT : dHas (.var "MT") d = true → dGet (.var "MT") d = some (.num (.int m')) := by
    intro h
    have := hctl hm'
    have hh : dHas (.var "MT") (if dHas (.var "MF") d then d else dSet (.var "MF") (.num (.int m)) d) = true := by
      obtain ⟨u, hu⟩ := dHas_some.1 h
      split
      · exact h
      · exact dHas_some.2 ⟨u, by rw [dGet_dSet_ne (by simp)]; exact hu⟩
    rw [if_pos hh] at this
    split at this
    · exact this
    · rwa [dGet_dSet_ne (by simp)] at this
  have hmt2 : mt' = m' := by
    rcases hmt with rfl | rfl
    · cases hmt'; rfl
    · have := ctrlD_get hmt'
      rw [hMT (dHas_some.2 ⟨_, this⟩)] at this
      cases this; rfl
  subst hmt2
  have htop := numbered_setCtrl hmat hMF hMT
  have hk : k = ⟨mat, m, mt'⟩ := by
    have hg1 : ∀ n i, dGet (.var n) (setCtrl ⟨mat, m, mt'⟩ d) = some (.num (.int i)) → dGet (.var n) (numbered m mt' d) = some (.num (.int i)) := by
      intro n i h; rw [← htop]; exact h
    have e1 := hg1 "MAT" mat (by unfold setCtrl; rw [dGet_dSet_ne (by simp), dGet_dSet_ne (by simp), dGet_dSet_self])
    have e2 := hg1 "MF" m (by unfold setCtrl; rw [dGet_dSet_ne (by simp), dGet_dSet_self])
    have e3 := hg1 "MT" mt' (by unfold setCtrl; rw [dGet_dSet_self])
    obtain ⟨f1, f2, f3⟩ := hC [] _ .top (dHas_some.2 ⟨_, e1⟩)
    rw [e1] at f1; rw [e2] at f2; rw [e3] at f3
    cases k
    simp only [Option.some.injEq, Val.num.injEq, PyNum.int.injEq] at f1 f2 f3
    simp [f1, f2, f3]
  subst hk
  have hcl := numbered_clean hd m mt'
  have hx : ∀ n, dGet (.var n) (initWork (numbered m mt' d)) = dGet (.var n) (setCtrl ⟨mat, m, mt'⟩ d) := fun n => by
    unfold initWork
    rw [dGet_dSet_ne (by simp), dGet_dSet_ne (by simp), htop]
  have hone : ∀ {P : CScope → Prop} {b : CScope}, P b → ∀ y ∈ [b], P y := by
    intro P b h y hy; rw [List.mem_singleton.1 hy]; exact h
  have henv : EnvW (looked p) (numbered m mt' d) [] (initWork (numbered m mt' d)) []
      { cur := ⟨ds.defs, [(("MAT", 0), .leaf (.num (.int mat))), (("MF", 0), .leaf (.num (.int m))), (("MT", 0), .leaf (.num (.int mt')))],
        setCtrl ⟨mat, m, mt'⟩ d⟩, ls := [] } := by
    refine ⟨.cons hx .nil, hone (goodW_start (k := ⟨mat, m, mt'⟩)), trivial, hone ⟨[], ?_⟩, ⟨[], ?_, ?_⟩, ?_, hone ?_, ⟨by simp, fun _ _ => rfl⟩,
      fun n i h => by simp [dGet] at h⟩
    · show Nested _ [] (setCtrl _ d)
      rw [htop]; exact .top
    · show Nested _ [] (setCtrl _ d)
      rw [htop]; exact .top
    · simp [FunSt.blocks]
    · simp [FunSt.blocks]
    · show Clean (.dic (setCtrl _ d))
      rw [htop]; exact hcl
  obtain ⟨_, _, r⟩ := code_same hU hC hP hwf hg hS' hw1 hcpp (clean_work (Lvl.of_clean hcl)).1 henv rfl
    (.cons ⟨rfl, fun r hr => by
      simp only [ctlRefs, List.mem_cons, List.not_mem_nil, or_false] at hr
      rcases hr with rfl | rfl | rfl <;> exact ⟨[], _, rfl, rfl⟩⟩ .nil) (fun _ h => h) (fun _ h => h) htx .nil
  exact r

/-! ## a section written by both -/

def positiveB (ns : List Name) (top : DDic) : Bool :=
  valAll (fun _ d => ns.all fun n => match dGet (.var n) d with
    | some (.num x) => decide (0 ≤ x.val)
    | _ => true) [] (.dic top)

theorem positiveB_ok {ns : List Name} {top : DDic} (h : positiveB ns top = true) : Positive ns top := by
  intro ch d hn n hm x hx
  have := nested_all h hn
  rw [List.all_eq_true] at this
  have := this n hm
  rw [hx] at this
  exact of_decide_eq_true this

namespace FunEx

def num (n : Int) : Val := .num (.int n)
def flt (q : Rat) : Val := .num (.num (.flt q))

/-- data for `recipe`: two subsections, with different kinds of CONT records -/
def data : DDic := [(.var "MAT", num 125), (.var "ZA", flt 1001), (.var "AWR", flt (99 / 100)), (.var "NK", num 2), (.var "M", num 2),
  (.var "sub", .dic [
    (.idx 1, .dic [(.var "C", flt (3 / 2)), (.var "D", .dic [(.idx 1, num 2)]), (.var "L", num 7),
      (.var "table", .dic [(.var "NBT", .lst [.int 2]), (.var "INT", .lst [.int 2]), (.var "E", .lst [.num (.flt 1), .num (.flt 2)]),
        (.var "F", .lst [.int 3, .num (.flt 4)])]),
      (.var "NR", num 2), (.var "a", .dic [(.idx 1, flt 1), (.idx 2, flt 3)]), (.var "b", .dic [(.idx 1, flt 2), (.idx 2, num 4)]),
      (.var "X", flt (19 / 2))]),
    (.idx 2, .dic [(.var "C", flt (3 / 2)), (.var "D", .dic [(.idx 1, num 2)]), (.var "L", num 7),
      (.var "table", .dic [(.var "NBT", .lst [.int 2]), (.var "INT", .lst [.int 2]), (.var "E", .lst [.num (.flt 1), .num (.flt 2)]),
        (.var "F", .lst [.int 3, .num (.flt 4)])]),
      (.var "NR", num 1), (.var "a", .dic [(.idx 1, flt 1)]), (.var "b", .dic [(.idx 1, flt 2)]), (.var "Y", flt (17 / 2))])])]

/-- what the compiled function for MF2/MT99 writes -/
def cppWrite (p : Prog) (d : DDic) : Option (CRes WFun) :=
  (compile 9 p).map fun (code, defs) => writeFun 100 2 (some 99) code defs d

/-- both write the section, and the records meet `f` -/
def bothWrite (p : Prog) (d : DDic) (f : List ARec → List CRec → Bool) : Bool :=
  match cppWrite p d, writeSection 100 2 99 p d with
  | some (.ok v), .ok w => f w.out v.out
  | _, _ => false

theorem bothWrite_ok {p : Prog} {d : DDic} {f : List ARec → List CRec → Bool} (h : bothWrite p d f = true) :
    ∃ w v, writeSection 100 2 99 p d = .ok w ∧ cppWrite p d = some (.ok v) ∧ f w.out v.out = true := by
  unfold bothWrite at h
  split at h
  · rename_i v w h1 h2
    exact ⟨w, v, h2, h1, h⟩
  · cases h

/-- the number at a position of a record -/
def CRec.numAt (r : CRec) (i : Nat) : Option Rat :=
  match r with
  | .cont fs _ | .tab1 fs _ _ _ _ _ | .tab2 fs _ _ _ => FunEx.numAt (dGet i fs)
  | .list _ vals _ => FunEx.numAt vals[i]?
  | _ => none

def fldAt (l : List ARec) (j i : Nat) : Option Rat := numAt (l[j]?.bind fun r => r.flds[i]?)
def cfldAt (l : List CRec) (j i : Nat) : Option Rat := l[j]?.bind fun r => CRec.numAt r i

def writable (p : Prog) (d : DDic) : Bool :=
  (match compile 9 p with
  | some (code, defs) => writeOk 9 code defs
  | none => false) && plainTexts p && cleanB (.dic d) && ctrlAllB ⟨125, 2, 99⟩ (numbered 2 99 d) && unshadowedB (looked p) (numbered 2 99 d) &&
  positiveB (starts p) (numbered 2 99 d)

theorem FieldsAs.at {fs : Dict Nat Val} {vs : List Val} : ∀ {i : Nat}, FieldsAs fs i vs → ∀ j v, vs[j]? = some v → FieldAs fs (j + i) v := by
  induction vs with
  | nil => intro i _ j v h; simp at h
  | cons x vs ih =>
    intro i h j v hj
    cases j with
    | zero => simp only [List.getElem?_cons_zero, Option.some.injEq] at hj; subst hj; simpa using h.1
    | succ j =>
      have := ih h.2 j v (by simpa using hj)
      rwa [Nat.add_right_comm]

/-- different numbers in a CONT record -/
theorem differ {l : List ARec} {m : List CRec} {j i : Nat} {x y : Rat} {r : ARec} (hr : l[j]? = some r) (hk : r.kind = .cont)
    (h1 : fldAt l j i = some x) (h2 : cfldAt m j i = some y) (hne : x ≠ y) : ¬ List.Forall₂ RecAs l m := by
  intro h
  have hlen := h.length_eq
  have hjl : j < l.length := by
    by_contra hc
    rw [List.getElem?_eq_none (by omega)] at hr; cases hr
  have hjm : j < m.length := by omega
  have hjr := List.forall₂_iff_get.1 h |>.2 j hjl hjm
  have e1 : l[j]? = some l[j] := List.getElem?_eq_getElem hjl
  have e2 : m[j]? = some m[j] := List.getElem?_eq_getElem hjm
  simp only [List.get_eq_getElem] at hjr
  rw [e1] at hr; cases hr
  unfold fldAt at h1
  unfold cfldAt at h2
  rw [e1] at h1; rw [e2] at h2
  simp only [Option.bind_some] at h1 h2
  generalize l[j] = r at *
  generalize m[j] = c at *
  cases c <;> simp only [RecAs, hk, reduceCtorEq, false_and, false_or, or_true, true_and, and_false, or_false] at hjr
  rename_i fs k
  obtain ⟨_, hf⟩ := hjr
  cases hv : r.flds[i]? with
  | none => rw [hv] at h1; cases h1
  | some v =>
    obtain ⟨u, hu, hs⟩ := FieldsAs.at hf i v hv
    rw [hv] at h1
    simp only [CRec.numAt, Nat.add_zero] at h2 hu
    rw [hu] at h2
    cases v <;> simp only [numAt, reduceCtorEq, Option.some.injEq] at h1
    cases u <;> simp only [numAt, reduceCtorEq, Option.some.injEq] at h2
    simp only [SameVal] at hs
    exact hne (h1.symm.trans (hs.trans h2))

end FunEx

open FunEx CF in
/-- the hypotheses of `C90_partial` are met by data with two subsections -/
example : ∃ w v, writeSection 100 2 99 recipe data = .ok w ∧ cppWrite recipe data = some (.ok v) ∧ List.Forall₂ RecAs w.out v.out ∧
    v.out.length = 8 ∧ cfldAt v.out 2 3 = some 4 ∧ cfldAt v.out 6 0 = some (17 / 2) := by
  obtain ⟨w, v, h1, h2, h3⟩ := bothWrite_ok (p := recipe) (d := data) (f := fun _ v => decide (v.length = 8 ∧ cfldAt v 2 3 = some 4 ∧ cfldAt v 6 0 = some (17 / 2)))
    (by decide +kernel)
  refine ⟨w, v, h1, h2, ?_, of_decide_eq_true h3⟩
  have hall : writable recipe data = true := by decide +kernel
  simp only [writable, Bool.and_eq_true] at hall
  obtain ⟨⟨⟨⟨⟨hok, htx⟩, hcl⟩, hC⟩, hU⟩, hP⟩ := hall
  unfold cppWrite at h2
  cases hc : compile 9 recipe with
  | none => rw [hc] at hok; cases hok
  | some cd =>
    obtain ⟨code, defs⟩ := cd
    rw [hc] at hok h2
    simp only [Option.map_some, Option.some.injEq] at h2
    exact C90_partial 9 recipe code defs hc hok (by simp [recipe, WF, ActWF]) htx 100 100 2 99 (some 99) (.inl rfl) data (cleanB_ok hcl) ⟨125, 2, 99⟩
      (ctrlAllB_ok hC) (unshadowedB_ok hU) (positiveB_ok hP) w v h1 h2

/-! ## differences -/

namespace FunEx

/-- data for recipes that begin with `hd` -/
def base (n : Int) (l : DDic) : DDic := [(.var "MAT", num 125), (.var "ZA", flt 1), (.var "AWR", flt 2), (.var "N", num n)] ++ l

def icont (e : Expr) : Prog := .act (.cont false {} [int 0, int 0, e, int 0, int 0, int 0])

/-- a record with the loop variable -/
def counter : Prog := .seq hd (.seq (.loop "i" (int 1) (var "N") (icont (var "i"))) (.act .send))

/-- a record with the half of `N` -/
def half : Prog := .seq hd (.seq (icont (.div (var "N") (int 2))) (.act .send))

/-- a record with `X` if `N > 1`, and one with `Y` if `X > 1` -/
def later : Prog := .seq hd (.seq (.ite (.cmp .gt (var "N") (int 1)) none (cont (var "X")) .skip)
  (.seq (.ite (.cmp .gt (var "X") (int 1)) none (cont (var "Y")) .skip) (.act .send)))

/-- a section with a record without variables -/
def inside : Prog := .seq hd (.seq (.sect ⟨"s", []⟩ (cont (int 0))) (.act .send))

/-- a LIST record with a name and `N` values -/
def namedList : Prog := .seq hd (.seq (.act (.list {} [int 0, int 0, int 0, int 0, var "N", int 0]
  (.loop "i" (int 1) (var "N") (.expr (arr "a" (.var "i")))) (some ⟨"l", []⟩))) (.act .send))

/-- one of two records, after a look at the first one -/
def peekEx : Prog := .seq hd (.seq (.ite (.cmp .ne (var "X") (int 0)) (some (int 1)) (cont2 (var "X") (var "Y")) (cont (int 0))) (.act .send))

end FunEx

open FunEx
/-- A loop variable in a field: the interpreter writes it, the compiled function looks for it in the dictionary and throws. -/
theorem C90_counter_fails : ∃ (p : Prog) (d : DDic) (w : WSt), writeSection 100 2 99 p d = .ok w ∧ fldAt w.out 1 2 = some 1 ∧ fldAt w.out 2 2 = some 2 ∧
    cppWrite p d = some .throw := by
  have h : (match cppWrite counter (base 2 []), writeSection 100 2 99 counter (base 2 []) with
    | some .throw, .ok w => decide (fldAt w.out 1 2 = some 1 ∧ fldAt w.out 2 2 = some 2)
    | _, _ => false) = true := by decide +kernel
  split at h
  · rename_i w h1 h2
    obtain ⟨a, b⟩ := of_decide_eq_true h
    exact ⟨_, _, w, h2, a, b, h1⟩
  · cases h

/-- The quotient of integers is rounded in the compiled function: both write the section, with different numbers. -/
theorem C90_division_fails : ∃ (p : Prog) (d : DDic) (w : WSt) (v : WFun), writeSection 100 2 99 p d = .ok w ∧ cppWrite p d = some (.ok v) ∧
    fldAt w.out 1 2 = some (5 / 2) ∧ cfldAt v.out 1 2 = some 2 ∧ ¬ List.Forall₂ RecAs w.out v.out := by
  have h : bothWrite half (base 5 []) (fun w v => decide (fldAt w 1 2 = some (5 / 2) ∧ cfldAt v 1 2 = some 2) &&
    (match w[1]? with | some r => decide (r.kind = .cont) | none => false)) = true := by decide +kernel
  obtain ⟨w, v, h1, h2, h3⟩ := bothWrite_ok h
  simp only [Bool.and_eq_true, decide_eq_true_eq] at h3
  obtain ⟨⟨h3, h4⟩, h5⟩ := h3
  split at h5
  · rename_i r hr
    exact ⟨_, _, w, v, h1, h2, h3, h4, differ hr (of_decide_eq_true h5) h3 h4 (by norm_num)⟩
  · cases h5

/-- The compiled function takes a condition as false if its variable has not been written before, also if the dictionary has a value
for it: it leaves out a record. -/
theorem C90_condition_fails : ∃ (p : Prog) (d : DDic) (w : WSt) (v : WFun), writeSection 100 2 99 p d = .ok w ∧ cppWrite p d = some (.ok v) ∧
    w.out.length = 3 ∧ v.out.length = 2 ∧ ¬ List.Forall₂ RecAs w.out v.out := by
  have h : bothWrite later (base 1 [(.var "X", flt 5), (.var "Y", flt 7)]) (fun w v => decide (w.length = 3 ∧ v.length = 2)) = true := by decide +kernel
  obtain ⟨w, v, h1, h2, h3⟩ := bothWrite_ok h
  obtain ⟨h3, h4⟩ := of_decide_eq_true h3
  exact ⟨_, _, w, v, h1, h2, h3, h4, fun hf => by have := hf.length_eq; omega⟩

/-- A missing section is refused by the interpreter, and taken for an empty one by the compiled function. -/
theorem C90_missing_fails : ∃ (p : Prog) (d : DDic) (v : WFun), writeSection 100 2 99 p d = .error .missingSection ∧ cppWrite p d = some (.ok v) ∧
    v.out.length = 3 := by
  have h : (match cppWrite inside (base 1 []), writeSection 100 2 99 inside (base 1 []) with
    | some (.ok v), .error .missingSection => decide (v.out.length = 3)
    | _, _ => false) = true := by decide +kernel
  split at h
  · rename_i v h1 h2
    exact ⟨_, _, v, h2, h1, of_decide_eq_true h⟩
  · cases h

/-- The number of values of a LIST record with a name: the compiled function evaluates it again with the dictionary of that name,
where its variable is missing. -/
theorem C90_named_list_fails : ∃ (p : Prog) (d : DDic) (w : WSt), writeSection 100 2 99 p d = .ok w ∧ w.out.length = 3 ∧ cppWrite p d = some .throw := by
  have h : (match cppWrite namedList (base 1 [(.var "l", .dic [(.var "a", .dic [(.idx 1, flt 3)])])]),
      writeSection 100 2 99 namedList (base 1 [(.var "l", .dic [(.var "a", .dic [(.idx 1, flt 3)])])]) with
    | some .throw, .ok w => decide (w.out.length = 3)
    | _, _ => false) = true := by decide +kernel
  split at h
  · rename_i w h1 h2
    exact ⟨_, _, w, h2, of_decide_eq_true h, h1⟩
  · cases h

/-- A variable that is missing makes a condition false in the interpreter.  In a lookahead the compiled function takes a number
instead, here makes the condition true, and throws because of the missing variable. -/
theorem C90_lookahead_fails : ∃ (p : Prog) (d : DDic) (w : WSt), writeSection 100 2 99 p d = .ok w ∧ w.out.length = 3 ∧ cppWrite p d = some .throw := by
  have h : (match cppWrite peekEx (base 1 []), writeSection 100 2 99 peekEx (base 1 []) with
    | some .throw, .ok w => decide (w.out.length = 3)
    | _, _ => false) = true := by decide +kernel
  split at h
  · rename_i w h1 h2
    exact ⟨_, _, w, h2, of_decide_eq_true h, h1⟩
  · cases h

namespace FunEx

/-- one of two records, after a look at the first one; the number for missing variables does not meet the condition -/
def peekOk : Prog := .seq hd (.seq (.ite (.and (.cmp .eq (var "X") (int 3)) (.cmp .gt (var "Y") (int 3))) (some (int 1)) (cont2 (var "X") (var "Y"))
  (cont (int 5))) (.act .send))

end FunEx

open FunEx in
/-- `C90_partial` with a lookahead: the branch that is looked at is written if its variables are there, and the other one if they
are missing -/
example : ∀ d ∈ [base 1 [(.var "X", flt 3), (.var "Y", flt 4)], base 1 [], base 1 [(.var "X", flt 3)]], ∃ w v,
    writeSection 100 2 99 peekOk d = .ok w ∧ cppWrite peekOk d = some (.ok v) ∧ List.Forall₂ RecAs w.out v.out ∧
    cfldAt v.out 1 1 = if dHas (.var "Y") d then some 4 else some 0 := by
  intro d hd
  obtain ⟨w, v, h1, h2, h3⟩ := bothWrite_ok (p := peekOk) (d := d) (f := fun _ v => decide (cfldAt v 1 1 = if dHas (.var "Y") d then some 4 else some 0)) (by
    simp only [List.mem_cons, List.not_mem_nil, or_false] at hd
    rcases hd with rfl | rfl | rfl <;> decide +kernel)
  refine ⟨w, v, h1, h2, ?_, of_decide_eq_true h3⟩
  have hall : writable peekOk d = true := by
    simp only [List.mem_cons, List.not_mem_nil, or_false] at hd
    rcases hd with rfl | rfl | rfl <;> decide +kernel
  simp only [writable, Bool.and_eq_true] at hall
  obtain ⟨⟨⟨⟨⟨hok, htx⟩, hcl⟩, hC⟩, hU⟩, hP⟩ := hall
  unfold cppWrite at h2
  cases hc : compile 9 peekOk with
  | none => rw [hc] at hok; cases hok
  | some cd =>
    obtain ⟨code, defs⟩ := cd
    rw [hc] at hok h2
    simp only [Option.map_some, Option.some.injEq] at h2
    exact C90_partial 9 peekOk code defs hc hok (by simp [peekOk, FunEx.hd, cont2, cont, WF, ActWF]) htx 100 100 2 99 (some 99) (.inl rfl) d (cleanB_ok hcl)
      ⟨125, 2, 99⟩ (ctrlAllB_ok hC) (unshadowedB_ok hU) (positiveB_ok hP) w v h1 h2

namespace FunEx

/-- a record with the half of `N * (N + 1)` and records with `X[N]` and `X[N + 1]` -/
def triangle : Prog := .seq hd (.seq (icont (.div (.mul (var "N") (.add (var "N") (int 1))) (int 2)))
  (.seq (.loop "i" (var "N") (.add (var "N") (int 1)) (cont (arr "X" (.var "i")))) (.act .send)))

def dataT : DDic := base 2 [(.var "X", .dic [(.idx 2, flt 5), (.idx 3, flt 7)])]

end FunEx

open FunEx in
/-- `C90_partial` with the half of an even number and a loop that starts with a variable -/
example : ∃ w v, writeSection 100 2 99 triangle dataT = .ok w ∧ cppWrite triangle dataT = some (.ok v) ∧ List.Forall₂ RecAs w.out v.out ∧
    cfldAt v.out 1 2 = some 3 ∧ cfldAt v.out 3 0 = some 7 := by
  obtain ⟨w, v, h1, h2, h3⟩ := bothWrite_ok (p := triangle) (d := dataT) (f := fun _ v => decide (cfldAt v 1 2 = some 3 ∧ cfldAt v 3 0 = some 7))
    (by decide +kernel)
  refine ⟨w, v, h1, h2, ?_, of_decide_eq_true h3⟩
  have hall : writable triangle dataT = true := by decide +kernel
  simp only [writable, Bool.and_eq_true] at hall
  obtain ⟨⟨⟨⟨⟨hok, htx⟩, hcl⟩, hC⟩, hU⟩, hP⟩ := hall
  unfold cppWrite at h2
  cases hc : compile 9 triangle with
  | none => rw [hc] at hok; cases hok
  | some cd =>
    obtain ⟨code, defs⟩ := cd
    rw [hc] at hok h2
    simp only [Option.map_some, Option.some.injEq] at h2
    exact C90_partial 9 triangle code defs hc hok (by simp [triangle, FunEx.hd, icont, cont, WF, ActWF]) htx 100 100 2 99 (some 99) (.inl rfl) dataT
      (cleanB_ok hcl) ⟨125, 2, 99⟩ (ctrlAllB_ok hC) (unshadowedB_ok hU) (positiveB_ok hP) w v h1 h2

end Verif
