import Verif.Spec.CppFit
import Verif.Lemmas.TidyCheck

/-! `Fit` evaluated. -/

namespace Verif.CF
open Verif Spec

def intLinesB (lines : List Str) (a b : Nat) : Bool :=
  (List.range (b - a)).all fun j => match lines[a + j]? with
    | none => true
    | some l => (List.range 6).all fun i => match readFortInt (slice l (11 * i) (11 * i + 11)) with
      | .ok n => decide (intMin ≤ n) && decide (n ≤ intMax)
      | .error _ => false

theorem intLinesB_ok {lines : List Str} {a b : Nat} (h : intLinesB lines a b = true) : IntLines lines a b := by
  intro j l h1 h2 hl i hi
  have := List.all_eq_true.1 h (j - a) (by simp; omega)
  rw [Nat.add_sub_cancel' h1, hl] at this
  have := List.all_eq_true.1 this i (by simpa using hi)
  split at this
  · rename_i n hn
    simp only [Bool.and_eq_true, decide_eq_true_eq] at this
    exact ⟨n, hn, this.1, this.2⟩
  · cases this

def isNewB : Res DDic → Bool
  | .ok [] => true
  | _ => false

theorem isNewB_ok {r : Res DDic} (h : isNewB r = true) : r = .ok [] := by
  unfold isNewB at h
  split at h
  · rfl
  · cases h

def newSubB (s : RSt) (r : VarRef) : Bool := ifOk (r.idx.mapM (idxVal s.lv)) fun is => isNewB (subDic (dGet (.var r.name) s.cur) is)

theorem newSubB_ok {s : RSt} {r : VarRef} (h : newSubB s r = true) : NewSub s r := by
  intro is his
  unfold newSubB at h
  have := ifOk_ok h his
  exact isNewB_ok this

def newNameB (s : RSt) : Option VarRef → Bool
  | none => true
  | some r => newSubB s r

theorem newNameB_ok {s : RSt} {o : Option VarRef} (h : newNameB s o = true) : NewName s o := by
  cases o with
  | none => trivial
  | some r => exact newSubB_ok h

def fitActB (c : RCtx) (k : Ctrl) : Act → RSt → Bool
  | .text _ _, s => ifNext (nextRec c s (readText c.ro)) fun r _ => decide (r.ctrl = k)
  | .cont true _ _, s => ifNext (nextRec c s (readCont c.ro)) fun r _ => decide (r.ctrl = k)
  | .tab1 _ fs _ _ name, s => ifNext (nextRec c s (readTab1 c.ro)) fun r s1 => decide (1 ≤ slotVal r.head.n1) && decide (1 ≤ slotVal r.head.n2) &&
      ifOk (skipBlankLines c.lines s.ofs) (fun ofs => intLinesB c.lines (ofs + 1) (ofs + 1 + (2 * (slotVal r.head.n1).toNat + 5) / 6)) &&
      ifRun (mapFields c (fs.take 4) (r.head.vals.take 4) s1) fun s2 => newNameB s2 name
  | .tab2 _ fs name, s => ifNext (nextRec c s (readTab2 c.ro)) fun r s1 => decide (1 ≤ slotVal r.head.n1) &&
      ifOk (skipBlankLines c.lines s.ofs) (fun ofs => intLinesB c.lines (ofs + 1) (ofs + 1 + (2 * (slotVal r.head.n1).toNat + 5) / 6)) &&
      ifRun (mapFields c (fs.take 4 ++ fs.drop 5) (r.head.vals.take 4 ++ r.head.vals.drop 5) s1) fun s2 => newNameB s2 name
  | .list _ fs _ name, s => ifNext (nextRec c s (readList c.ro)) fun r s1 => decide (1 ≤ slotVal r.head.n1) &&
      ifRun (mapFields c fs r.head.vals s1) fun s2 => newNameB s2 name
  | _, _ => true

theorem fitActB_ok {c : RCtx} {k : Ctrl} {a : Act} {s : RSt} (h : fitActB c k a s = true) : FitAct c k a s := by
  cases a with
  | text k0 fs => exact fun r s1 hn => of_decide_eq_true (ifNext_ok h hn)
  | cont hd k0 fs =>
    cases hd with
    | false => trivial
    | true => exact fun r s1 hn => of_decide_eq_true (ifNext_ok h hn)
  | tab1 k0 fs x y name =>
    intro r s1 hn
    have := ifNext_ok h hn
    simp only [Bool.and_eq_true, decide_eq_true_eq] at this
    exact ⟨this.1.1.1, this.1.1.2, fun ofs ho => by have := ifOk_ok this.1.2 ho; exact intLinesB_ok this, fun s2 h2 => by have := ifRun_ok this.2 h2; exact newNameB_ok this⟩
  | tab2 k0 fs name =>
    intro r s1 hn
    have := ifNext_ok h hn
    simp only [Bool.and_eq_true, decide_eq_true_eq] at this
    exact ⟨this.1.1, fun ofs ho => by have := ifOk_ok this.1.2 ho; exact intLinesB_ok this, fun s2 h2 => by have := ifRun_ok this.2 h2; exact newNameB_ok this⟩
  | list k0 fs body name =>
    intro r s1 hn
    have := ifNext_ok h hn
    simp only [Bool.and_eq_true, decide_eq_true_eq] at this
    exact ⟨this.1, fun s2 h2 => by have := ifRun_ok this.2 h2; exact newNameB_ok this⟩
  | _ => trivial

def ctlKnownB (s : RSt) (cond : Cond) : Bool := (Cond.vars cond).all fun r => !ctlNames.contains r.name || dHas (.var r.name) (outermost s)

theorem ctlKnownB_ok {s : RSt} {cond : Cond} (h : ctlKnownB s cond = true) : CtlKnown s cond := by
  intro r hr hc
  have := List.all_eq_true.1 h r hr
  simp only [Bool.or_eq_true, Bool.not_eq_true', List.contains_eq_mem, decide_eq_false_iff_not] at this
  have := this.resolve_left (fun h => h hc)
  intro hn
  unfold dHas at this
  rw [hn] at this; cases this

def ctlSame (s s' : RSt) (n : Name) : Bool :=
  match dGet (.var n) s'.cur, dGet (.var n) s.cur with
  | none, none => true
  | some (.num (.int i)), some (.num (.int j)) => i == j
  | _, _ => false

theorem ctlSame_ok {s s' : RSt} {n : Name} (h : ctlSame s s' n = true) : dGet (.var n) s'.cur = dGet (.var n) s.cur := by
  unfold ctlSame at h
  split at h
  · rename_i h1 h2; rw [h1, h2]
  · rename_i h1 h2; rw [h1, h2, eq_of_beq h]
  · cases h

def fitB (c : RCtx) (k : Ctrl) : Prog → RSt → Bool
  | .skip, _ | .abbr _ _, _ => true
  | .seq a b, s => fitB c k a s && ifRun (readProg c a s) (fitB c k b)
  | .act a, s => fitActB c k a s
  | .sect r body, s => newSubB s r && ifOk (openR s r) fun s1 => fitB c k body { s1 with cur := initWork s1.cur }
  | .loop v a b body, s => ifOk (loopHead c.fuel s.env v a b) fun p =>
      decide (0 ≤ p.1) && allIterB (RSt.setVar v) (readProg c body) (fitB c k body) (intRange p.1 p.2) s
  | .ite cond none t e, s => ctlKnownB s cond && ifOk (evalCond c.fuel s.env cond) fun x => if x then fitB c k t s else fitB c k e s
  | .ite cond (some x) t e, s => ifOk (lookCount c s x) fun n =>
      match readProg c t { s with look := some n, ignoreAll := true } with
      | .ok s' => (Cond.vars cond).all (fun r => !(lookFields t n.toNat).1.any (fun e => e.vars.any (·.name == r.name)) ||
          dHas r.name s.lv || !dHas (.var r.name) s.cur) &&
        ctlKnownB s cond && (Cond.vars cond).all (fun r => !ctlNames.contains r.name || ctlSame s s' r.name) &&
        ifOk (evalCond c.fuel (s'.envAt s.ups.length) cond) fun x => if x then fitB c k t s else fitB c k e s
      | .err _ _ => false

theorem fitB_ok {c : RCtx} {k : Ctrl} {p : Prog} {s : RSt} (h : fitB c k p s = true) : Fit c k p s := by
  induction p generalizing s with
  | skip => trivial
  | abbr n e => trivial
  | seq a b iha ihb =>
    simp only [fitB, Bool.and_eq_true] at h
    exact ⟨iha h.1, fun s1 h1 => ihb (ifRun_ok h.2 h1)⟩
  | act a => exact fitActB_ok h
  | sect r body ih =>
    simp only [fitB, Bool.and_eq_true] at h
    exact ⟨newSubB_ok h.1, fun s1 h1 => by have := ifOk_ok h.2 h1; exact ih this⟩
  | loop v a b body ih =>
    intro x y hxy
    have := ifOk_ok h hxy
    simp only [Bool.and_eq_true, decide_eq_true_eq] at this
    exact ⟨this.1, allIterB_ok (fun s hs => ih hs) _ this.2⟩
  | ite cond look t e iht ihe =>
    cases look with
    | none =>
      simp only [fitB, Bool.and_eq_true] at h
      obtain ⟨hk, h⟩ := h
      refine ⟨ctlKnownB_ok hk, fun hc => ?_, fun hc => ?_⟩
      · have := ifOk_ok h hc
        simp only [if_true] at this
        exact iht this
      · have := ifOk_ok h hc
        simp only [Bool.false_eq_true, if_false] at this
        exact ihe this
    | some x =>
      intro n hn
      simp only [fitB] at h
      have h1 := ifOk_ok h hn
      clear h
      split at h1
      · rename_i s' hs'
        simp only [Bool.and_eq_true] at h1
        obtain ⟨⟨⟨h1, hk⟩, hs⟩, h2⟩ := h1
        refine ⟨s', hs', fun r hr hlk hlv => ?_, ctlKnownB_ok hk, fun r hr hc => ?_, fun hc => ?_, fun hc => ?_⟩
        rotate_left
        · have := List.all_eq_true.1 hs r hr
          simp only [Bool.or_eq_true, Bool.not_eq_true', List.contains_eq_mem, decide_eq_false_iff_not] at this
          exact ctlSame_ok (this.resolve_left (fun h => h hc))
        rotate_right
        · have := List.all_eq_true.1 h1 r hr
          simp only [Bool.or_eq_true] at this
          rcases this with (this | this) | this
          · simp only [Bool.not_eq_true', List.any_eq_false] at this
            obtain ⟨e', he', r', hr', hn'⟩ := hlk
            have := this e' he'
            simp only [List.any_eq_true, not_exists, not_and] at this
            exact absurd (by simpa using hn') (this r' hr')
          · unfold dHas at this; rw [hlv] at this; cases this
          · unfold dHas at this
            simpa using this
        · have := ifOk_ok h2 hc
          simp only [if_true] at this
          exact iht this
        · have := ifOk_ok h2 hc
          simp only [Bool.false_eq_true, if_false] at this
          exact ihe this
      · cases h1

end Verif.CF
