import Verif.Lemmas.SimProg
/-
Decision procedures for the conditions of `Spec/Tidy.lean`, for use in concrete cases.
-/
namespace Verif
open Spec

/-! ## dictionaries inside a dictionary -/

mutual
def valAll (P : List DDic → DDic → Bool) (ch : List DDic) : Val → Bool
  | .dic d => P ch d && entriesAll P (d :: ch) d
  | _ => true
def entriesAll (P : List DDic → DDic → Bool) (ch : List DDic) : List (Key × Val) → Bool
  | [] => true
  | p :: d => entryAll P ch p && entriesAll P ch d
def entryAll (P : List DDic → DDic → Bool) (ch : List DDic) : Key × Val → Bool
  | (_, v) => valAll P ch v
end

theorem entriesAll_mem {P : List DDic → DDic → Bool} {ch : List DDic} {d : List (Key × Val)} (h : entriesAll P ch d = true)
    {k : Key} {v : Val} (hm : (k, v) ∈ d) : valAll P ch v = true := by
  induction d with
  | nil => cases hm
  | cons p d ih =>
    simp only [entriesAll, Bool.and_eq_true] at h
    rcases List.mem_cons.1 hm with rfl | hm
    · simpa [entryAll] using h.1
    · exact ih h.2 hm

theorem nested_all {P : List DDic → DDic → Bool} {top : DDic} (h : valAll P [] (.dic top) = true) {ch : List DDic} {d : DDic}
    (hn : Nested top ch d) : P ch d = true := by
  suffices valAll P ch (.dic d) = true by
    simp only [valAll, Bool.and_eq_true] at this; exact this.1
  induction hn with
  | top => exact h
  | inner hn hg ih =>
    simp only [valAll, Bool.and_eq_true] at ih
    exact entriesAll_mem ih.2 (dGet_mem hg)

def unshadowedB (ns : List Name) (top : DDic) : Bool :=
  valAll (fun ch d => ns.all fun n => !dHas (.var n) d || ch.all fun d' => !dHas (.var n) d') [] (.dic top)

theorem unshadowedB_ok {ns : List Name} {top : DDic} (h : unshadowedB ns top = true) : Unshadowed ns top := by
  intro ch d hn n hm hd d' hd'
  have := nested_all h hn
  rw [List.all_eq_true] at this
  have := this n hm
  simp only [hd, Bool.not_true, Bool.false_or, List.all_eq_true, Bool.not_eq_true'] at this
  exact this d' hd'

def unusedB (ns : List Name) (top : DDic) : Bool :=
  valAll (fun _ d => ns.all fun n => !dHas (.var n) d) [] (.dic top)

theorem unusedB_ok {ns : List Name} {top : DDic} (h : unusedB ns top = true) : Unused ns top := by
  intro ch d hn n hm
  have := nested_all h hn
  simp only [List.all_eq_true, Bool.not_eq_true'] at this
  exact this n hm

def isInt (i : Int) : Option Val → Bool
  | some (.num (.int j)) => i == j
  | _ => false

theorem isInt_ok {i : Int} {o : Option Val} (h : isInt i o = true) : o = some (.num (.int i)) := by
  unfold isInt at h
  split at h
  · rw [beq_iff_eq] at h; rw [h]
  · cases h

def ctrlAllB (k : Ctrl) (top : DDic) : Bool :=
  valAll (fun _ d => !dHas (.var "MAT") d || (isInt k.mat (dGet (.var "MAT") d) && isInt k.mf (dGet (.var "MF") d) &&
    isInt k.mt (dGet (.var "MT") d))) [] (.dic top)

theorem ctrlAllB_ok {k : Ctrl} {top : DDic} (h : ctrlAllB k top = true) : CtrlAll k top := by
  intro ch d hn hd
  have := nested_all h hn
  simp only [hd, Bool.not_true, Bool.false_or, Bool.and_eq_true] at this
  exact ⟨isInt_ok this.1.1, isInt_ok this.1.2, isInt_ok this.2⟩

/-! ## along a run -/

def resOk {α : Type} : Res α → Bool
  | .ok _ => true
  | .error _ => false

theorem resOk_ok {α : Type} {r : Res α} (h : resOk r = true) : ∃ a, r = .ok a := by
  cases r with
  | ok a => exact ⟨a, rfl⟩
  | error e => cases h

def decidedB (fuel : Nat) (env : Env) : Cond → Bool
  | .cmp _ a b => resOk (evalKnown fuel env true true a) && resOk (evalKnown fuel env true true b)
  | .and a b => decidedB fuel env a && (match evalCond fuel env a with | .ok true => decidedB fuel env b | _ => true)
  | .or a b => decidedB fuel env a && (match evalCond fuel env a with | .ok false => decidedB fuel env b | _ => true)

theorem decidedB_ok {fuel : Nat} {env : Env} {q : Cond} (h : decidedB fuel env q = true) : Decided fuel env q := by
  induction q with
  | cmp r a b =>
    simp only [decidedB, Bool.and_eq_true] at h
    obtain ⟨x, hx⟩ := resOk_ok h.1
    obtain ⟨y, hy⟩ := resOk_ok h.2
    exact ⟨x, y, hx, hy⟩
  | and a b i1 i2 =>
    simp only [decidedB, Bool.and_eq_true] at h
    refine ⟨i1 h.1, fun he => i2 ?_⟩
    have := h.2
    rw [he] at this; exact this
  | or a b i1 i2 =>
    simp only [decidedB, Bool.and_eq_true] at h
    refine ⟨i1 h.1, fun he => i2 ?_⟩
    have := h.2
    rw [he] at this; exact this

def noValueB (cur : DDic) (lv : Dict Name Int) (r : VarRef) : Bool :=
  match getVarval ⟨cur, [], lv⟩ false r with
  | .error .variableNotFound => true
  | .error .unavailableIndex => true
  | _ => false

theorem noValueB_ok {cur : DDic} {lv : Dict Name Int} {r : VarRef} (h : noValueB cur lv r = true) : NoValue cur lv r := by
  unfold noValueB at h
  unfold NoValue
  split at h
  · left; assumption
  · right; assumption
  · cases h

def textUpper (full : Str) (f : TextField) (pos : Nat) : Nat :=
  match f.len with
  | none => full.length
  | some n => pos + n

def textOkB (lv : Dict Name Int) (full : Str) : List TextField → Nat → DDic → Bool
  | [], pos, _ => decide (full.length ≤ pos)
  | f :: fs, pos, cur =>
    match f.ref with
    | none => slice full pos (textUpper full f pos) == List.replicate (textUpper full f pos - pos) ' ' &&
        textOkB lv full fs (textUpper full f pos) cur
    | some r => noValueB cur lv r &&
        match setVarval cur lv r (.txt (slice full pos (textUpper full f pos))) with
        | .ok cur' => textOkB lv full fs (textUpper full f pos) cur'
        | .error _ => true

theorem textOkB_ok {lv : Dict Name Int} {full : Str} {fs : List TextField} {pos : Nat} {cur : DDic}
    (h : textOkB lv full fs pos cur = true) : TextOk lv full fs pos cur := by
  induction fs generalizing pos cur with
  | nil => simpa [textOkB, TextOk] using h
  | cons f fs ih =>
    show (match f.ref with
      | none => slice full pos (textUpper full f pos) = List.replicate (textUpper full f pos - pos) ' ' ∧
          TextOk lv full fs (textUpper full f pos) cur
      | some r => NoValue cur lv r ∧ ∀ cur', setVarval cur lv r (.txt (slice full pos (textUpper full f pos))) = .ok cur' →
          TextOk lv full fs (textUpper full f pos) cur')
    simp only [textOkB] at h
    cases hr : f.ref with
    | none =>
      rw [hr] at h
      simp only [Bool.and_eq_true, beq_iff_eq] at h
      exact ⟨h.1, ih h.2⟩
    | some r =>
      rw [hr] at h
      simp only [Bool.and_eq_true] at h
      refine ⟨noValueB_ok h.1, fun cur' hc => ih ?_⟩
      have := h.2
      rw [hc] at this; exact this

def freeB (i : Int) : Option Val → Bool
  | none => true
  | some (.num (.int n)) => n == i
  | _ => false

theorem freeB_ok {i : Int} {o : Option Val} (h : freeB i o = true) : ∀ v, o = some v → v = .num (.int i) := by
  intro v hv
  subst hv
  unfold freeB at h
  split at h
  · contradiction
  · rename_i n he
    cases he
    rw [beq_iff_eq] at h
    rw [h]
  · cases h

def ctrlFreeB (k : Ctrl) (cur : DDic) : Bool :=
  freeB k.mat (dGet (.var "MAT") cur) && freeB k.mf (dGet (.var "MF") cur) && freeB k.mt (dGet (.var "MT") cur)

theorem ctrlFreeB_ok {k : Ctrl} {cur : DDic} (h : ctrlFreeB k cur = true) : CtrlFree k cur := by
  simp only [ctrlFreeB, Bool.and_eq_true] at h
  exact ⟨freeB_ok h.1.1, freeB_ok h.1.2, freeB_ok h.2⟩

def allIterB {σ : Type} (setVar : Int → σ → σ) (body : σ → Out σ) (P : σ → Bool) : List Int → σ → Bool
  | [], _ => true
  | i :: is, s => P (setVar i s) && match body (setVar i s) with
    | .ok s1 => allIterB setVar body P is s1
    | .err _ _ => true

theorem allIterB_ok {σ : Type} {setVar : Int → σ → σ} {body : σ → Out σ} {P : σ → Bool} {Q : σ → Prop}
    (hP : ∀ s, P s = true → Q s) (is : List Int) {s : σ} (h : allIterB setVar body P is s = true) :
    AllIter setVar body Q is s := by
  induction is generalizing s with
  | nil => trivial
  | cons i is ih =>
    simp only [allIterB, Bool.and_eq_true] at h
    refine ⟨hP _ h.1, fun s1 h1 => ih ?_⟩
    have := h.2
    rw [h1] at this; exact this

def tidyBodyB (c : RCtx) (vals : List PyNum) : LBody → LSt → Bool
  | .nil, _ | .expr _, _ => true
  | .seq a b, l => tidyBodyB c vals a l && match readBody c vals a l with
    | .ok l1 => tidyBodyB c vals b l1
    | .err _ _ => true
  | .pad, l => decide (l.pos + (6 - l.pos % 6) % 6 ≤ vals.length) &&
      ((vals.drop l.pos).take ((6 - l.pos % 6) % 6)).all fun v => v.val == 0
  | .loop v a b body, l => match loopHead c.fuel l.st.env v a b with
    | .ok (x, y) => allIterB (LSt.setVar v) (readBody c vals body) (tidyBodyB c vals body) (intRange x y) l
    | .error _ => true

theorem tidyBodyB_ok {c : RCtx} {vals : List PyNum} {b : LBody} {l : LSt} (h : tidyBodyB c vals b l = true) :
    TidyBody c vals b l := by
  induction b generalizing l with
  | nil => trivial
  | expr e => trivial
  | seq a b i1 i2 =>
    simp only [tidyBodyB, Bool.and_eq_true] at h
    refine ⟨i1 h.1, fun l1 h1 => i2 ?_⟩
    have := h.2
    rw [h1] at this; exact this
  | pad =>
    simp only [tidyBodyB, Bool.and_eq_true, decide_eq_true_eq, List.all_eq_true, beq_iff_eq] at h
    refine ⟨h.1, fun j v h1 h2 hj => h.2 v ?_⟩
    rw [List.mem_iff_getElem?]
    refine ⟨j - l.pos, ?_⟩
    rw [List.getElem?_take, if_pos (by omega), List.getElem?_drop]
    rw [Nat.add_sub_cancel' h1]; exact hj
  | loop v e1 e2 body ih =>
    intro x y hxy
    simp only [tidyBodyB, hxy] at h
    exact allIterB_ok (fun s hs => ih hs) _ h

/-- the record at the current position -/
def nextRec {α : Type} (c : RCtx) (s : RSt) (rd : List Str → Nat → Res (α × Nat)) : Option (α × RSt) :=
  match skipBlankLines c.lines s.ofs with
  | .error _ => none
  | .ok ofs => match rd c.lines ofs with
    | .error _ => none
    | .ok (r, ofs') => some (r, { s with ofs := ofs', spans := s.spans ++ [(ofs, ofs')] })

theorem nextRec_ok {α : Type} {c : RCtx} {s s1 : RSt} {rd : List Str → Nat → Res (α × Nat)} {r : α} (h : Next c s rd r s1) :
    nextRec c s rd = some (r, s1) := by
  obtain ⟨ofs, ofs', h1, h2, rfl⟩ := h
  simp only [nextRec, h1, h2]

def ifNext {α : Type} (o : Option (α × RSt)) (f : α → RSt → Bool) : Bool :=
  match o with
  | none => true
  | some (r, s) => f r s

def ifOk {α : Type} (o : Res α) (f : α → Bool) : Bool :=
  match o with
  | .error _ => true
  | .ok a => f a

def ifRun {σ : Type} (o : Out σ) (f : σ → Bool) : Bool :=
  match o with
  | .err _ _ => true
  | .ok s => f s

theorem ifNext_ok {α : Type} {c : RCtx} {s s1 : RSt} {rd : List Str → Nat → Res (α × Nat)} {r : α} {f : α → RSt → Bool}
    (h : ifNext (nextRec c s rd) f = true) (hn : Next c s rd r s1) : f r s1 = true := by
  rw [nextRec_ok hn] at h; exact h

theorem ifOk_ok {α : Type} {o : Res α} {f : α → Bool} {a : α} (h : ifOk o f = true) (ho : o = .ok a) : f a = true := by
  rw [ho] at h; exact h

theorem ifRun_ok {σ : Type} {o : Out σ} {f : σ → Bool} {a : σ} (h : ifRun o f = true) (ho : o = .ok a) : f a = true := by
  rw [ho] at h; exact h

def tidyActB (c : RCtx) : Act → RSt → Bool
  | .text _ fs, s => ifNext (nextRec c s (readText c.ro)) fun r _ => textOkB s.lv r.hl fs 0 s.cur &&
      ifOk (mapTextRead s.lv r.hl fs 0 s.cur) (ctrlFreeB r.ctrl)
  | .cont true _ fs, s => ifNext (nextRec c s (readCont c.ro)) fun r s1 =>
      ifRun (mapFields c fs r.vals s1) fun s2 => ctrlFreeB r.ctrl s2.cur
  | .list _ fs body name, s => ifNext (nextRec c s (readList c.ro)) fun r s1 =>
      ifRun (mapFields c fs r.head.vals s1) fun s2 =>
      match name with
      | none => tidyBodyB c (r.vals.map PyNum.num) body ⟨0, s2⟩
      | some ref => ifOk (openR s2 ref) fun s3 => tidyBodyB c (r.vals.map PyNum.num) body ⟨0, s3⟩
  | _, _ => true

theorem tidyActB_ok {c : RCtx} {a : Act} {s : RSt} (h : tidyActB c a s = true) : TidyAct c a s := by
  cases a with
  | text k fs =>
    intro r s1 hn
    have := ifNext_ok h hn
    simp only [Bool.and_eq_true] at this
    exact ⟨textOkB_ok this.1, fun cur hc => ctrlFreeB_ok (ifOk_ok this.2 hc)⟩
  | cont isHead k fs =>
    cases isHead with
    | false => trivial
    | true =>
      intro r s1 hn s2 h2
      have := ifRun_ok (ifNext_ok h hn) h2
      exact ctrlFreeB_ok this
  | list k fs body name =>
    intro r s1 hn s2 h2
    have := ifRun_ok (ifNext_ok h hn) h2
    cases name with
    | none => exact tidyBodyB_ok this
    | some ref =>
      intro s3 h3
      have := ifOk_ok this h3
      exact tidyBodyB_ok this
  | _ => trivial

def isAbb : Val → Bool
  | .abb _ => true
  | _ => false

def noAbbs (d : DDic) : Bool := d.all fun p => !isAbb p.2

theorem noAbbs_ok {d : DDic} (h : noAbbs d = true) (n : Name) (e : Expr) : ¬ dGet (.var n) d = some (.abb e) := by
  intro hg
  have := List.all_eq_true.1 h _ (dGet_mem hg)
  simp [isAbb] at this

/-- the truth value of a condition behind a lookahead -/
def lookTruth (c : RCtx) (cond : Cond) (e : Expr) (thn : Prog) (s : RSt) : Option Bool :=
  match lookCount c s e with
  | .error _ => none
  | .ok n => match readProg c thn { s with look := some n, ignoreAll := true } with
    | .err .unexpectedControl s' | .ok s' => (evalCond c.fuel (s'.envAt s.ups.length) cond).toOption
    | .err _ _ => none

def tidyB (c : RCtx) : Prog → RSt → Bool
  | .skip, _ | .abbr _ _, _ => true
  | .seq a b, s => tidyB c a s && ifRun (readProg c a s) (tidyB c b)
  | .act a, s => tidyActB c a s
  | .sect r body, s => ifOk (openR s r) fun s1 => tidyB c body { s1 with cur := initWork s1.cur }
  | .loop v a b body, s => ifOk (loopHead c.fuel s.env v a b) fun (x, y) =>
      allIterB (RSt.setVar v) (readProg c body) (tidyB c body) (intRange x y) s
  | .ite cond none t e, s => decidedB c.fuel s.env cond &&
      ifOk (evalCond c.fuel s.env cond) fun b => if b then tidyB c t s else tidyB c e s
  | .ite cond (some n) t e, s => !s.stopped && match lookTruth c cond n t s with
    | none => true
    | some true => ifRun (readProg c t s) fun s' => decidedB c.fuel s'.env cond && noAbbs s.cur && noAbbs s'.cur &&
        (evalCond c.fuel s'.env cond).toOption == some true && tidyB c t s
    | some false => ifRun (readProg c e s) fun s' => decidedB c.fuel s'.env cond && noAbbs s.cur && noAbbs s'.cur &&
        (evalCond c.fuel s'.env cond).toOption == some false && tidyB c e s

theorem toOption_some {α : Type} {r : Res α} {a : α} (h : r.toOption = some a) : r = .ok a := by
  cases r with
  | ok b => simpa [Except.toOption] using h
  | error e => simp [Except.toOption] at h

theorem lookTruth_ok {c : RCtx} {cond : Cond} {n : Expr} {t e : Prog} {s s' : RSt} (hs : s.stopped = false)
    (h : readProg c (.ite cond (some n) t e) s = .ok s') :
    ∃ b, lookTruth c cond n t s = some b ∧ (if b then readProg c t s else readProg c e s) = .ok s' := by
  rw [readProg.eq_def] at h
  dsimp only at h
  rw [hs] at h
  simp only [Bool.false_eq_true, if_false, Out.lift_ok] at h
  obtain ⟨m, hm, h⟩ := h
  unfold lookTruth
  rw [hm]
  dsimp only
  split at h
  · rename_i s1 h1
    rw [h1]
    rw [Out.lift_ok] at h
    obtain ⟨b, hb, h⟩ := h
    exact ⟨b, by simp only [hb, Except.toOption], h⟩
  · rename_i s1 h1
    rw [h1]
    rw [Out.lift_ok] at h
    obtain ⟨b, hb, h⟩ := h
    exact ⟨b, by simp only [hb, Except.toOption], h⟩
  · cases h

theorem tidyB_ok {c : RCtx} {p : Prog} {s : RSt} (h : tidyB c p s = true) : Tidy c p s := by
  induction p generalizing s with
  | skip => trivial
  | abbr n e => trivial
  | seq a b i1 i2 =>
    simp only [tidyB, Bool.and_eq_true] at h
    exact ⟨i1 h.1, fun s1 h1 => i2 (ifRun_ok h.2 h1)⟩
  | act a => exact tidyActB_ok h
  | sect r body ih =>
    intro s1 h1
    simp only [tidyB] at h
    have := ifOk_ok h h1
    exact ih this
  | loop v a b body ih =>
    intro x y hxy
    simp only [tidyB] at h
    have := ifOk_ok h hxy
    exact allIterB_ok (fun s hs => ih hs) _ this
  | ite cond look t e i1 i2 =>
    cases look with
    | none =>
      simp only [tidyB, Bool.and_eq_true] at h
      refine ⟨decidedB_ok h.1, fun hc => i1 ?_, fun hc => i2 ?_⟩
      · simpa using ifOk_ok h.2 hc
      · simpa using ifOk_ok h.2 hc
    | some n =>
      simp only [tidyB, Bool.and_eq_true, Bool.not_eq_true'] at h
      intro s' hr
      obtain ⟨b, hb1, hb2⟩ := lookTruth_ok h.1 hr
      have h2 := h.2
      rw [hb1] at h2
      cases b with
      | true =>
        have h3 := ifRun_ok h2 (by simpa using hb2)
        simp only [Bool.and_eq_true, beq_iff_eq] at h3
        obtain ⟨⟨⟨⟨a1, a2⟩, a3⟩, a4⟩, a5⟩ := h3
        refine ⟨decidedB_ok a1, fun n e => ⟨fun h => absurd h (noAbbs_ok a2 _ _), fun h => absurd h (noAbbs_ok a3 _ _)⟩, .inl ⟨toOption_some a4, by simpa using hb2, i1 a5⟩⟩
      | false =>
        have h3 := ifRun_ok h2 (by simpa using hb2)
        simp only [Bool.and_eq_true, beq_iff_eq] at h3
        obtain ⟨⟨⟨⟨a1, a2⟩, a3⟩, a4⟩, a5⟩ := h3
        refine ⟨decidedB_ok a1, fun n e => ⟨fun h => absurd h (noAbbs_ok a2 _ _), fun h => absurd h (noAbbs_ok a3 _ _)⟩, .inr ⟨toOption_some a4, by simpa using hb2, i2 a5⟩⟩

end Verif
