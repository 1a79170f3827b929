import Verif.Lemmas.TidyCheck
import Verif.Lemmas.ForwardProg
/-
Decision procedures for the conditions of `Spec/Along.lean`, for use in concrete cases.
-/
namespace Verif
open Spec

mutual
def cleanB : Val → Bool
  | .num _ | .txt _ | .lst _ => true
  | .dic d => decide (d.map Prod.fst).Nodup && cleanEntries d
  | .abb _ | .names _ | .mark => false
def cleanEntries : List (Key × Val) → Bool
  | [] => true
  | p :: d => cleanEntry p && cleanEntries d
def cleanEntry : Key × Val → Bool
  | (k, v) => k.data && cleanB v
end

theorem cleanEntries_mem {d : List (Key × Val)} (h : cleanEntries d = true) {k : Key} {v : Val} (hm : (k, v) ∈ d) :
    k.data = true ∧ cleanB v = true := by
  induction d with
  | nil => cases hm
  | cons p d ih =>
    simp only [cleanEntries, Bool.and_eq_true] at h
    rcases List.mem_cons.1 hm with rfl | hm
    · simpa [cleanEntry, Bool.and_eq_true] using h.1
    · exact ih h.2 hm

theorem data_not_internal {k : Key} (h : k.data = true) : ¬ Key.Internal k := by
  rintro (rfl | rfl | rfl) <;> cases h

mutual
theorem cleanB_ok : ∀ {v : Val}, cleanB v = true → Clean v
  | .num x, _ => .num x
  | .txt t, _ => .txt t
  | .lst l, _ => .lst l
  | .dic d, h => by
    simp only [cleanB, Bool.and_eq_true, decide_eq_true_eq] at h
    exact .dic d h.1 (fun k v hg => data_not_internal (cleanEntries_mem h.2 (dGet_mem hg)).1)
      (fun k v hg => cleanEntries_ok h.2 k v (dGet_mem hg))
  | .abb e, h => by simp [cleanB] at h
  | .names l, h => by simp [cleanB] at h
  | .mark, h => by simp [cleanB] at h
theorem cleanEntries_ok : ∀ {d : List (Key × Val)}, cleanEntries d = true → ∀ k v, (k, v) ∈ d → Clean v
  | [], _, _, _, hm => by cases hm
  | p :: d, h, k, v, hm => by
    simp only [cleanEntries, Bool.and_eq_true] at h
    rcases List.mem_cons.1 hm with he | hm
    · have := cleanEntry_ok h.1
      rw [← he] at this; exact this
    · exact cleanEntries_ok h.2 k v hm
theorem cleanEntry_ok : ∀ {p : Key × Val}, cleanEntry p = true → Clean p.2
  | (k, v), h => by
    simp only [cleanEntry, Bool.and_eq_true] at h
    exact cleanB_ok h.2
end

def isText : Res Val → Bool
  | .ok (.txt _) => true
  | _ => false

theorem isText_ok {r : Res Val} (h : isText r = true) : ∃ t, r = .ok (.txt t) := by
  unfold isText at h
  split at h
  · exact ⟨_, rfl⟩
  · cases h

def alongActB (w : WSt) : Act → Bool
  | .text _ fs => dHas (.var "MAT") w.cur && fs.dropLast.all (fun f => f.len.isSome) &&
      fs.all fun f => match f.ref with
        | none => true
        | some r => !dHas r.name w.lv && isText (getVarval ⟨w.cur, [], w.lv⟩ false r)
  | .cont true _ _ => dHas (.var "MAT") w.cur
  | _ => true

theorem alongActB_ok {w : WSt} {a : Act} (h : alongActB w a = true) : AlongAct w a := by
  cases a with
  | text k fs =>
    simp only [alongActB, Bool.and_eq_true, List.all_eq_true] at h
    refine ⟨h.1.1, fun f hf hn => ?_, fun f hf r hr => ?_⟩
    · have := h.1.2 f hf
      rw [hn] at this; cases this
    · have := h.2 f hf
      rw [hr] at this
      simp only [Bool.and_eq_true, Bool.not_eq_true'] at this
      exact ⟨dHas_none.1 this.1, isText_ok this.2⟩
  | cont isHead k fs =>
    cases isHead with
    | false => trivial
    | true => exact h
  | _ => trivial

def allIter₂B {σ τ : Type} (setR : Int → σ → σ) (bodyR : σ → Out σ) (setW : Int → τ → τ) (bodyW : τ → Res τ)
    (P : σ → τ → Bool) : List Int → σ → τ → Bool
  | [], _, _ => true
  | i :: is, s, w => P (setR i s) (setW i w) && ifRun (bodyR (setR i s)) fun s1 => ifOk (bodyW (setW i w)) fun w1 =>
      allIter₂B setR bodyR setW bodyW P is s1 w1

theorem allIter₂B_ok {σ τ : Type} {setR : Int → σ → σ} {bodyR : σ → Out σ} {setW : Int → τ → τ} {bodyW : τ → Res τ}
    {P : σ → τ → Bool} {Q : σ → τ → Prop} (hP : ∀ s w, P s w = true → Q s w) (is : List Int) {s : σ} {w : τ}
    (h : allIter₂B setR bodyR setW bodyW P is s w = true) : AllIter₂ setR bodyR setW bodyW Q is s w := by
  induction is generalizing s w with
  | nil => trivial
  | cons i is ih =>
    simp only [allIter₂B, Bool.and_eq_true] at h
    refine ⟨hP _ _ h.1, fun s1 w1 h1 h2 => ?_⟩
    have h3 := ifRun_ok h.2 h1
    exact ih (ifOk_ok h3 h2)

def alongB (c : RCtx) (fuel : Nat) : Prog → RSt → WSt → Bool
  | .skip, _, _ | .abbr _ _, _, _ => true
  | .seq a b, s, w => alongB c fuel a s w && ifRun (readProg c a s) fun s1 => ifOk (writeProg fuel a w) (alongB c fuel b s1)
  | .act a, _, w => alongActB w a
  | .sect r body, s, w => ifOk (openR s r) fun s1 => ifOk (openW w r) fun w1 =>
      alongB c fuel body { s1 with cur := initWork s1.cur } { w1 with cur := initWork w1.cur }
  | .loop v a b body, s, w => ifOk (loopHead c.fuel s.env v a b) fun (x, y) =>
      allIter₂B (RSt.setVar v) (readProg c body) (WSt.setVar v) (writeProg fuel body) (alongB c fuel body) (intRange x y) s w
  | .ite cond none t e, s, w => decidedB c.fuel s.env cond &&
      ifOk (evalCond c.fuel s.env cond) fun b => if b then alongB c fuel t s w else alongB c fuel e s w
  | .ite cond (some n) t e, s, w => !s.stopped &&
      ifOk (evalCond fuel w.env cond) fun b => lookTruth c cond n t s == some b &&
        if b then alongB c fuel t s w else alongB c fuel e s w

theorem alongB_ok {c : RCtx} {fuel : Nat} {p : Prog} {s : RSt} {w : WSt} (h : alongB c fuel p s w = true) :
    Along c fuel p s w := by
  induction p generalizing s w with
  | skip => trivial
  | abbr n e => trivial
  | seq a b i1 i2 =>
    simp only [alongB, Bool.and_eq_true] at h
    refine ⟨i1 h.1, fun s1 w1 h1 h2 => ?_⟩
    have h3 := ifRun_ok h.2 h1
    exact i2 (ifOk_ok h3 h2)
  | act a => exact alongActB_ok h
  | sect r body ih =>
    intro s1 w1 h1 h2
    simp only [alongB] at h
    have h3 := ifOk_ok h h1
    have := ifOk_ok h3 h2
    exact ih this
  | loop v a b body ih =>
    intro x y hxy
    simp only [alongB] at h
    have := ifOk_ok h hxy
    exact allIter₂B_ok (fun s w hs => ih hs) _ this
  | ite cond look t e i1 i2 =>
    cases look with
    | none =>
      simp only [alongB, Bool.and_eq_true] at h
      refine ⟨decidedB_ok h.1, fun hc => i1 ?_, fun hc => i2 ?_⟩
      · simpa using ifOk_ok h.2 hc
      · simpa using ifOk_ok h.2 hc
    | some n =>
      simp only [alongB, Bool.and_eq_true, Bool.not_eq_true'] at h
      intro s' hs'
      obtain ⟨b, hb, hr⟩ := lookTruth_ok h.1 hs'
      refine ⟨fun hc => ?_, fun hc => ?_⟩
      · have := ifOk_ok h.2 hc
        simp only [Bool.and_eq_true, beq_iff_eq, if_true] at this
        have he : b = true := by have := hb.symm.trans this.1; simpa using this
        subst he
        exact ⟨by simpa using hr, i1 this.2⟩
      · have := ifOk_ok h.2 hc
        simp only [Bool.and_eq_true, beq_iff_eq, Bool.false_eq_true, if_false] at this
        have he : b = false := by have := hb.symm.trans this.1; simpa using this
        subst he
        exact ⟨by simpa using hr, i2 this.2⟩

end Verif
