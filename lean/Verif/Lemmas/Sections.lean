import Verif.Model.Sections
import Verif.Spec.Tape
import Verif.Lemmas.Records
/-
The section splitter as an automaton.
-/
namespace Verif
open Spec

/-- how the package reads lines -/
def theReader (o : ROpts) : LineReader where
  ctrl l := match readCtrl o.width l with
    | .ok c => some (c.mat, c.mf, c.mt)
    | .error _ => none
  zero l := ∃ x n, readCont o [l] 0 = .ok (x, n) ∧ x.c1.val = 0 ∧ x.c2.val = 0 ∧
    x.l1 = .int 0 ∧ x.l2 = .int 0 ∧ x.n1 = .int 0 ∧ x.n2 = .int 0
  blank l := strip l = []

theorem theReader_ctrl {o : ROpts} {l : Str} {a b c : Int} :
    (theReader o).ctrl l = some (a, b, c) ↔ readCtrl o.width l = .ok ⟨a, b, c⟩ := by
  unfold theReader
  dsimp only
  cases h : readCtrl o.width l with
  | error e => simp
  | ok x =>
    simp only [Option.some.injEq, Prod.mk.injEq, Except.ok.injEq]
    constructor
    · rintro ⟨rfl, rfl, rfl⟩; rfl
    · intro h; subst h; simp

theorem readCont_ctrl {o : ROpts} {l : Str} {x : ContRec} {n : Nat} (h : readCont o [l] 0 = .ok (x, n)) :
    readCtrl o.width l = .ok x.ctrl := by
  unfold readCont at h
  simp only [bind, Except.bind, lineAt, List.getElem?_cons_zero] at h
  repeat (split at h; · cases h)
  rename_i hc
  cases h
  exact hc

theorem readSend_iff (o : ROpts) (l : Str) (c : Ctrl) (hc : readCtrl o.width l = .ok c) :
    (∃ p, readSend o [l] 0 = .ok p) ↔ (theReader o).zero l ∧ c.mt = 0 := by
  unfold readSend
  cases h : readCont o [l] 0 with
  | error e =>
    simp only [bind, Except.bind, theReader, h]
    simp
  | ok p =>
    obtain ⟨x, n⟩ := p
    have hx := readCont_ctrl h
    rw [hc] at hx
    have hx' := Except.ok.inj hx
    simp only [bind, Except.bind, theReader, h]
    constructor
    · rintro ⟨p, hp⟩
      split at hp
      · cases hp
      · rename_i hn
        push Not at hn
        obtain ⟨a1, a2, a3, a4, a5, a6, a7⟩ := hn
        exact ⟨⟨x, n, rfl, a1, a2, a3, a4, a5, a6⟩, by rw [hx']; exact a7⟩
    · rintro ⟨⟨x', n', e, a1, a2, a3, a4, a5, a6⟩, a7⟩
      cases e
      rw [hx'] at a7
      rw [if_neg (by simp [a1, a2, a3, a4, a5, a6, a7])]
      exact ⟨_, rfl⟩

/-! ### one step -/

def strictOpts (o : ROpts) : SplitOpts := { fields := o }

/-- one strict step, as a relation -/
theorem splitStep_strict (o : ROpts) (st st' : SplitState) (l : Str) :
    splitStep (strictOpts o) st l = .ok st' ↔
      ((theReader o).blank l ∧ st.level = -1 ∧ st' = st) ∨
      (¬ (theReader o).blank l ∧ st.level ≠ -1 ∧ ∃ c, readCtrl o.width l = .ok c ∧
        ((c.mat ≠ 0 ∧ c.mf ≠ 0 ∧ c.mt ≠ 0 ∧ regularOk st c = true ∧ st' = ⟨addLine c.mf c.mt l st.dic, 3, c⟩) ∨
         (¬ (c.mat ≠ 0 ∧ c.mf ≠ 0 ∧ c.mt ≠ 0) ∧ endOk st c = true ∧ (theReader o).zero l ∧ c.mt = 0 ∧
            st' = { st with level := st.level - 1 }))) := by
  have hb : (theReader o).blank l ↔ strip l = [] := Iff.rfl
  unfold splitStep
  rw [hb]
  by_cases h1 : strip l = []
  · simp only [h1, if_true, strictOpts, not_true_eq_false, false_and, or_false, true_and]
    by_cases h2 : st.level = -1
    · simp [h2, eq_comm]
    · simp [h2]
  · simp only [h1, if_false, false_and, not_false_eq_true, true_and, false_or]
    by_cases h2 : st.level = -1
    · simp [h2]
    · simp only [h2, if_false, ne_eq, not_false_eq_true, true_and]
      show (do let c ← readCtrl o.width l; _) = _ ↔ _
      cases hc : readCtrl o.width l with
      | error e => simp [bind, Except.bind]
      | ok c =>
        simp only [bind, Except.bind, strictOpts, Bool.not_false, Bool.true_and]
        by_cases h3 : ¬c.mat = 0 ∧ ¬c.mf = 0 ∧ ¬c.mt = 0
        · rw [if_pos h3]
          cases h4 : regularOk st c with
          | false =>
            simp only [Bool.not_false, if_true]
            constructor
            · intro h; cases h
            · rintro ⟨c', hc', h⟩
              cases hc'
              rcases h with ⟨_, _, _, h, _⟩ | ⟨h, _⟩
              · rw [h4] at h; cases h
              · exact absurd h3 h
          | true =>
            simp only [Bool.not_true, if_neg Bool.false_ne_true]
            constructor
            · intro h
              exact ⟨c, rfl, Or.inl ⟨h3.1, h3.2.1, h3.2.2, h4, (Except.ok.inj h).symm⟩⟩
            · rintro ⟨c', hc', h⟩
              cases hc'
              rcases h with ⟨_, _, _, _, h⟩ | ⟨h, _⟩
              · rw [h]
              · exact absurd h3 h
        · rw [if_neg h3]
          cases h4 : endOk st c with
          | false =>
            simp only [Bool.not_false, if_true, if_neg Bool.false_ne_true]
            constructor
            · intro h; cases h
            · rintro ⟨c', hc', h⟩
              cases hc'
              rcases h with ⟨a, b, d, _⟩ | ⟨_, h, _⟩
              · exact absurd ⟨a, b, d⟩ h3
              · rw [h4] at h; cases h
          | true =>
            simp only [Bool.not_true, if_neg Bool.false_ne_true]
            have hs := readSend_iff o l c hc
            constructor
            · intro h
              cases hr : readSend o [l] 0 with
              | error e => rw [hr] at h; cases h
              | ok p =>
                rw [hr] at h
                have := hs.1 ⟨p, hr⟩
                exact ⟨c, rfl, Or.inr ⟨h3, h4, this.1, this.2, (Except.ok.inj h).symm⟩⟩
            · rintro ⟨c', hc', h⟩
              cases hc'
              rcases h with ⟨a, b, d, _⟩ | ⟨_, _, hz, hm, h⟩
              · exact absurd ⟨a, b, d⟩ h3
              · obtain ⟨p, hp⟩ := hs.2 ⟨hz, hm⟩
                rw [hp, h]

theorem splitLoop_cons (o : SplitOpts) (st : SplitState) (l : Str) (ls : List Str) (st' : SplitState) :
    splitLoop o st (l :: ls) = .ok st' ↔ ∃ s1, splitStep o st l = .ok s1 ∧ splitLoop o s1 ls = .ok st' := by
  rw [splitLoop]
  cases h : splitStep o st l with
  | error e => simp [bind, Except.bind]
  | ok s1 => simp [bind, Except.bind]

theorem splitLoop_append (o : SplitOpts) (st : SplitState) (a b : List Str) (st' : SplitState) :
    splitLoop o st (a ++ b) = .ok st' ↔ ∃ s1, splitLoop o st a = .ok s1 ∧ splitLoop o s1 b = .ok st' := by
  induction a generalizing st with
  | nil => simp [splitLoop]
  | cons l a ih =>
    rw [List.cons_append, splitLoop_cons]
    constructor
    · rintro ⟨s1, h1, h2⟩
      obtain ⟨s2, h3, h4⟩ := (ih s1).1 h2
      exact ⟨s2, (splitLoop_cons _ _ _ _ _).2 ⟨s1, h1, h3⟩, h4⟩
    · rintro ⟨s2, h1, h2⟩
      obtain ⟨s1, h3, h4⟩ := (splitLoop_cons _ _ _ _ _).1 h1
      exact ⟨s1, h3, (ih s1).2 ⟨s2, h4, h2⟩⟩

/-! ### what remains to be read at each level -/

section
variable (r : LineReader)

def Rest0 (ls : List Str) : Prop :=
  ∃ (mats : List TMat) (tend : Line) (trail : List Line), ls = (mats.map TMat.lines).flatten ++ tend :: trail ∧
    (∀ m ∈ mats, m.WF r) ∧ r.IsEnd (-1) 0 tend ∧ ∀ l ∈ trail, r.blank l

def Rest1 (mat : Int) (ls : List Str) : Prop :=
  ∃ (files : List TFile) (mend : Line) (rest : List Line), ls = (files.map TFile.lines).flatten ++ mend :: rest ∧
    (∀ f ∈ files, f.WF r mat) ∧ r.IsEnd 0 0 mend ∧ Rest0 r rest

def Rest2 (mat mf : Int) (ls : List Str) : Prop :=
  ∃ (secs : List TSec) (fend : Line) (rest : List Line), ls = (secs.map TSec.lines).flatten ++ fend :: rest ∧
    (∀ s ∈ secs, s.WF r mat mf) ∧ r.IsEnd mat 0 fend ∧ Rest1 r mat rest

def Rest3 (mat mf mt : Int) (ls : List Str) : Prop :=
  ∃ (data : List Line) (send : Line) (rest : List Line), ls = data ++ send :: rest ∧
    (∀ l ∈ data, r.IsData mat mf mt l) ∧ r.IsEnd mat mf send ∧ Rest2 r mat mf rest

theorem Rest2.cons {mat mf mt : Int} {l : Line} {ls : List Str} (hl : r.IsData mat mf mt l) (h : Rest3 r mat mf mt ls) :
    Rest2 r mat mf (l :: ls) := by
  obtain ⟨data, send, rest, rfl, h1, h2, secs, fend, rest', rfl, h3, h4, h5⟩ := h
  refine ⟨⟨mt, l :: data, send⟩ :: secs, fend, rest', ?_, ?_, h4, h5⟩
  · simp [TSec.lines, List.append_assoc]
  · intro s hs
    rw [List.mem_cons] at hs
    rcases hs with rfl | hs
    · refine ⟨by simp, ?_, h2⟩
      intro x hx
      rw [List.mem_cons] at hx
      rcases hx with rfl | hx
      · exact hl
      · exact h1 x hx
    · exact h3 s hs

theorem Rest1.cons {mat mf mt : Int} {l : Line} {ls : List Str} (hl : r.IsData mat mf mt l) (h : Rest3 r mat mf mt ls) :
    Rest1 r mat (l :: ls) := by
  obtain ⟨secs, fend, rest, e, h1, h2, files, mend, rest', rfl, h3, h4, h5⟩ := Rest2.cons r hl h
  have hne : secs ≠ [] := by
    intro hs; subst hs
    simp only [List.map_nil, List.flatten_nil, List.nil_append, List.cons.injEq] at e
    rw [← e.1] at h2
    have := h2.2.1
    rw [hl.2.1] at this
    have := hl.2.2.2.2
    simp_all
  refine ⟨⟨mf, secs, fend⟩ :: files, mend, rest', ?_, ?_, h4, h5⟩
  · rw [e]; simp [TFile.lines, List.append_assoc]
  · intro f hf
    rw [List.mem_cons] at hf
    rcases hf with rfl | hf
    · exact ⟨hne, h1, h2⟩
    · exact h3 f hf

theorem Rest0.cons {mat mf mt : Int} {l : Line} {ls : List Str} (hl : r.IsData mat mf mt l) (h : Rest3 r mat mf mt ls) :
    Rest0 r (l :: ls) := by
  obtain ⟨files, mend, rest, e, h1, h2, mats, tend, trail, rfl, h3, h4, h5⟩ := Rest1.cons r hl h
  have hne : files ≠ [] := by
    intro hs; subst hs
    simp only [List.map_nil, List.flatten_nil, List.nil_append, List.cons.injEq] at e
    rw [← e.1] at h2
    have := h2.2.1
    rw [hl.2.1] at this
    have := hl.2.2.2.2
    simp_all
  refine ⟨⟨mat, files, mend⟩ :: mats, tend, trail, ?_, ?_, h4, h5⟩
  · rw [e]; simp [TMat.lines, List.append_assoc]
  · intro f hf
    rw [List.mem_cons] at hf
    rcases hf with rfl | hf
    · exact ⟨hne, h1, h2⟩
    · exact h3 f hf

/-- remaining text for a state of the automaton -/
def RestAt (level : Int) (last : Ctrl) (ls : List Str) : Prop :=
  (level = -1 ∧ ∀ l ∈ ls, r.blank l) ∨ (level = 0 ∧ Rest0 r ls) ∨ (level = 1 ∧ Rest1 r last.mat ls) ∨
  (level = 2 ∧ Rest2 r last.mat last.mf ls) ∨ (level = 3 ∧ Rest3 r last.mat last.mf last.mt ls)
end

def LevelOk (st : SplitState) : Prop :=
  (st.level = -1 ∨ st.level = 0 ∨ st.level = 1 ∨ st.level = 2 ∨ st.level = 3) ∧
  (1 ≤ st.level → st.last.mat ≠ 0) ∧ (2 ≤ st.level → st.last.mf ≠ 0) ∧ (3 ≤ st.level → st.last.mt ≠ 0)

/-- soundness: an accepted rest has the right structure -/
theorem rest_of_accept (o : ROpts) : ∀ (ls : List Str) (st st' : SplitState), LevelOk st →
    splitLoop (strictOpts o) st ls = .ok st' → st'.level < 0 → RestAt (theReader o) st.level st.last ls := by
  intro ls
  induction ls with
  | nil =>
    intro st st' hok h hlt
    rw [splitLoop] at h; cases h
    left
    refine ⟨?_, by simp⟩
    rcases hok.1 with h | h | h | h | h <;> omega
  | cons l ls ih =>
    intro st st' hok h hlt
    obtain ⟨s1, h1, h2⟩ := (splitLoop_cons _ _ _ _ _).1 h
    rw [splitStep_strict] at h1
    rcases h1 with ⟨hb, hl, rfl⟩ | ⟨hb, hl, c, hc, hcase⟩
    · have := ih s1 st' hok h2 hlt
      rw [hl] at this ⊢
      rcases this with ⟨_, h⟩ | h | h | h | h
      · left
        refine ⟨rfl, ?_⟩
        intro x hx
        rw [List.mem_cons] at hx
        rcases hx with rfl | hx
        · exact hb
        · exact h x hx
      all_goals (exfalso; have := h.1; omega)
    · have hctrl : (theReader o).ctrl l = some (c.mat, c.mf, c.mt) := theReader_ctrl.2 hc
      rcases hcase with ⟨m1, m2, m3, hreg, rfl⟩ | ⟨hnr, hend, hz, hmt, rfl⟩
      · have hok' : LevelOk ⟨addLine c.mf c.mt l st.dic, 3, c⟩ :=
          ⟨by simp, fun _ => m1, fun _ => m2, fun _ => m3⟩
        have hrest := ih _ st' hok' h2 hlt
        have h3 : Rest3 (theReader o) c.mat c.mf c.mt ls := by
          rcases hrest with h | h | h | h | h
          · exact absurd h.1 (by simp)
          · exact absurd h.1 (by simp)
          · exact absurd h.1 (by simp)
          · exact absurd h.1 (by simp)
          · exact h.2
        have hdata : (theReader o).IsData c.mat c.mf c.mt l := ⟨hb, hctrl, m1, m2, m3⟩
        unfold regularOk at hreg
        simp only [Bool.and_eq_true, Bool.not_eq_true', Bool.and_eq_false_iff, decide_eq_false_iff_not, not_not] at hreg
        rcases hok.1 with h | h | h | h | h
        · exact absurd h hl
        · exact Or.inr (Or.inl ⟨h, Rest0.cons _ hdata h3⟩)
        · refine Or.inr (Or.inr (Or.inl ⟨h, ?_⟩))
          have e1 : st.last.mat = c.mat := hreg.2.resolve_left (by omega)
          rw [e1]; exact Rest1.cons _ hdata h3
        · refine Or.inr (Or.inr (Or.inr (Or.inl ⟨h, ?_⟩)))
          have e1 : st.last.mat = c.mat := hreg.2.resolve_left (by omega)
          have e2 : st.last.mf = c.mf := hreg.1.2.resolve_left (by omega)
          rw [e1, e2]; exact Rest2.cons _ hdata h3
        · refine Or.inr (Or.inr (Or.inr (Or.inr ⟨h, ?_⟩)))
          have e1 : st.last.mat = c.mat := hreg.2.resolve_left (by omega)
          have e2 : st.last.mf = c.mf := hreg.1.2.resolve_left (by omega)
          have e3 : st.last.mt = c.mt := hreg.1.1.resolve_left (by omega)
          rw [e1, e2, e3]
          obtain ⟨data, send, rest, rfl, g1, g2, g3⟩ := h3
          refine ⟨l :: data, send, rest, rfl, ?_, g2, g3⟩
          intro x hx
          rw [List.mem_cons] at hx
          rcases hx with rfl | hx
          · exact hdata
          · exact g1 x hx
      · unfold endOk at hend
        simp only [Bool.and_eq_true, Bool.not_eq_true', Bool.and_eq_false_iff, decide_eq_false_iff_not, not_not] at hend
        obtain ⟨⟨⟨⟨e1, e2⟩, e3⟩, e4⟩, e5⟩ := hend
        have hok' : LevelOk { st with level := st.level - 1 } := by
          refine ⟨?_, ?_, ?_, ?_⟩
          · rcases hok.1 with h | h | h | h | h
            · exact absurd h hl
            all_goals (dsimp only; omega)
          · intro hh; exact hok.2.1 (by dsimp only at hh; omega)
          · intro hh; exact hok.2.2.1 (by dsimp only at hh; omega)
          · intro hh; exact hok.2.2.2 (by dsimp only at hh; omega)
        have hrest := ih _ st' hok' h2 hlt
        rw [hmt] at hctrl
        dsimp only at hrest
        rcases hok.1 with h | h | h | h | h
        · exact absurd h hl
        · refine Or.inr (Or.inl ⟨h, ?_⟩)
          have f1 : c.mat = -1 := e5.resolve_left (by omega)
          have f2 : c.mf = 0 := e4.resolve_left (by omega)
          rw [f1, f2] at hctrl
          have hbl : ∀ x ∈ ls, (theReader o).blank x := by
            rcases hrest with h' | h' | h' | h' | h'
            · exact h'.2
            all_goals (exfalso; have := h'.1; omega)
          exact ⟨[], l, ls, rfl, by simp, ⟨hb, hctrl, hz⟩, hbl⟩
        · refine Or.inr (Or.inr (Or.inl ⟨h, ?_⟩))
          have f1 : c.mat = 0 := e2.resolve_left (by omega)
          have f2 : c.mf = 0 := e4.resolve_left (by omega)
          rw [f1, f2] at hctrl
          have hr0 : Rest0 (theReader o) ls := by
            rcases hrest with h' | h' | h' | h' | h'
            · exfalso; have := h'.1; omega
            · exact h'.2
            all_goals (exfalso; have := h'.1; omega)
          exact ⟨[], l, ls, rfl, by simp, ⟨hb, hctrl, hz⟩, hr0⟩
        · refine Or.inr (Or.inr (Or.inr (Or.inl ⟨h, ?_⟩)))
          have f1 : c.mat = st.last.mat := e1.resolve_left (by omega)
          have f2 : c.mf = 0 := e4.resolve_left (by omega)
          rw [f1, f2] at hctrl
          have hr1 : Rest1 (theReader o) st.last.mat ls := by
            rcases hrest with h' | h' | h' | h' | h'
            · exfalso; have := h'.1; omega
            · exfalso; have := h'.1; omega
            · exact h'.2
            all_goals (exfalso; have := h'.1; omega)
          exact ⟨[], l, ls, rfl, by simp, ⟨hb, hctrl, hz⟩, hr1⟩
        · refine Or.inr (Or.inr (Or.inr (Or.inr ⟨h, ?_⟩)))
          have f1 : c.mat = st.last.mat := e1.resolve_left (by omega)
          have f2 : c.mf = st.last.mf := e3.resolve_left (by omega)
          rw [f1, f2] at hctrl
          have hr2 : Rest2 (theReader o) st.last.mat st.last.mf ls := by
            rcases hrest with h' | h' | h' | h' | h'
            · exfalso; have := h'.1; omega
            · exfalso; have := h'.1; omega
            · exfalso; have := h'.1; omega
            · exact h'.2
            · exfalso; have := h'.1; omega
          exact ⟨[], l, ls, rfl, by simp, ⟨hb, hctrl, hz⟩, hr2⟩

/-! ### completeness -/

theorem step_data {o : ROpts} {st : SplitState} {l : Str} {mat mf mt : Int}
    (hl : (theReader o).IsData mat mf mt l) (hlev : st.level ≠ -1) (hreg : regularOk st ⟨mat, mf, mt⟩ = true) :
    splitStep (strictOpts o) st l = .ok ⟨addLine mf mt l st.dic, 3, ⟨mat, mf, mt⟩⟩ := by
  rw [splitStep_strict]
  exact Or.inr ⟨hl.1, hlev, ⟨mat, mf, mt⟩, theReader_ctrl.1 hl.2.1, Or.inl ⟨hl.2.2.1, hl.2.2.2.1, hl.2.2.2.2, hreg, rfl⟩⟩

theorem step_end {o : ROpts} {st : SplitState} {l : Str} {mat mf : Int}
    (hl : (theReader o).IsEnd mat mf l) (hlev : st.level ≠ -1) (he : endOk st ⟨mat, mf, 0⟩ = true) :
    splitStep (strictOpts o) st l = .ok { st with level := st.level - 1 } := by
  rw [splitStep_strict]
  exact Or.inr ⟨hl.1, hlev, ⟨mat, mf, 0⟩, theReader_ctrl.1 hl.2.1, Or.inr ⟨by simp, he, hl.2.2, rfl, rfl⟩⟩

theorem loop_data {o : ROpts} {mat mf mt : Int} : ∀ (ls : List Str) (st : SplitState),
    (∀ l ∈ ls, (theReader o).IsData mat mf mt l) → st.level = 3 → st.last = ⟨mat, mf, mt⟩ →
    ∃ d, splitLoop (strictOpts o) st ls = .ok ⟨d, 3, ⟨mat, mf, mt⟩⟩
  | [], st, _, h3, hlast => ⟨st.dic, by cases st; simp_all [splitLoop]⟩
  | l :: ls, st, h, h3, hlast => by
    have h1 := step_data (st := st) (h l (by simp)) (by omega) (by simp [regularOk, hlast])
    obtain ⟨d, hd⟩ := loop_data ls ⟨addLine mf mt l st.dic, 3, ⟨mat, mf, mt⟩⟩ (fun x hx => h x (by simp [hx])) rfl rfl
    exact ⟨d, (splitLoop_cons _ _ _ _ _).2 ⟨_, h1, hd⟩⟩

theorem loop_sec {o : ROpts} {mat mf : Int} {s : TSec} (hs : s.WF (theReader o) mat mf) (st : SplitState)
    (hlev : st.level = 0 ∨ (st.level = 1 ∧ st.last.mat = mat) ∨ (st.level = 2 ∧ st.last.mat = mat ∧ st.last.mf = mf)) :
    ∃ d, splitLoop (strictOpts o) st s.lines = .ok ⟨d, 2, ⟨mat, mf, s.mt⟩⟩ := by
  obtain ⟨hne, hdata, hend⟩ := hs
  obtain ⟨l, ls, hls⟩ := List.exists_cons_of_ne_nil hne
  rw [hls] at hdata
  have h1 := step_data (st := st) (hdata l (by simp)) (by omega) (by
    simp only [regularOk, Bool.and_eq_true, Bool.not_eq_true', Bool.and_eq_false_iff, decide_eq_false_iff_not, not_not]
    rcases hlev with h | ⟨h, e1⟩ | ⟨h, e1, e2⟩
    · exact ⟨⟨Or.inl (by omega), Or.inl (by omega)⟩, Or.inl (by omega)⟩
    · exact ⟨⟨Or.inl (by omega), Or.inl (by omega)⟩, Or.inr e1⟩
    · exact ⟨⟨Or.inl (by omega), Or.inr e2⟩, Or.inr e1⟩)
  obtain ⟨d, hd⟩ := loop_data ls ⟨addLine mf s.mt l st.dic, 3, ⟨mat, mf, s.mt⟩⟩ (fun x hx => hdata x (by simp [hx])) rfl rfl
  have h2 := step_end (st := ⟨d, 3, ⟨mat, mf, s.mt⟩⟩) hend (by simp) (by simp [endOk])
  refine ⟨d, ?_⟩
  unfold TSec.lines
  rw [hls, List.cons_append, splitLoop_cons]
  refine ⟨_, h1, (splitLoop_append _ _ _ _ _).2 ⟨_, hd, (splitLoop_cons _ _ _ _ _).2 ⟨_, h2, ?_⟩⟩⟩
  simp [splitLoop]

theorem loop_secs {o : ROpts} {mat mf : Int} : ∀ (ss : List TSec) (st : SplitState),
    (∀ s ∈ ss, s.WF (theReader o) mat mf) → st.level = 2 → st.last.mat = mat → st.last.mf = mf →
    ∃ d mt, splitLoop (strictOpts o) st (ss.map TSec.lines).flatten = .ok ⟨d, 2, ⟨mat, mf, mt⟩⟩
  | [], st, _, h2, hm, hf => ⟨st.dic, st.last.mt, by
      obtain ⟨d, lv, ⟨a, b, c⟩⟩ := st
      dsimp only at h2 hm hf
      subst h2 hm hf
      simp [splitLoop]⟩
  | s :: ss, st, h, h2, hm, hf => by
    obtain ⟨d, hd⟩ := loop_sec (h s (by simp)) st (Or.inr (Or.inr ⟨h2, hm, hf⟩))
    obtain ⟨d', mt, hd'⟩ := loop_secs ss ⟨d, 2, ⟨mat, mf, s.mt⟩⟩ (fun x hx => h x (by simp [hx])) rfl rfl rfl
    refine ⟨d', mt, ?_⟩
    rw [List.map_cons, List.flatten_cons, splitLoop_append]
    exact ⟨_, hd, hd'⟩

theorem loop_file {o : ROpts} {mat : Int} {f : TFile} (hf : f.WF (theReader o) mat) (st : SplitState)
    (hlev : st.level = 0 ∨ (st.level = 1 ∧ st.last.mat = mat)) :
    ∃ d mf mt, splitLoop (strictOpts o) st f.lines = .ok ⟨d, 1, ⟨mat, mf, mt⟩⟩ := by
  obtain ⟨hne, hsecs, hend⟩ := hf
  obtain ⟨s, ss, hss⟩ := List.exists_cons_of_ne_nil hne
  rw [hss] at hsecs
  obtain ⟨d, hd⟩ := loop_sec (hsecs s (by simp)) st (by rcases hlev with h | h; exact Or.inl h; exact Or.inr (Or.inl h))
  obtain ⟨d', mt, hd'⟩ := loop_secs ss ⟨d, 2, ⟨mat, f.mf, s.mt⟩⟩ (fun x hx => hsecs x (by simp [hx])) rfl rfl rfl
  have h2 := step_end (st := ⟨d', 2, ⟨mat, f.mf, mt⟩⟩) hend (by simp) (by simp [endOk])
  refine ⟨d', f.mf, mt, ?_⟩
  unfold TFile.lines
  rw [hss, List.map_cons, List.flatten_cons, List.append_assoc, splitLoop_append]
  refine ⟨_, hd, (splitLoop_append _ _ _ _ _).2 ⟨_, hd', (splitLoop_cons _ _ _ _ _).2 ⟨_, h2, ?_⟩⟩⟩
  simp [splitLoop]

theorem loop_files {o : ROpts} {mat : Int} : ∀ (fs : List TFile) (st : SplitState),
    (∀ f ∈ fs, f.WF (theReader o) mat) → st.level = 1 → st.last.mat = mat →
    ∃ d mf mt, splitLoop (strictOpts o) st (fs.map TFile.lines).flatten = .ok ⟨d, 1, ⟨mat, mf, mt⟩⟩
  | [], st, _, h2, hm => ⟨st.dic, st.last.mf, st.last.mt, by
      obtain ⟨d, lv, ⟨a, b, c⟩⟩ := st
      dsimp only at h2 hm
      subst h2 hm
      simp [splitLoop]⟩
  | f :: fs, st, h, h2, hm => by
    obtain ⟨d, a, b, hd⟩ := loop_file (h f (by simp)) st (Or.inr ⟨h2, hm⟩)
    obtain ⟨d', mf, mt, hd'⟩ := loop_files fs ⟨d, 1, ⟨mat, a, b⟩⟩ (fun x hx => h x (by simp [hx])) rfl rfl
    refine ⟨d', mf, mt, ?_⟩
    rw [List.map_cons, List.flatten_cons, splitLoop_append]
    exact ⟨_, hd, hd'⟩

theorem loop_mat {o : ROpts} {m : TMat} (hm : m.WF (theReader o)) (st : SplitState) (hlev : st.level = 0) :
    ∃ d c, splitLoop (strictOpts o) st m.lines = .ok ⟨d, 0, c⟩ := by
  obtain ⟨hne, hfs, hend⟩ := hm
  obtain ⟨f, fs, hff⟩ := List.exists_cons_of_ne_nil hne
  rw [hff] at hfs
  obtain ⟨d, a, b, hd⟩ := loop_file (hfs f (by simp)) st (Or.inl hlev)
  obtain ⟨d', mf, mt, hd'⟩ := loop_files fs ⟨d, 1, ⟨m.mat, a, b⟩⟩ (fun x hx => hfs x (by simp [hx])) rfl rfl
  have h2 := step_end (st := ⟨d', 1, ⟨m.mat, mf, mt⟩⟩) hend (by simp) (by simp [endOk])
  refine ⟨d', ⟨m.mat, mf, mt⟩, ?_⟩
  unfold TMat.lines
  rw [hff, List.map_cons, List.flatten_cons, List.append_assoc, splitLoop_append]
  refine ⟨_, hd, (splitLoop_append _ _ _ _ _).2 ⟨_, hd', (splitLoop_cons _ _ _ _ _).2 ⟨_, h2, ?_⟩⟩⟩
  simp only [splitLoop]
  rfl

theorem loop_mats {o : ROpts} : ∀ (ms : List TMat) (st : SplitState),
    (∀ m ∈ ms, m.WF (theReader o)) → st.level = 0 →
    ∃ d c, splitLoop (strictOpts o) st (ms.map TMat.lines).flatten = .ok ⟨d, 0, c⟩
  | [], st, _, h0 => ⟨st.dic, st.last, by
      obtain ⟨d, lv, c⟩ := st
      dsimp only at h0
      subst h0
      simp [splitLoop]⟩
  | m :: ms, st, h, h0 => by
    obtain ⟨d, c, hd⟩ := loop_mat (h m (by simp)) st h0
    obtain ⟨d', c', hd'⟩ := loop_mats ms ⟨d, 0, c⟩ (fun x hx => h x (by simp [hx])) rfl
    refine ⟨d', c', ?_⟩
    rw [List.map_cons, List.flatten_cons, splitLoop_append]
    exact ⟨_, hd, hd'⟩

theorem loop_blank {o : ROpts} : ∀ (ls : List Str) (st : SplitState),
    (∀ l ∈ ls, (theReader o).blank l) → st.level = -1 → splitLoop (strictOpts o) st ls = .ok st
  | [], st, _, _ => rfl
  | l :: ls, st, h, hl => by
    rw [splitLoop_cons]
    refine ⟨st, ?_, loop_blank ls st (fun x hx => h x (by simp [hx])) hl⟩
    rw [splitStep_strict]
    exact Or.inl ⟨h l (by simp), hl, rfl⟩

/-- completeness: a rest with the right structure is accepted -/
theorem accept_of_rest {o : ROpts} {ls : List Str} (h : Rest0 (theReader o) ls) (st : SplitState)
    (hlev : st.level = 0) : ∃ st', splitLoop (strictOpts o) st ls = .ok st' ∧ st'.level = -1 := by
  obtain ⟨mats, tend, trail, rfl, h1, h2, h3⟩ := h
  obtain ⟨d, c, hd⟩ := loop_mats mats st h1 hlev
  have h4 := step_end (st := ⟨d, 0, c⟩) h2 (by simp) (by simp [endOk])
  refine ⟨⟨d, -1, c⟩, ?_, rfl⟩
  rw [splitLoop_append]
  exact ⟨_, hd, (splitLoop_cons _ _ _ _ _).2 ⟨_, h4, loop_blank trail _ h3 rfl⟩⟩

end Verif
