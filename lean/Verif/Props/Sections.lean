import Verif.Lemmas.Sections
/-
C21-C24: the section splitter.
-/
namespace Verif
open Spec

/-! ### C21 -/

/-- **C21** In strict mode the splitter accepts a file iff the file has the tape structure. -/
theorem C21_structure (o : ROpts) (lines : List Str) :
    (∃ d, splitSections { fields := o } lines = .ok d) ↔ ∃ t : Tape, t.lines = lines ∧ t.WF (theReader o) := by
  constructor
  · rintro ⟨d, h⟩
    unfold splitSections at h
    cases lines with
    | nil => simp [splitLead, bind, Except.bind] at h
    | cons l ls =>
      by_cases hb : strip l = []
      · simp [splitLead, hb, bind, Except.bind] at h
      · simp only [splitLead, hb, if_false, bind, Except.bind] at h
        cases hc : readCtrl o.width l with
        | error e => simp [hc] at h
        | ok c =>
          simp only [hc] at h
          by_cases hm : c.mf ≠ 0 ∨ c.mt ≠ 0
          · simp [hm] at h
          · rw [if_neg hm] at h
            push Not at hm
            cases hl : splitLoop { fields := o } ⟨addLine c.mf c.mt ((l :: ls).headD []) [], 0, ⟨0, 0, 0⟩⟩ ls with
            | error e => rw [hl] at h; simp at h
            | ok st =>
              rw [hl] at h
              simp only [Bool.not_false, Bool.true_and, decide_eq_true_eq] at h
              split at h
              · cases h
              · rename_i hlt
                have hr := rest_of_accept o ls ⟨addLine c.mf c.mt ((l :: ls).headD []) [], 0, ⟨0, 0, 0⟩⟩ st
                  ⟨by simp, by simp, by simp, by simp⟩ hl (by omega)
                have h0 : Rest0 (theReader o) ls := by
                  rcases hr with h' | h' | h' | h' | h'
                  · exact absurd h'.1 (by simp)
                  · exact h'.2
                  · exact absurd h'.1 (by simp)
                  · exact absurd h'.1 (by simp)
                  · exact absurd h'.1 (by simp)
                obtain ⟨mats, tend, trail, rfl, a1, a2, a3⟩ := h0
                refine ⟨⟨l, mats, tend, trail⟩, rfl, ⟨hb, c.mat, ?_⟩, a1, a2, a3⟩
                rw [theReader_ctrl, hc]; obtain ⟨x, y, z⟩ := c; simp_all
  · rintro ⟨t, rfl, ⟨hb, mat, hc⟩, h1, h2, h3⟩
    obtain ⟨st', hs, hl⟩ := accept_of_rest (o := o) ⟨t.mats, t.tend, t.trail, rfl, h1, h2, h3⟩
      ⟨addLine 0 0 t.tpid [], 0, ⟨0, 0, 0⟩⟩ rfl
    refine ⟨st'.dic, ?_⟩
    have hb' : strip t.tpid ≠ [] := hb
    unfold splitSections Tape.lines
    simp only [splitLead, hb', if_false, bind, Except.bind, theReader_ctrl.1 hc]
    simp only [ne_eq, not_true_eq_false, or_self, if_false, List.headD_cons]
    unfold strictOpts at hs
    rw [hs]
    simp [hl]

/-- **C12** An end record is recognised iff all six fields are read as zero and MT is zero. -/
theorem C12_send_exact (o : ROpts) (l : Str) (c : Ctrl) (hc : readCtrl o.width l = .ok c) :
    (∃ p, readSend o [l] 0 = .ok p) ↔ (theReader o).zero l ∧ c.mt = 0 := readSend_iff o l c hc

/-! ### C22 -/

/-- the entry for an MF/MT pair -/
def secOf (d : MfDic) (mf mt : Int) : Option (List Str) := (dGet mf d).bind (dGet mt)

/-- the line is a data line with these MF and MT numbers -/
def carries (w : Nat) (mf mt : Int) (l : Str) : Bool :=
  match readCtrl w l with
  | .ok c => decide (strip l ≠ []) && decide (c.mat ≠ 0) && decide (c.mf = mf) && decide (c.mt = mt) &&
      decide (mf ≠ 0) && decide (mt ≠ 0)
  | .error _ => false

theorem carries_iff (o : ROpts) (mf mt : Int) (l : Str) :
    carries o.width mf mt l = true ↔ ∃ mat, (theReader o).IsData mat mf mt l := by
  unfold carries LineReader.IsData
  cases h : readCtrl o.width l with
  | error e =>
    simp only [Bool.false_eq_true, false_iff, not_exists]
    rintro mat ⟨_, h', _⟩
    rw [theReader_ctrl, h] at h'
    cases h'
  | ok c =>
    simp only [Bool.and_eq_true, decide_eq_true_eq]
    constructor
    · rintro ⟨⟨⟨⟨⟨h1, h2⟩, rfl⟩, rfl⟩, h5⟩, h6⟩
      exact ⟨c.mat, h1, theReader_ctrl.2 h, h2, h5, h6⟩
    · rintro ⟨mat, h1, h2, h3, h4, h5⟩
      rw [theReader_ctrl, h] at h2
      have h2' := Except.ok.inj h2
      subst h2'
      exact ⟨⟨⟨⟨⟨h1, h3⟩, rfl⟩, rfl⟩, h4⟩, h5⟩

theorem secOf_addLine (d : MfDic) (a b mf mt : Int) (l : Str) :
    secOf (addLine a b l d) mf mt = if mf = a ∧ mt = b then some ((secOf d a b).getD [] ++ [l]) else secOf d mf mt := by
  unfold secOf addLine
  dsimp only
  by_cases h1 : mf = a
  · subst h1
    rw [dGet_dSet_self, Option.bind_some]
    by_cases h2 : mt = b
    · subst h2
      rw [dGet_dSet_self, if_pos ⟨rfl, rfl⟩]
      cases dGet mf d <;> rfl
    · rw [dGet_dSet_ne (h := Ne.symm h2), if_neg (by simp [h2])]
      cases dGet mf d <;> simp [dGet]
  · rw [dGet_dSet_ne (h := Ne.symm h1), if_neg (by simp [h1])]

/-- list as dictionary entry: no entry for the empty list -/
def entry (ls : List Str) : Option (List Str) := if ls = [] then none else some ls

theorem entry_snoc (ls : List Str) (l : Str) : entry (ls ++ [l]) = some ((entry ls).getD [] ++ [l]) := by
  unfold entry
  by_cases h : ls = [] <;> simp [h]

theorem splitStep_dic {o : SplitOpts} {st st' : SplitState} {l : Str} (h : splitStep o st l = .ok st') :
    (∃ c, readCtrl o.fields.width l = .ok c ∧ strip l ≠ [] ∧ c.mat ≠ 0 ∧ c.mf ≠ 0 ∧ c.mt ≠ 0 ∧
        st'.dic = addLine c.mf c.mt l st.dic) ∨
      ((∀ mf mt, carries o.fields.width mf mt l = false) ∧ st'.dic = st.dic) := by
  have hnb : strip l = [] → ∀ mf mt, carries o.fields.width mf mt l = false := by
    intro hb mf mt; unfold carries; cases readCtrl o.fields.width l <;> simp [hb]
  unfold splitStep at h
  by_cases hb : strip l = []
  · simp only [hb, if_true] at h
    right
    refine ⟨hnb hb, ?_⟩
    split at h
    · cases h; rfl
    · split at h
      · cases h; rfl
      · cases h
  · simp only [hb, if_false] at h
    split at h
    · cases h
    · cases hc : readCtrl o.fields.width l with
      | error e => rw [hc] at h; simp [bind, Except.bind] at h
      | ok c =>
        rw [hc] at h
        simp only [bind, Except.bind] at h
        by_cases hr : c.mat ≠ 0 ∧ c.mf ≠ 0 ∧ c.mt ≠ 0
        · rw [if_pos hr] at h
          split at h
          · cases h
          · cases h
            exact Or.inl ⟨c, rfl, hb, hr.1, hr.2.1, hr.2.2, rfl⟩
        · rw [if_neg hr] at h
          right
          constructor
          · intro mf mt
            unfold carries
            rw [hc]
            by_contra hn
            simp only [Bool.not_eq_false, Bool.and_eq_true, decide_eq_true_eq] at hn
            obtain ⟨⟨⟨⟨⟨_, h1⟩, h2⟩, h3⟩, h4⟩, h5⟩ := hn
            exact hr ⟨h1, h2 ▸ h4, h3 ▸ h5⟩
          · split at h
            · cases h; rfl
            · split at h
              · cases h
              · split at h
                · cases h
                · cases h; rfl

theorem splitLoop_dic {o : SplitOpts} : ∀ (ls : List Str) (st st' : SplitState) (seen : List Str),
    splitLoop o st ls = .ok st' → ∀ mf mt, mf ≠ 0 → mt ≠ 0 → 
    secOf st.dic mf mt = entry (seen.filter (carries o.fields.width mf mt)) →
    secOf st'.dic mf mt = entry ((seen ++ ls).filter (carries o.fields.width mf mt)) := by
  intro ls
  induction ls with
  | nil => intro st st' seen h mf mt _ _ hd; rw [splitLoop] at h; cases h; simpa using hd
  | cons l ls ih =>
    intro st st' seen h mf mt hf ht hd
    obtain ⟨s1, h1, h2⟩ := (splitLoop_cons _ _ _ _ _).1 h
    have := ih s1 st' (seen ++ [l]) h2 mf mt hf ht ?_
    · simpa using this
    · rcases splitStep_dic h1 with ⟨c, hc, hb, a1, a2, a3, e⟩ | ⟨hn, e⟩
      · rw [e, secOf_addLine]
        by_cases hm : mf = c.mf ∧ mt = c.mt
        · rw [if_pos hm, List.filter_append]
          have hcar : carries o.fields.width mf mt l = true := by
            unfold carries; rw [hc]; simp [hb, a1, hm, a2, a3]
          rw [List.filter_cons_of_pos hcar, List.filter_nil, entry_snoc, ← hd, hm.1, hm.2]
        · rw [if_neg hm, List.filter_append]
          have hcar : ¬ carries o.fields.width mf mt l = true := by
            unfold carries; rw [hc]
            simp only [Bool.and_eq_true, decide_eq_true_eq]
            rintro ⟨⟨⟨⟨⟨_, _⟩, h2⟩, h3⟩, _⟩, _⟩
            exact hm ⟨h2.symm, h3.symm⟩
          rw [List.filter_cons_of_neg hcar, List.filter_nil, List.append_nil, hd]
      · rw [e, List.filter_append, List.filter_cons_of_neg (by rw [hn]; simp), List.filter_nil, List.append_nil, hd]

theorem splitLoop_dic_zero {o : SplitOpts} : ∀ (ls : List Str) (st st' : SplitState),
    splitLoop o st ls = .ok st' → ∀ mf mt, (mf = 0 ∨ mt = 0) → secOf st'.dic mf mt = secOf st.dic mf mt := by
  intro ls
  induction ls with
  | nil => intro st st' h mf mt _; rw [splitLoop] at h; cases h; rfl
  | cons l ls ih =>
    intro st st' h mf mt hf
    obtain ⟨s1, h1, h2⟩ := (splitLoop_cons _ _ _ _ _).1 h
    rw [ih s1 st' h2 mf mt hf]
    rcases splitStep_dic h1 with ⟨c, _, _, a1, a2, a3, e⟩ | ⟨_, e⟩
    · rw [e, secOf_addLine, if_neg]
      rintro ⟨rfl, rfl⟩
      rcases hf with h | h
      · exact a2 h
      · exact a3 h
    · rw [e]

theorem splitLead_ok {o : SplitOpts} : ∀ {lines ls : List Str}, splitLead o lines = .ok ls →
    ∃ pre l rest, lines = pre ++ ls ∧ ls = l :: rest ∧ strip l ≠ [] ∧ (∀ x ∈ pre, strip x = []) ∧
      (pre ≠ [] → o.ignoreBlank = true)
  | [], ls, h => by simp [splitLead] at h
  | l :: rest, ls, h => by
    unfold splitLead at h
    by_cases hb : strip l = []
    · rw [if_pos hb] at h
      split at h
      · obtain ⟨pre, l', r', e1, e2, e3, e4, e5⟩ := splitLead_ok h
        rename_i hi
        refine ⟨l :: pre, l', r', by rw [e1]; rfl, e2, e3, ?_, fun _ => hi⟩
        intro x hx
        rw [List.mem_cons] at hx
        rcases hx with rfl | hx
        · exact hb
        · exact e4 x hx
      · cases h
    · rw [if_neg hb] at h
      cases h
      exact ⟨[], l, rest, rfl, rfl, hb, by simp, by simp⟩

/-- what a successful call did -/
theorem splitSections_ok {o : SplitOpts} {lines : List Str} {d : MfDic} (h : splitSections o lines = .ok d) :
    ∃ pre l rest c st, lines = pre ++ l :: rest ∧ (∀ x ∈ pre, strip x = []) ∧ strip l ≠ [] ∧
      readCtrl o.fields.width l = .ok c ∧ st.dic = d ∧ (o.ignoreSend = false → st.level < 0) ∧
      (((c.mf ≠ 0 ∨ c.mt ≠ 0) ∧ o.ignoreTpid = true ∧ splitLoop o ⟨[], 0, ⟨0, 0, 0⟩⟩ (l :: rest) = .ok st) ∨
       (c.mf = 0 ∧ c.mt = 0 ∧ splitLoop o ⟨addLine 0 0 (lines.headD []) [], 0, ⟨0, 0, 0⟩⟩ rest = .ok st)) := by
  unfold splitSections at h
  cases hl : splitLead o lines with
  | error e => rw [hl] at h; simp [bind, Except.bind] at h
  | ok ls =>
    obtain ⟨pre, l, rest, e1, rfl, e3, e4, _⟩ := splitLead_ok hl
    rw [hl] at h
    simp only [bind, Except.bind] at h
    cases hc : readCtrl o.fields.width l with
    | error e => rw [hc] at h; simp at h
    | ok c =>
      rw [hc] at h
      dsimp only at h
      by_cases hm : c.mf ≠ 0 ∨ c.mt ≠ 0
      · rw [if_pos hm] at h
        cases ht : o.ignoreTpid with
        | false => simp [ht] at h
        | true =>
          simp only [ht, Bool.not_true, if_neg Bool.false_ne_true] at h
          cases hs : splitLoop o ⟨[], 0, ⟨0, 0, 0⟩⟩ (l :: rest) with
          | error e => rw [hs] at h; simp at h
          | ok st =>
            rw [hs] at h
            dsimp only at h
            split at h
            · cases h
            · rename_i hlev
              cases h
              refine ⟨pre, l, rest, c, st, e1, e4, e3, hc, rfl, ?_, Or.inl ⟨hm, rfl, hs⟩⟩
              intro hi
              simp [hi] at hlev
              exact hlev
      · rw [if_neg hm] at h
        push Not at hm
        rw [hm.1, hm.2] at h
        cases hs : splitLoop o ⟨addLine 0 0 (lines.headD []) [], 0, ⟨0, 0, 0⟩⟩ rest with
        | error e => rw [hs] at h; simp at h
        | ok st =>
          rw [hs] at h
          dsimp only at h
          split at h
          · cases h
          · rename_i hlev
            cases h
            refine ⟨pre, l, rest, c, st, e1, e4, e3, hc, rfl, ?_, Or.inr ⟨hm.1, hm.2, hs⟩⟩
            intro hi
            simp [hi] at hlev
            exact hlev

theorem filter_blank (w : Nat) (mf mt : Int) (pre : List Str) (h : ∀ x ∈ pre, strip x = []) :
    pre.filter (carries w mf mt) = [] := by
  rw [List.filter_eq_nil_iff]
  intro x hx
  unfold carries
  cases readCtrl w x <;> simp [h x hx]

/-- **C22** Under all options: whenever the splitter succeeds, the entry of every MF/MT pair consists of exactly the
data lines of the file with these numbers, in file order; there is no entry if there is no such line. -/
theorem C22_sections (o : SplitOpts) (lines : List Str) (d : MfDic) (h : splitSections o lines = .ok d)
    (mf mt : Int) (hmf : mf ≠ 0) (hmt : mt ≠ 0) :
    secOf d mf mt = entry (lines.filter (carries o.fields.width mf mt)) := by
  obtain ⟨pre, l, rest, c, st, rfl, hpre, hb, hc, rfl, _, hcase⟩ := splitSections_ok h
  rw [List.filter_append, filter_blank _ _ _ _ hpre, List.nil_append]
  rcases hcase with ⟨_, _, hs⟩ | ⟨h1, h2, hs⟩
  · exact splitLoop_dic (l :: rest) ⟨[], 0, ⟨0, 0, 0⟩⟩ st [] hs mf mt hmf hmt (by simp [secOf, dGet, entry])
  · have hn : ¬ carries o.fields.width mf mt l = true := by
      unfold carries; rw [hc]
      simp only [Bool.and_eq_true, decide_eq_true_eq]
      rintro ⟨⟨⟨⟨⟨_, _⟩, h⟩, _⟩, _⟩, _⟩
      exact hmf (by rw [← h, h1])
    rw [List.filter_cons_of_neg hn]
    exact splitLoop_dic rest _ st [] hs mf mt hmf hmt (by
      rw [secOf_addLine, if_neg (by simp [hmf])]; simp [secOf, dGet, entry])

/-- **C22** There are no other sections: besides the data sections the result only has the tape head, filed under
MF=0/MT=0, and it is a single line. -/
theorem C22_head (o : SplitOpts) (lines : List Str) (d : MfDic) (h : splitSections o lines = .ok d)
    (mf mt : Int) (hz : mf = 0 ∨ mt = 0) :
    secOf d mf mt = none ∨ (mf = 0 ∧ mt = 0 ∧ ∃ l, lines.head? = some l ∧ secOf d mf mt = some [l]) := by
  obtain ⟨pre, l, rest, c, st, hlines, hpre, hb, hc, rfl, _, hcase⟩ := splitSections_ok h
  rcases hcase with ⟨_, _, hs⟩ | ⟨h1, h2, hs⟩
  · left
    rw [splitLoop_dic_zero _ _ _ hs mf mt hz]
    rfl
  · rw [splitLoop_dic_zero _ _ _ hs mf mt hz, secOf_addLine]
    by_cases h0 : mf = 0 ∧ mt = 0
    · right
      rw [if_pos h0]
      refine ⟨h0.1, h0.2, lines.headD [], ?_, rfl⟩
      cases lines with
      | nil => simp at hlines
      | cons x xs => rfl
    · left; rw [if_neg h0]; rfl

/-- **C22** In strict mode no line at all is dropped: the lines of the file are the tape head, the data lines, end
records with zero fields, and blank lines. -/
theorem C22_strict_nothing_else (o : ROpts) (lines : List Str) (d : MfDic)
    (h : splitSections { fields := o } lines = .ok d) :
    ∀ l ∈ lines.tail, (∃ mf mt, mf ≠ 0 ∧ mt ≠ 0 ∧ carries o.width mf mt l = true) ∨
      (∃ mat mf, (theReader o).IsEnd mat mf l) ∨ strip l = [] := by
  obtain ⟨t, rfl, _, h1, h2, h3⟩ := (C21_structure o lines).1 ⟨d, h⟩
  intro l hl
  unfold Tape.lines at hl
  rw [List.tail_cons, List.mem_append, List.mem_cons] at hl
  rcases hl with hl | rfl | hl
  · rw [List.mem_flatten] at hl
    obtain ⟨x, hx, hl⟩ := hl
    rw [List.mem_map] at hx
    obtain ⟨m, hm, rfl⟩ := hx
    obtain ⟨_, hfs, hme⟩ := h1 m hm
    unfold TMat.lines at hl
    rw [List.mem_append, List.mem_singleton] at hl
    rcases hl with hl | rfl
    · rw [List.mem_flatten] at hl
      obtain ⟨x, hx, hl⟩ := hl
      rw [List.mem_map] at hx
      obtain ⟨f, hf, rfl⟩ := hx
      obtain ⟨_, hss, hfe⟩ := hfs f hf
      unfold TFile.lines at hl
      rw [List.mem_append, List.mem_singleton] at hl
      rcases hl with hl | rfl
      · rw [List.mem_flatten] at hl
        obtain ⟨x, hx, hl⟩ := hl
        rw [List.mem_map] at hx
        obtain ⟨s, hs, rfl⟩ := hx
        obtain ⟨_, hda, hse⟩ := hss s hs
        unfold TSec.lines at hl
        rw [List.mem_append, List.mem_singleton] at hl
        rcases hl with hl | rfl
        · have := hda l hl
          exact Or.inl ⟨f.mf, s.mt, this.2.2.2.1, this.2.2.2.2, (carries_iff o f.mf s.mt l).2 ⟨_, this⟩⟩
        · exact Or.inr (Or.inl ⟨_, _, hse⟩)
      · exact Or.inr (Or.inl ⟨_, _, hfe⟩)
    · exact Or.inr (Or.inl ⟨_, _, hme⟩)
  · exact Or.inr (Or.inl ⟨_, _, h2⟩)
  · exact Or.inr (Or.inr (h3 l hl))

/-! ### C23 -/

def notBlank (l : Str) : Bool := decide (strip l ≠ [])

theorem splitLoop_ignoreBlank (o : SplitOpts) : ∀ (ls : List Str) (st : SplitState),
    splitLoop { o with ignoreBlank := true } st ls =
      splitLoop { o with ignoreBlank := false } st (ls.filter notBlank) := by
  intro ls
  induction ls with
  | nil => intro st; rfl
  | cons l ls ih =>
    intro st
    by_cases hb : strip l = []
    · rw [List.filter_cons_of_neg (by simp [notBlank, hb]), ← ih st, splitLoop]
      have : splitStep { o with ignoreBlank := true } st l = .ok st := by
        unfold splitStep; simp [hb]
      rw [this]; rfl
    · rw [List.filter_cons_of_pos (by simp [notBlank, hb]), splitLoop, splitLoop]
      have : splitStep { o with ignoreBlank := true } st l = splitStep { o with ignoreBlank := false } st l := by
        unfold splitStep; simp [hb]
      rw [this]
      cases splitStep { o with ignoreBlank := false } st l with
      | error e => rfl
      | ok s => exact ih s

theorem splitLead_true (o : SplitOpts) (h : o.ignoreBlank = true) : ∀ (ls : List Str),
    splitLead o ls = match ls.dropWhile (fun l => !notBlank l) with
      | [] => .error .indexError
      | l :: r => .ok (l :: r) := by
  intro ls
  induction ls with
  | nil => rfl
  | cons l ls ih =>
    unfold splitLead
    by_cases hb : strip l = []
    · rw [if_pos hb, if_pos h, ih, List.dropWhile_cons_of_pos (by simp [notBlank, hb])]
    · rw [if_neg hb, List.dropWhile_cons_of_neg (by simp [notBlank, hb])]

/-- **C23** (partial) If the file does not start with a blank line, splitting with `ignore_blank_lines=True` gives the
same result, value or error, as splitting the file with all blank lines deleted.  Missing: files that start with a
blank line, for which it is false, see `C23_fails`. -/
theorem C23_partial (o : SplitOpts) (l : Str) (ls : List Str) (hl : strip l ≠ []) :
    splitSections { o with ignoreBlank := true } (l :: ls) =
      splitSections { o with ignoreBlank := false } ((l :: ls).filter notBlank) := by
  rw [List.filter_cons_of_pos (by simp [notBlank, hl])]
  unfold splitSections
  simp only [splitLead, hl, if_false, bind, Except.bind]
  cases hc : readCtrl o.fields.width l with
  | error e => rfl
  | ok c =>
    dsimp only
    have e1 := splitLoop_ignoreBlank o (l :: ls)
    rw [List.filter_cons_of_pos (by simp [notBlank, hl])] at e1
    rw [e1, splitLoop_ignoreBlank o ls]
    simp only [List.headD_cons]

theorem splitStep_shape (o : SplitOpts) (d1 d2 : MfDic) (lev : Int) (c : Ctrl) (l : Str) :
    (splitStep o ⟨d1, lev, c⟩ l).map (fun s => (s.level, s.last)) =
      (splitStep o ⟨d2, lev, c⟩ l).map (fun s => (s.level, s.last)) := by
  have hr : ∀ x, regularOk ⟨d1, lev, c⟩ x = regularOk ⟨d2, lev, c⟩ x := fun _ => rfl
  have he : ∀ x, endOk ⟨d1, lev, c⟩ x = endOk ⟨d2, lev, c⟩ x := fun _ => rfl
  unfold splitStep
  dsimp only
  split
  · split
    · rfl
    · split <;> rfl
  · split
    · rfl
    · cases readCtrl o.fields.width l with
      | error e => rfl
      | ok x =>
        simp only [bind, Except.bind]
        rw [hr, he]
        split
        · split <;> rfl
        · split
          · rfl
          · split
            · rfl
            · cases readSend o.fields [l] 0 <;> rfl

theorem splitLoop_shape (o : SplitOpts) : ∀ (ls : List Str) (d1 d2 : MfDic) (lev : Int) (c : Ctrl),
    (splitLoop o ⟨d1, lev, c⟩ ls).map (fun s => (s.level, s.last)) =
      (splitLoop o ⟨d2, lev, c⟩ ls).map (fun s => (s.level, s.last)) := by
  intro ls
  induction ls with
  | nil => intro d1 d2 lev c; rfl
  | cons l ls ih =>
    intro d1 d2 lev c
    have h := splitStep_shape o d1 d2 lev c l
    rw [splitLoop, splitLoop]
    cases h1 : splitStep o ⟨d1, lev, c⟩ l with
    | error e =>
      cases h2 : splitStep o ⟨d2, lev, c⟩ l with
      | error e' => rw [h1, h2] at h; cases h; rfl
      | ok s => rw [h1, h2] at h; cases h
    | ok s =>
      cases h2 : splitStep o ⟨d2, lev, c⟩ l with
      | error e' => rw [h1, h2] at h; cases h
      | ok s' =>
        rw [h1, h2] at h
        obtain ⟨a1, a2, a3⟩ := s
        obtain ⟨b1, b2, b3⟩ := s'
        have h' := Except.ok.inj h
        simp only [Prod.mk.injEq] at h'
        obtain ⟨rfl, rfl⟩ := h'
        exact ih a1 b1 a2 a3

theorem splitSections_outcome (o : SplitOpts) (l1 l2 : List Str) (h : splitLead o l1 = splitLead o l2) :
    (splitSections o l1).map (fun _ => ()) = (splitSections o l2).map (fun _ => ()) := by
  unfold splitSections
  rw [h]
  cases splitLead o l2 with
  | error e => rfl
  | ok ls =>
    cases ls with
    | nil => rfl
    | cons l ls =>
      simp only [bind, Except.bind]
      cases readCtrl o.fields.width l with
      | error e => rfl
      | ok c =>
        dsimp only
        split
        · rfl
        · have := splitLoop_shape o ls (addLine c.mf c.mt (l1.headD []) []) (addLine c.mf c.mt (l2.headD []) []) 0 ⟨0, 0, 0⟩
          cases h1 : splitLoop o ⟨addLine c.mf c.mt (l1.headD []) [], 0, ⟨0, 0, 0⟩⟩ ls with
          | error e =>
            cases h2 : splitLoop o ⟨addLine c.mf c.mt (l2.headD []) [], 0, ⟨0, 0, 0⟩⟩ ls with
            | error e' => rw [h1, h2] at this; cases this; rfl
            | ok s => rw [h1, h2] at this; cases this
          | ok s =>
            cases h2 : splitLoop o ⟨addLine c.mf c.mt (l2.headD []) [], 0, ⟨0, 0, 0⟩⟩ ls with
            | error e' => rw [h1, h2] at this; cases this
            | ok s' =>
              rw [h1, h2] at this
              have h' := Except.ok.inj this
              simp only [Prod.mk.injEq] at h'
              dsimp only
              rw [h'.1]
              split <;> rfl

/-- **C23** (partial) For every file, including those that start with blank lines: both calls succeed or both fail
with the same error, and all sections agree except the stored tape head MF=0/MT=0. -/
theorem C23_up_to_head_partial (o : SplitOpts) (lines : List Str) :
    (splitSections { o with ignoreBlank := true } lines).map (fun _ => ()) =
        (splitSections { o with ignoreBlank := false } (lines.filter notBlank)).map (fun _ => ()) ∧
    ∀ d d', splitSections { o with ignoreBlank := true } lines = .ok d →
      splitSections { o with ignoreBlank := false } (lines.filter notBlank) = .ok d' →
      ∀ mf mt, mf ≠ 0 → mt ≠ 0 → secOf d mf mt = secOf d' mf mt := by
  constructor
  · induction lines with
    | nil => rfl
    | cons l ls ih =>
      by_cases hb : strip l = []
      · rw [List.filter_cons_of_neg (by simp [notBlank, hb]), ← ih]
        exact splitSections_outcome _ _ _ (by rw [splitLead]; simp [hb])
      · rw [C23_partial o l ls hb]
  · intro d d' h h' mf mt h1 h2
    rw [C22_sections _ _ _ h mf mt h1 h2, C22_sections _ _ _ h' mf mt h1 h2, List.filter_filter]
    congr 1
    apply List.filter_congr
    intro x _
    dsimp only
    by_cases hb : strip x = []
    · have : carries o.fields.width mf mt x = false := by
        unfold carries; cases readCtrl o.fields.width x <;> simp [hb]
      simp [this]
    · simp [notBlank, hb]

/-! ### C24 -/

theorem step_lenient {o : SplitOpts} (hs : o.ignoreSend = false) {st st' lt : SplitState} {l : Str}
    (h : splitStep o st l = .ok st') (hd : st.dic = lt.dic) (hl : 0 ≤ lt.level)
    (hbl : o.ignoreBlank = true ∨ strip l ≠ []) :
    ∃ lt', splitStep { o with ignoreSend := true } lt l = .ok lt' ∧ st'.dic = lt'.dic ∧ 0 ≤ lt'.level := by
  have hlev : lt.level ≠ -1 := by omega
  unfold splitStep at h ⊢
  by_cases hb : strip l = []
  · have hi : o.ignoreBlank = true := hbl.resolve_right (by simp [hb])
    simp only [hb, if_true, hi] at h ⊢
    refine ⟨lt, by simp, ?_, hl⟩
    split at h <;> (cases h; exact hd)
  · simp only [hb, if_false, hlev] at h ⊢
    split at h
    · cases h
    · cases hc : readCtrl o.fields.width l with
      | error e => rw [hc] at h; simp [bind, Except.bind] at h
      | ok c =>
        rw [hc] at h
        simp only [bind, Except.bind] at h ⊢
        by_cases hr : c.mat ≠ 0 ∧ c.mf ≠ 0 ∧ c.mt ≠ 0
        · rw [if_pos hr] at h
          rw [if_pos hr]
          split at h
          · cases h
          · cases h
            refine ⟨⟨addLine c.mf c.mt l lt.dic, 3, c⟩, by simp, by rw [hd], by simp⟩
        · rw [if_neg hr] at h
          rw [if_neg hr]
          refine ⟨lt, by simp, ?_, hl⟩
          simp only [hs, if_neg Bool.false_ne_true] at h
          split at h
          · cases h
          · cases hq : readSend o.fields [l] 0 with
            | error e => rw [hq] at h; cases h
            | ok p => rw [hq] at h; cases h; exact hd

theorem loop_lenient {o : SplitOpts} (hs : o.ignoreSend = false) : ∀ (ls : List Str) {st st' lt : SplitState},
    splitLoop o st ls = .ok st' → st.dic = lt.dic → 0 ≤ lt.level →
    (o.ignoreBlank = true ∨ ∀ l ∈ ls, strip l ≠ []) →
    ∃ lt', splitLoop { o with ignoreSend := true } lt ls = .ok lt' ∧ st'.dic = lt'.dic
  | [], st, st', lt, h, hd, _, _ => by rw [splitLoop] at h; cases h; exact ⟨lt, rfl, hd⟩
  | l :: ls, st, st', lt, h, hd, hl, hb => by
    obtain ⟨s1, h1, h2⟩ := (splitLoop_cons _ _ _ _ _).1 h
    obtain ⟨t1, g1, g2, g3⟩ := step_lenient hs h1 hd hl (hb.imp id (fun h => h l (by simp)))
    obtain ⟨t2, g4, g5⟩ := loop_lenient hs ls h2 g2 g3 (hb.imp id (fun h x hx => h x (by simp [hx])))
    exact ⟨t2, (splitLoop_cons _ _ _ _ _).2 ⟨t1, g1, g4⟩, g5⟩

/-- **C24** (partial) Every file accepted with the end records being checked is accepted with
`ignore_send_records=True` with the same result, provided that blank lines are ignored or absent.  Missing: files
with blank lines behind TEND, which are accepted in strict mode but not in lenient mode, see `C24_fails`. -/
theorem C24_partial (o : SplitOpts) (hs : o.ignoreSend = false) (lines : List Str) (d : MfDic)
    (h : splitSections o lines = .ok d) (hb : o.ignoreBlank = true ∨ ∀ l ∈ lines, strip l ≠ []) :
    splitSections { o with ignoreSend := true } lines = .ok d := by
  have hlead : ∀ ls, splitLead { o with ignoreSend := true } ls = splitLead o ls := by
    intro ls
    induction ls with
    | nil => rfl
    | cons l ls ih => rw [splitLead, splitLead, ih]
  unfold splitSections at h ⊢
  rw [hlead]
  cases hl : splitLead o lines with
  | error e => rw [hl] at h; simp [bind, Except.bind] at h
  | ok ls =>
    obtain ⟨pre, l, rest, e1, rfl, _, _, _⟩ := splitLead_ok hl
    have hb' : o.ignoreBlank = true ∨ ∀ x ∈ l :: rest, strip x ≠ [] :=
      hb.imp id (fun h x hx => h x (by rw [e1]; exact List.mem_append_right _ hx))
    rw [hl] at h
    simp only [bind, Except.bind] at h ⊢
    cases hc : readCtrl o.fields.width l with
    | error e => rw [hc] at h; simp at h
    | ok c =>
      rw [hc] at h
      dsimp only at h ⊢
      split
      · rename_i hm
        rw [if_pos hm] at h
        cases ht : o.ignoreTpid with
        | false => simp [ht] at h
        | true =>
          simp only [ht, Bool.not_true, if_neg Bool.false_ne_true] at h ⊢
          cases hq : splitLoop o ⟨[], 0, ⟨0, 0, 0⟩⟩ (l :: rest) with
          | error e => rw [hq] at h; simp at h
          | ok st =>
            obtain ⟨lt, g1, g2⟩ := loop_lenient hs _ hq (lt := ⟨[], 0, ⟨0, 0, 0⟩⟩) rfl (by simp) hb'
            rw [ht] at g1
            rw [g1]
            rw [hq] at h
            dsimp only at h ⊢
            split at h
            · cases h
            · cases h; simp [g2]
      · rename_i hm
        rw [if_neg hm] at h
        cases hq : splitLoop o ⟨addLine c.mf c.mt (lines.headD []) [], 0, ⟨0, 0, 0⟩⟩ rest with
        | error e => rw [hq] at h; simp at h
        | ok st =>
          obtain ⟨lt, g1, g2⟩ := loop_lenient hs _ hq (lt := ⟨addLine c.mf c.mt (lines.headD []) [], 0, ⟨0, 0, 0⟩⟩) rfl (by simp)
            (hb'.imp id (fun h x hx => h x (by simp [hx])))
          rw [g1]
          rw [hq] at h
          dsimp only at h ⊢
          split at h
          · cases h
          · cases h; simp [g2]

/-! ### concrete files -/

/-- body of a line with blank fields and the given control numbers -/
def exLine (body : String) (mat mf mt : Int) : Str :=
  ljust body.toList 66 ++ writeCtrl ⟨mat, mf, mt⟩

/-- a small tape: tape head, one material, MF1/MT451 with two lines, MF3/MT1 and MF3/MT2 -/
def exTape : List Str :=
  [exLine "tape" 1 0 0, exLine "a" 125 1 451, exLine "b" 125 1 451, exLine "" 125 1 0, exLine "" 125 0 0,
   exLine "c" 125 3 1, exLine "" 125 3 0, exLine "d" 125 3 2, exLine "" 125 3 0, exLine "" 125 0 0,
   exLine "" 0 0 0, exLine "" (-1) 0 0]

def resIs (r : Res MfDic) (l : List ((Int × Int) × Option (List Str))) : Bool :=
  match r with
  | .ok d => l.all (fun p => decide (secOf d p.1.1 p.1.2 = p.2))
  | .error _ => false

/-- hypotheses of C21, C22, C23 and C24 are met by this tape -/
example : resIs (splitSections {} exTape) [((0, 0), some [exLine "tape" 1 0 0]),
    ((1, 451), some [exLine "a" 125 1 451, exLine "b" 125 1 451]), ((3, 1), some [exLine "c" 125 3 1]),
    ((3, 2), some [exLine "d" 125 3 2]), ((3, 102), none)] = true := by decide +kernel

example : ∀ l ∈ exTape, strip l ≠ [] := by decide +kernel

/-- blank lines inside are an error unless they are ignored; a missing SEND is an error -/
example : (splitSections {} (exTape.take 2 ++ [[' ']] ++ exTape.drop 2)).toBool = false ∧
    (splitSections { ignoreBlank := true } (exTape.take 2 ++ [[' ']] ++ exTape.drop 2)).toBool = true ∧
    (splitSections {} (exTape.take 3 ++ exTape.drop 4)).toBool = false ∧
    (splitSections { ignoreSend := true } (exTape.take 3 ++ exTape.drop 4)).toBool = true := by decide +kernel

/-- **C23 fails**: with a leading blank line, the blank line is stored as tape head, because
endf_utils.py:501 appends `lines[0]` instead of `lines[ofs]`. -/
theorem C23_fails : ¬ ∀ (o : SplitOpts) (lines : List Str),
    splitSections { o with ignoreBlank := true } lines =
      splitSections { o with ignoreBlank := false } (lines.filter notBlank) := by
  intro h
  have h1 := h {} ([' '] :: exTape)
  have h2 : resIs (splitSections { ignoreBlank := true } ([' '] :: exTape)) [((0, 0), some [[' ']])] = true := by
    decide +kernel
  have h3 : resIs (splitSections { ignoreBlank := false } (([' '] :: exTape).filter notBlank))
      [((0, 0), some [[' ']])] = false := by decide +kernel
  have h4 : splitSections { ignoreBlank := true } ([' '] :: exTape) =
      splitSections { ignoreBlank := false } (([' '] :: exTape).filter notBlank) := h1
  rw [h4, h3] at h2
  cases h2

/-- **C24 fails** with blank lines behind TEND: with `ignore_send_records=True` the level never becomes -1. -/
theorem C24_fails : ¬ ∀ (o : SplitOpts), o.ignoreSend = false → ∀ (lines : List Str) (d : MfDic),
    splitSections o lines = .ok d → splitSections { o with ignoreSend := true } lines = .ok d := by
  intro h
  have h1 : (splitSections {} (exTape ++ [[' ']])).toBool = true := by decide +kernel
  have h2 : (splitSections { ignoreSend := true } (exTape ++ [[' ']])).toBool = false := by decide +kernel
  cases hr : splitSections {} (exTape ++ [[' ']]) with
  | error e => rw [hr] at h1; cases h1
  | ok d =>
    have h3 : splitSections { ignoreSend := true } (exTape ++ [[' ']]) = .ok d := h {} rfl _ _ hr
    rw [h3] at h2
    cases h2

end Verif
