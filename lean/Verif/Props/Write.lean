import Verif.Lemmas.Write
/-
C25-C27: assembly of tapes, verbatim sections, selection of sections.
-/
namespace Verif
open Spec

/-! ### hypotheses -/

/-- the MF ≥ 1 part of a dictionary to be written: distinct keys, every section that is not skipped belongs to
material `mat` and its MF/MT, and there is at least one -/
structure FilesOk {α : Type} (e : WriteEnv α) (mat : Int) (dic : Dict Int (Dict Int (SecVal α))) : Prop where
  nodup : DNodup dic
  nodup2 : ∀ mf d, dGet mf dic = some d → DNodup d
  pos : ∀ mf d, dGet mf dic = some d → 0 ≤ mf
  secs : ∀ mf d mt v, dGet mf dic = some d → dGet mt d = some v → mf ≠ 0 →
    shouldSkip mf mt e.excl e.incl = false → FitsCtrl mat mf mt ∧ SecOk e mat mf mt v
  some : ∃ mf d mt v, dGet mf dic = some d ∧ dGet mt d = some v ∧ mf ≠ 0 ∧ shouldSkip mf mt e.excl e.incl = false

/-- the tape head: one full, non-blank line with MF=0 and MT=0 -/
def HeadOk {α : Type} (e : WriteEnv α) (l : Str) (v : SecVal α) : Prop :=
  6 * e.o.width + 9 ≤ l.length ∧ strip (l.take (6 * e.o.width + 9)) ≠ [] ∧
  (∃ m0, readCtrl e.o.width l = .ok ⟨m0, 0, 0⟩) ∧
  match v with
  | .verb ls => ls = [l]
  | .data x => ∃ c, e.render 0 0 x = some (.ok ([l], c))

/-- the value of a section to be written -/
def valOf {α : Type} (dic : Dict Int (Dict Int (SecVal α))) (mf mt : Int) : Option (SecVal α) :=
  (dGet mf dic).bind (dGet mt)

/-- columns up to MT -/
def cols (w : Nat) (ls : List Str) : List Str := ls.map (·.take (6 * w + 9))

/-- data lines come in ascending order of MF, then MT -/
def Ascending (r : ROpts) (out : List Str) : Prop :=
  out.Pairwise (fun a b => ∀ mat mf mt mat' mf' mt', (theReader r).IsData mat mf mt a →
    (theReader r).IsData mat' mf' mt' b → mf < mf' ∨ (mf = mf' ∧ mt ≤ mt'))

/-! ### core: the files of the material -/

theorem isData_unique {r : ROpts} {l : Str} {a b c a' b' c' : Int} (h : (theReader r).IsData a b c l)
    (h' : (theReader r).IsData a' b' c' l) : b = b' ∧ c = c' := by
  have h1 := h.2.1
  rw [h'.2.1] at h1
  simp only [Option.some.injEq, Prod.mk.injEq] at h1
  exact ⟨h1.2.1.symm, h1.2.2.symm⟩

theorem not_isData_end {r : ROpts} {l : Str} {a b a' b' c' : Int} (h : (theReader r).IsEnd a b l) :
    ¬ (theReader r).IsData a' b' c' l := by
  intro h'
  have h1 := h.2.1
  rw [h'.2.1] at h1
  simp only [Option.some.injEq, Prod.mk.injEq] at h1
  exact h'.2.2.2.2 h1.2.2

theorem sec_isData {r : ROpts} {mat mf : Int} {s : TSec} (h : s.WF (theReader r) mat mf) {l : Str} (hl : l ∈ s.lines)
    {a b c : Int} (hd : (theReader r).IsData a b c l) : b = mf ∧ c = s.mt := by
  unfold TSec.lines at hl
  rw [List.mem_append, List.mem_singleton] at hl
  rcases hl with hl | rfl
  · exact isData_unique hd (h.2.1 l hl)
  · exact absurd hd (not_isData_end h.2.2)

theorem file_isData {r : ROpts} {mat : Int} {f : TFile} (h : f.WF (theReader r) mat) {l : Str} (hl : l ∈ f.lines)
    {a b c : Int} (hd : (theReader r).IsData a b c l) : b = f.mf := by
  unfold TFile.lines at hl
  rw [List.mem_append, List.mem_singleton] at hl
  rcases hl with hl | rfl
  · rw [List.mem_flatten] at hl
    obtain ⟨x, hx, hl⟩ := hl
    rw [List.mem_map] at hx
    obtain ⟨s, hs, rfl⟩ := hx
    exact (sec_isData (h.2.1 s hs) hl hd).1
  · exact absurd hd (not_isData_end h.2.2)

theorem sec_ascending {r : ROpts} {mat mf : Int} {s : TSec} (h : s.WF (theReader r) mat mf) : Ascending r s.lines := by
  unfold Ascending
  rw [List.pairwise_iff_forall_sublist]
  intro a b hab x1 x2 x3 y1 y2 y3 ha hb
  have hma : a ∈ s.lines := hab.subset (by simp)
  have hmb : b ∈ s.lines := hab.subset (by simp)
  have e1 := sec_isData h hma ha
  have e2 := sec_isData h hmb hb
  right
  exact ⟨by omega, by omega⟩

theorem ascending_snoc_end {r : ROpts} {ls : List Str} {l : Str} {a b : Int} (h : Ascending r ls)
    (hl : (theReader r).IsEnd a b l) : Ascending r (ls ++ [l]) := by
  unfold Ascending at *
  rw [List.pairwise_append]
  refine ⟨h, by simp, ?_⟩
  intro x _ y hy
  rw [List.mem_singleton] at hy
  subst hy
  intro _ _ _ _ _ _ _ hd
  exact absurd hd (not_isData_end hl)

theorem file_ascending {r : ROpts} {mat : Int} {f : TFile} (h : f.WF (theReader r) mat)
    (hs : f.secs.Pairwise (fun a b => a.mt < b.mt)) : Ascending r f.lines := by
  unfold TFile.lines
  refine ascending_snoc_end ?_ h.2.2
  unfold Ascending
  rw [List.pairwise_flatten]
  constructor
  · intro x hx
    rw [List.mem_map] at hx
    obtain ⟨s, hs, rfl⟩ := hx
    exact sec_ascending (h.2.1 s hs)
  · rw [List.pairwise_map]
    refine hs.imp_of_mem ?_
    intro a b ha hb hab x hx y hy x1 x2 x3 y1 y2 y3 h1 h2
    have e1 := sec_isData (h.2.1 a ha) hx h1
    have e2 := sec_isData (h.2.1 b hb) hy h2
    right
    exact ⟨by omega, by omega⟩

theorem files_ascending {r : ROpts} {mat : Int} {files : List TFile} (h : ∀ f ∈ files, f.WF (theReader r) mat)
    (hs : ∀ f ∈ files, f.secs.Pairwise (fun a b => a.mt < b.mt)) (hf : files.Pairwise (fun a b => a.mf < b.mf)) :
    Ascending r (files.map TFile.lines).flatten := by
  unfold Ascending
  rw [List.pairwise_flatten]
  constructor
  · intro x hx
    rw [List.mem_map] at hx
    obtain ⟨f, hf, rfl⟩ := hx
    exact file_ascending (h f hf) (hs f hf)
  · rw [List.pairwise_map]
    refine hf.imp_of_mem ?_
    intro a b ha hb hab x hx y hy x1 x2 x3 y1 y2 y3 h1 h2
    have e1 := file_isData (h a ha) hx h1
    have e2 := file_isData (h b hb) hy h2
    left
    omega

theorem pairwise_rel {α β : Type} {R : α → β → Prop} {key : α → Int} {key' : β → Int} (hR : ∀ a b, R a b → key' b = key a) :
    ∀ {l : List α} {l' : List β}, List.Forall₂ R l l' → l.Pairwise (fun a b => key a < key b) →
      l'.Pairwise (fun a b => key' a < key' b) := by
  intro l l' h hp
  have e : l'.map key' = l.map key := by
    clear hp
    induction h with
    | nil => rfl
    | cons h _ ih => rw [List.map_cons, List.map_cons, ih, hR _ _ h]
  have := List.pairwise_map.2 hp
  rw [← e] at this
  exact List.pairwise_map.1 this

/-- what `writeMfs` gives for the files of a dictionary (`l` is a part of the sorted dictionary without MF0) -/
theorem files_core {α : Type} (e : WriteEnv α) (hr : e.r.width = e.o.width) (hw : 9 ≤ e.o.width) {mat : Int}
    {dic : Dict Int (Dict Int (SecVal α))} (h : FilesOk e mat dic) {l : List (Int × Dict Int (SecVal α))}
    (hl : ∀ p ∈ l, p.1 ≠ 0 ∧ dGet p.1 dic = some p.2) (hall : ∀ mf d, dGet mf dic = some d → mf ≠ 0 → (mf, d) ∈ l)
    (hsort : l.Pairwise (fun a b => a.1 < b.1)) :
    ∃ files : List TFile, writeMfs e l = .ok (files.map TFile.lines).flatten ∧ files ≠ [] ∧
      (∀ f ∈ files, f.WF (theReader e.r) mat) ∧ Ascending e.r (files.map TFile.lines).flatten ∧
      ∀ mf mt, mf ≠ 0 → cols e.o.width (((files.map TFile.lines).flatten).filter (carries e.r.width mf mt)) =
        cols e.o.width (match valOf dic mf mt with
          | some v => if shouldSkip mf mt e.excl e.incl then [] else secText e mf mt v
          | none => []) := by
  obtain ⟨files, h1, h2, h3⟩ := writeMfs_ok e hr hw (mat := mat) l (by
    intro p hp
    obtain ⟨p1, p2⟩ := hl p hp
    refine ⟨p1, ?_⟩
    intro q hq hs
    exact h.secs p.1 p.2 q.1 q.2 p2 (dGet_of_mem (h.nodup2 _ _ p2) hq) p1 hs)
  have hnd : DNodup l := by
    unfold DNodup dKeys
    exact List.pairwise_map.2 (hsort.imp (fun {a b} h => ne_of_lt h))
  have hsecsorted : ∀ f ∈ files, f.secs.Pairwise (fun a b => a.mt < b.mt) := by
    intro f hf
    obtain ⟨i, hi, hfi⟩ := List.mem_iff_getElem.1 hf
    have hi' : i < (l.filter (fun p => decide (kept e p.1 p.2 ≠ []))).length := by rw [h3.length_eq]; exact hi
    have hrel := h3.get hi' hi
    simp only [List.get_eq_getElem, hfi] at hrel
    have hpm : (l.filter (fun p => decide (kept e p.1 p.2 ≠ [])))[i] ∈ l := List.mem_of_mem_filter (List.getElem_mem hi')
    refine pairwise_rel (key := fun p => p.1) (fun a b hab => hab.1) hrel.2 ?_
    exact (dSort_strict (h.nodup2 _ _ (hl _ hpm).2)).filter _
  have hfsorted : files.Pairwise (fun a b => a.mf < b.mf) :=
    pairwise_rel (key := fun p => p.1) (fun a b hab => hab.1) h3 (hsort.filter _)
  refine ⟨files, h1, ?_, h2, files_ascending h2 hsecsorted hfsorted, ?_⟩
  · obtain ⟨mf, d, mt, v, a1, a2, a3, a4⟩ := h.some
    intro hn
    rw [hn] at h3
    have hempty : (l.filter (fun p => decide (kept e p.1 p.2 ≠ []))) = [] := by
      cases hq : (l.filter (fun p => decide (kept e p.1 p.2 ≠ []))) with
      | nil => rfl
      | cons a b => rw [hq] at h3; cases h3
    rw [List.filter_eq_nil_iff] at hempty
    have hk := hempty (mf, d) (hall mf d a1 a3)
    simp only [ne_eq, decide_not, Bool.not_eq_true', decide_eq_false_iff_not, not_not] at hk
    have : (mt, v) ∈ kept e mf d := by
      unfold kept
      rw [List.mem_filter]
      exact ⟨(dSort_perm d).mem_iff.2 (dGet_mem a2), by simp [a4]⟩
    rw [hk] at this
    cases this
  · intro mf mt hmf
    unfold cols
    rw [filter_files h2, files_text e mf mt h3]
    have hnd' : DNodup (l.filter (fun p => decide (kept e p.1 p.2 ≠ []))) := by
      unfold DNodup dKeys at *
      exact List.Nodup.sublist (List.Sublist.map _ List.filter_sublist) hnd
    rw [flatten_ite (fun d => ((kept e mf d).map (fun q => if q.1 = mt then (secText e mf mt q.2).map (·.take (6 * e.o.width + 9)) else [])).flatten) mf _ hnd']
    cases hg : dGet mf dic with
    | none =>
      have : dGet mf (l.filter (fun p => decide (kept e p.1 p.2 ≠ []))) = none := by
        cases hq : dGet mf (l.filter (fun p => decide (kept e p.1 p.2 ≠ []))) with
        | none => rfl
        | some d =>
          have := (hl _ (List.mem_of_mem_filter (dGet_mem hq))).2
          dsimp only at this
          rw [hg] at this
          cases this
      rw [this]
      simp [valOf, hg]
    | some d =>
      have hd := h.nodup2 mf d hg
      have hkd : DNodup (kept e mf d) := by
        unfold kept DNodup dKeys
        exact List.Nodup.sublist (List.Sublist.map _ List.filter_sublist) (dSort_nodup hd)
      have key : ((kept e mf d).map (fun q => if q.1 = mt then (secText e mf mt q.2).map (·.take (6 * e.o.width + 9)) else [])).flatten =
          List.map (·.take (6 * e.o.width + 9)) (match valOf dic mf mt with
          | some v => if shouldSkip mf mt e.excl e.incl then [] else secText e mf mt v
          | none => []) := by
        rw [flatten_ite (fun v => (secText e mf mt v).map (·.take (6 * e.o.width + 9))) mt _ hkd]
        unfold kept valOf
        rw [dGet_filter (fun k => !shouldSkip mf k e.excl e.incl), dGet_dSort hd, hg, Option.bind_some]
        cases dGet mt d with
        | none => simp
        | some v => cases shouldSkip mf mt e.excl e.incl <;> simp
      by_cases hk : kept e mf d = []
      · have : dGet mf (l.filter (fun p => decide (kept e p.1 p.2 ≠ []))) = none := by
          cases hq : dGet mf (l.filter (fun p => decide (kept e p.1 p.2 ≠ []))) with
          | none => rfl
          | some d' =>
            have hm := dGet_mem hq
            have h5 := (hl _ (List.mem_of_mem_filter hm)).2
            dsimp only at h5
            rw [hg] at h5
            cases h5
            have := (List.mem_filter.1 hm).2
            simp [hk] at this
        rw [this, ← key, hk]
        rfl
      · have : dGet mf (l.filter (fun p => decide (kept e p.1 p.2 ≠ []))) = some d := by
          apply dGet_of_mem hnd'
          rw [List.mem_filter]
          exact ⟨hall mf d hg hmf, by simp [hk]⟩
        rw [this, ← key]
        rfl

/-! ### C25 -/

theorem dSort_head {α : Type} {d : Dict Int α} {v : α} (hn : DNodup d) (h0 : dGet 0 d = some v)
    (hpos : ∀ k w, dGet k d = some w → 0 ≤ k) : ∃ rest, dSort d = (0, v) :: rest := by
  have hm : ((0 : Int), v) ∈ dSort d := (dSort_perm d).mem_iff.2 (dGet_mem h0)
  cases hs : dSort d with
  | nil => rw [hs] at hm; cases hm
  | cons p rest =>
    have hstrict := dSort_strict hn
    rw [hs] at hm hstrict
    rw [List.mem_cons] at hm
    rcases hm with rfl | hm
    · exact ⟨rest, rfl⟩
    · have h1 := (List.pairwise_cons.1 hstrict).1 _ hm
      have h2 : p ∈ d := (dSort_perm d).mem_iff.1 (by rw [hs]; simp)
      have h3 := hpos p.1 p.2 (dGet_of_mem hn h2)
      dsimp only at h1
      omega

theorem mem_rest {α : Type} {d : Dict Int α} {v : α} {rest : List (Int × α)} (hn : DNodup d)
    (hs : dSort d = (0, v) :: rest) :
    (∀ p ∈ rest, p.1 ≠ 0 ∧ dGet p.1 d = some p.2) ∧ (∀ k w, dGet k d = some w → k ≠ 0 → (k, w) ∈ rest) ∧
      rest.Pairwise (fun a b => a.1 < b.1) := by
  have hstrict := dSort_strict hn
  rw [hs] at hstrict
  have h1 := List.pairwise_cons.1 hstrict
  refine ⟨?_, ?_, h1.2⟩
  · intro p hp
    refine ⟨?_, dGet_of_mem hn ((dSort_perm d).mem_iff.1 (by rw [hs]; simp [hp]))⟩
    have := h1.1 p hp
    dsimp only at this
    omega
  · intro k w hk hk0
    have hm : (k, w) ∈ dSort d := (dSort_perm d).mem_iff.2 (dGet_mem hk)
    rw [hs, List.mem_cons] at hm
    rcases hm with h | h
    · cases h; exact absurd rfl hk0
    · exact h

/-- the tape head as written -/
theorem writeHead_ok {α : Type} (e : WriteEnv α) (hr : e.r.width = e.o.width) {l : Str} {v : SecVal α}
    (h : HeadOk e l v) : ∃ l' c, writeSec e 0 0 v = .ok ([l'], c) ∧ Numbered e.o.width l l' ∧ strip l' ≠ [] ∧
      ∃ m0, readCtrl e.r.width l' = .ok ⟨m0, 0, 0⟩ := by
  obtain ⟨h1, h2, ⟨m0, h3⟩, h4⟩ := h
  obtain ⟨out, a1, a2⟩ := addLinenumbers_numbered e.o l [] _ h3
  cases a2 with
  | @cons _ l' _ _ hn hrest =>
    cases hrest
    have hctrl : readCtrl e.r.width l' = .ok ⟨m0, 0, 0⟩ := by
      obtain ⟨num, rfl⟩ := hn
      rw [hr, readCtrl_take _ _ _ h1, h3]
    have hnb : strip l' ≠ [] := by
      obtain ⟨num, rfl⟩ := hn
      intro hb
      exact h2 (strip_eq_nil_of_sub (fun c hc => List.mem_append_left _ hc) hb)
    cases v with
    | verb ls =>
      dsimp only at h4
      subst h4
      refine ⟨l', ⟨m0, 0, 0⟩, ?_, hn, hnb, m0, hctrl⟩
      have hla : lineAt [l'] ([l'].length - 1) = .ok l' := rfl
      unfold writeSec
      simp only [a1, bind, Except.bind, hla, hctrl, ne_eq, not_true_eq_false, if_false]
      rfl
    | data x =>
      obtain ⟨c, hx⟩ := h4
      refine ⟨l', c, ?_, hn, hnb, m0, hctrl⟩
      unfold writeSec
      simp only [hx, bind, Except.bind, ne_eq, not_true_eq_false, if_false, a1]
      rfl

/-- **C25** (partial) The lines written for a tape head and sections of one material are accepted by the strict
splitter.  Reading them back gives for every MF/MT pair exactly the columns up to MT of the text of that section if it
was to be written and no section otherwise, and the tape head.  The sections come in ascending order.
Missing: dictionaries without tape head or without any section, for which it is false, see `C25_no_tpid`,
`C25_no_section_fails`. -/
theorem C25_written_partial {α : Type} (e : WriteEnv α) (hr : e.r.width = e.o.width) (hw : 9 ≤ e.o.width) (mat : Int)
    (dic : Dict Int (Dict Int (SecVal α))) (h : FilesOk e mat dic) (l : Str) (v : SecVal α)
    (h0 : dGet 0 dic = some [(0, v)]) (hh : HeadOk e l v) (hskip : shouldSkip 0 0 e.excl e.incl = false) :
    ∃ out d', writeTape e dic = .ok out ∧ splitSections { fields := e.r } out = .ok d' ∧ Ascending e.r out ∧
      (∀ mf mt, mf ≠ 0 → mt ≠ 0 → (secOf d' mf mt).map (cols e.o.width) =
        match valOf dic mf mt with
        | some v => if shouldSkip mf mt e.excl e.incl then none else some (cols e.o.width (secText e mf mt v))
        | none => none) ∧
      (secOf d' 0 0).map (cols e.o.width) = some [l.take (6 * e.o.width + 9)] := by
  obtain ⟨rest, hs⟩ := dSort_head h.nodup h0 h.pos
  obtain ⟨hr1, hr2, hr3⟩ := mem_rest h.nodup hs
  obtain ⟨files, f1, f2, f3, f4, f5⟩ := files_core e hr hw h hr1 hr2 hr3
  obtain ⟨l', c, g1, g2, g3, m0, g4⟩ := writeHead_ok e hr hh
  obtain ⟨mend, m1, m2⟩ := writtenEnd hr hw e.zab 0 0 0 (by unfold FitsCtrl; omega) (writeMend e.o e.zab) ⟨0, 0, 0⟩ (by simp)
  obtain ⟨tend, t1, t2⟩ := writtenEnd hr hw e.zab 0 0 0 (by unfold FitsCtrl; omega) (writeTend e.o e.zab) ⟨-1, 0, 0⟩ (by simp)
  dsimp only at m2 t2
  let t : Tape := ⟨l', [⟨mat, files, mend⟩], tend, []⟩
  have hout : writeTape e dic = .ok t.lines := by
    have hds : dSort [((0 : Int), v)] = [(0, v)] := rfl
    unfold writeTape
    rw [hs, writeMfs, hds, writeMts, hskip]
    simp only [Bool.false_eq_true, if_false, g1, bind, Except.bind, writeMts, ne_eq, not_true_eq_false, f1, m1, t1]
    simp [t, Tape.lines, TMat.lines, pure, Except.pure]
  have hwf : t.WF (theReader e.r) := by
    refine ⟨⟨g3, m0, theReader_ctrl.2 g4⟩, ?_, t2, by simp [t]⟩
    intro m hm
    simp only [t, List.mem_singleton] at hm
    subst hm
    exact ⟨f2, f3, m2⟩
  obtain ⟨d', hd'⟩ := (C21_structure e.r t.lines).2 ⟨t, rfl, hwf⟩
  have hlines : t.lines = l' :: ((files.map TFile.lines).flatten ++ [mend] ++ [tend]) := by
    simp [t, Tape.lines, TMat.lines]
  refine ⟨t.lines, d', hout, hd', ?_, ?_, ?_⟩
  · rw [hlines]
    unfold Ascending
    rw [List.pairwise_cons]
    constructor
    · intro b _ x1 x2 x3 _ _ _ hx _
      exfalso
      have h1 := hx.2.1
      rw [theReader_ctrl, g4] at h1
      cases h1
      exact hx.2.2.2.2 rfl
    · exact ascending_snoc_end (ascending_snoc_end f4 m2) t2
  · intro mf mt hmf hmt
    rw [C22_sections _ _ _ hd' mf mt hmf hmt]
    have hfil : t.lines.filter (carries e.r.width mf mt) = ((files.map TFile.lines).flatten).filter (carries e.r.width mf mt) := by
      rw [hlines, List.filter_cons_of_neg (by rw [carries_zero g4 rfl]; simp), List.filter_append, List.filter_append,
        List.filter_cons_of_neg (by rw [carries_end m2]; simp), List.filter_cons_of_neg (by rw [carries_end t2]; simp)]
      simp
    dsimp only
    rw [hfil]
    have h5 := f5 mf mt hmf
    have hent : ∀ ls : List Str, (entry ls).map (cols e.o.width) = if cols e.o.width ls = [] then none else some (cols e.o.width ls) := by
      intro ls
      unfold entry cols
      by_cases hn : ls = [] <;> simp [hn]
    rw [hent, h5]
    cases hv : valOf dic mf mt with
    | none => simp [cols]
    | some w =>
      dsimp only
      cases hsk : shouldSkip mf mt e.excl e.incl with
      | true => simp [cols]
      | false =>
        simp only [Bool.false_eq_true, if_false]
        unfold valOf at hv
        cases hd : dGet mf dic with
        | none => rw [hd] at hv; cases hv
        | some d =>
          rw [hd, Option.bind_some] at hv
          have hne := (h.secs mf d mt w hd hv hmf hsk).2.1
          rw [if_neg (by unfold cols; simpa using hne)]
  · rcases C22_head _ _ _ hd' 0 0 (Or.inl rfl) with hn | ⟨_, _, x, hx, hsec⟩
    · exfalso
      obtain ⟨pre, y, rest', c', st, e1, e2, e3, e4, e5, e6, e7⟩ := splitSections_ok hd'
      have hpre : pre = [] := by
        cases pre with
        | nil => rfl
        | cons z zs =>
          rw [hlines] at e1
          simp only [List.cons_append, List.cons.injEq] at e1
          exact absurd (e2 z (by simp)) (by rw [← e1.1]; exact g3)
      subst hpre
      rw [hlines] at e1
      simp only [List.nil_append, List.cons.injEq] at e1
      rw [← e1.1] at e4
      dsimp only at e4
      rw [g4] at e4
      cases e4
      rcases e7 with ⟨e8, _⟩ | ⟨_, _, e8⟩
      · simp at e8
      · have := splitLoop_dic_zero _ _ _ e8 0 0 (Or.inl rfl)
        rw [e5, secOf_addLine, if_pos ⟨rfl, rfl⟩, hn] at this
        cases this
    · rw [hsec]
      rw [hlines] at hx
      simp only [List.head?_cons, Option.some.injEq] at hx
      subst hx
      simp only [Option.map_some, cols, List.map_cons, List.map_nil]
      rw [g2.take hh.1]

/-- the options used for tapes without tape head -/
def noTpid (o : ROpts) : SplitOpts := { fields := o, ignoreTpid := true }

theorem splitLoop_noTpid (o : ROpts) : ∀ (ls : List Str) (st : SplitState),
    splitLoop (noTpid o) st ls = splitLoop (strictOpts o) st ls
  | [], _ => rfl
  | l :: ls, st => by
    rw [splitLoop, splitLoop]
    have : splitStep (noTpid o) st l = splitStep (strictOpts o) st l := rfl
    rw [this]
    cases splitStep (strictOpts o) st l with
    | error e => rfl
    | ok s => exact splitLoop_noTpid o ls s

/-- **C25** Without a tape head (MF0 missing or skipped) the written lines are always refused by the strict splitter;
with `ignore_missing_tpid=True` they are accepted and give the sections. -/
theorem C25_no_tpid {α : Type} (e : WriteEnv α) (hr : e.r.width = e.o.width) (hw : 9 ≤ e.o.width) (mat : Int)
    (dic : Dict Int (Dict Int (SecVal α))) (h : FilesOk e mat dic) (h0 : dGet 0 dic = none) :
    ∃ out d', writeTape e dic = .ok out ∧ splitSections { fields := e.r } out = .error .unexpectedControl ∧
      splitSections { fields := e.r, ignoreTpid := true } out = .ok d' ∧ Ascending e.r out ∧
      (∀ mf mt, mf ≠ 0 → mt ≠ 0 → (secOf d' mf mt).map (cols e.o.width) =
        match valOf dic mf mt with
        | some v => if shouldSkip mf mt e.excl e.incl then none else some (cols e.o.width (secText e mf mt v))
        | none => none) := by
  have hrest : (∀ p ∈ dSort dic, p.1 ≠ 0 ∧ dGet p.1 dic = some p.2) := by
    intro p hp
    have hm := dGet_of_mem h.nodup ((dSort_perm dic).mem_iff.1 hp)
    refine ⟨?_, hm⟩
    intro hz
    rw [hz, h0] at hm
    cases hm
  obtain ⟨files, f1, f2, f3, f4, f5⟩ := files_core e hr hw h hrest
    (fun k w hk _ => (dSort_perm dic).mem_iff.2 (dGet_mem hk)) (dSort_strict h.nodup)
  obtain ⟨mend, m1, m2⟩ := writtenEnd hr hw e.zab 0 0 0 (by unfold FitsCtrl; omega) (writeMend e.o e.zab) ⟨0, 0, 0⟩ (by simp)
  obtain ⟨tend, t1, t2⟩ := writtenEnd hr hw e.zab 0 0 0 (by unfold FitsCtrl; omega) (writeTend e.o e.zab) ⟨-1, 0, 0⟩ (by simp)
  dsimp only at m2 t2
  have hout : writeTape e dic = .ok ((files.map TFile.lines).flatten ++ [mend] ++ [tend]) := by
    unfold writeTape
    simp only [f1, m1, t1, bind, Except.bind]
    rfl
  have hr0 : Rest0 (theReader e.r) ((files.map TFile.lines).flatten ++ [mend] ++ [tend]) := by
    refine ⟨[⟨mat, files, mend⟩], tend, [], by simp [TMat.lines], ?_, t2, by simp⟩
    intro m hm
    simp only [List.mem_singleton] at hm
    subst hm
    exact ⟨f2, f3, m2⟩
  obtain ⟨st, s1, s2⟩ := accept_of_rest hr0 ⟨[], 0, ⟨0, 0, 0⟩⟩ rfl
  -- the first line is a data line
  have hfirst : ∃ x mf mt, ((files.map TFile.lines).flatten ++ [mend] ++ [tend]).head? = some x ∧ (theReader e.r).IsData mat mf mt x := by
    obtain ⟨f, fs, rfl⟩ := List.exists_cons_of_ne_nil f2
    obtain ⟨hf1, hf2, _⟩ := f3 f (by simp)
    obtain ⟨s, ss, hss⟩ := List.exists_cons_of_ne_nil hf1
    rw [hss] at hf2
    obtain ⟨hs1, hs2, _⟩ := hf2 s (by simp)
    obtain ⟨x, xs, hxx⟩ := List.exists_cons_of_ne_nil hs1
    rw [hxx] at hs2
    refine ⟨x, f.mf, s.mt, ?_, hs2 x (by simp)⟩
    rw [List.map_cons, List.flatten_cons]
    unfold TFile.lines
    rw [hss, List.map_cons, List.flatten_cons]
    unfold TSec.lines
    rw [hxx]
    simp only [List.cons_append, List.head?_cons]
  obtain ⟨x, mf0, mt0, hx, hxd⟩ := hfirst
  obtain ⟨xs, hx⟩ := List.head?_eq_some_iff.1 hx
  have hxc := theReader_ctrl.1 hxd.2.1
  have hxb : strip x ≠ [] := hxd.1
  have hacc : splitSections { fields := e.r, ignoreTpid := true } ((files.map TFile.lines).flatten ++ [mend] ++ [tend]) = .ok st.dic := by
    rw [hx] at s1 ⊢
    rw [← splitLoop_noTpid] at s1
    unfold noTpid at s1
    unfold splitSections
    simp only [splitLead, hxb, if_false, bind, Except.bind, hxc, ne_eq, hxd.2.2.2.1, not_false_eq_true, true_or, if_true,
      Bool.not_true, Bool.false_eq_true, s1, s2]
    simp
  refine ⟨_, st.dic, hout, ?_, hacc, ascending_snoc_end (ascending_snoc_end f4 m2) t2, ?_⟩
  · rw [hx]
    unfold splitSections
    simp [splitLead, hxb, bind, Except.bind, hxc, hxd.2.2.2.1]
  · intro mf mt hmf hmt
    rw [C22_sections _ _ _ hacc mf mt hmf hmt]
    have hfil : ((files.map TFile.lines).flatten ++ [mend] ++ [tend]).filter (carries e.r.width mf mt) =
        ((files.map TFile.lines).flatten).filter (carries e.r.width mf mt) := by
      rw [List.filter_append, List.filter_append,
        List.filter_cons_of_neg (by rw [carries_end m2]; simp), List.filter_cons_of_neg (by rw [carries_end t2]; simp)]
      simp
    dsimp only
    rw [hfil]
    have h5 := f5 mf mt hmf
    have hent : ∀ ls : List Str, (entry ls).map (cols e.o.width) = if cols e.o.width ls = [] then none else some (cols e.o.width ls) := by
      intro ls
      unfold entry cols
      by_cases hn : ls = [] <;> simp [hn]
    rw [hent, h5]
    cases hv : valOf dic mf mt with
    | none => simp [cols]
    | some w =>
      dsimp only
      cases hsk : shouldSkip mf mt e.excl e.incl with
      | true => simp [cols]
      | false =>
        simp only [Bool.false_eq_true, if_false]
        unfold valOf at hv
        cases hd : dGet mf dic with
        | none => rw [hd] at hv; cases hv
        | some d =>
          rw [hd, Option.bind_some] at hv
          have hne := (h.secs mf d mt w hd hv hmf hsk).2.1
          rw [if_neg (by unfold cols; simpa using hne)]

/-- no recipes -/
def verbEnv : WriteEnv Unit := { render := fun _ _ _ => none }

/-- **C25 fails** for a dictionary with only a tape head: the splitter refuses the MEND record. -/
theorem C25_no_section_fails : ∃ (dic : Dict Int (Dict Int (SecVal Unit))) (out : List Str),
    writeTape verbEnv dic = .ok out ∧ splitSections {} out = .error .unexpectedControl := by
  let dic : Dict Int (Dict Int (SecVal Unit)) := [(0, [(0, .verb [exLine "tape" 1 0 0])])]
  have h1 : (match writeTape verbEnv dic with
    | .ok out => (match splitSections {} out with | .error .unexpectedControl => true | _ => false)
    | .error _ => false) = true := by decide +kernel
  refine ⟨dic, ?_⟩
  cases hw : writeTape verbEnv dic with
  | error e => rw [hw] at h1; cases h1
  | ok out =>
    rw [hw] at h1
    dsimp only at h1
    refine ⟨out, rfl, ?_⟩
    split at h1
    · assumption
    · cases h1

/-! ### C26 -/

theorem digitsVal_lt' : ∀ (s : Str), (∀ c ∈ s, isDig c = true) → digitsVal s < 10 ^ s.length := by
  intro s
  induction s using List.reverseRecOn with
  | nil => intro _; simp [digitsVal]
  | append_singleton s c ih =>
    intro h
    have h1 := ih (fun x hx => h x (by simp [hx]))
    have h2 : digVal c < 10 := by
      have := h c (by simp)
      unfold isDig at this
      unfold digVal
      simp only [Bool.and_eq_true, decide_eq_true_eq] at this
      have h9 : c.toNat ≤ '9'.toNat := this.2
      have e9 : '9'.toNat = 57 := rfl
      have e0 : '0'.toNat = 48 := rfl
      omega
    rw [digitsVal_append, List.length_append, List.length_singleton, pow_succ]
    omega

theorem deUnderscore_length : ∀ (b : Bool) (s t : Str), deUnderscore b s = some t → t.length ≤ s.length
  | _, [], t, h => by simp [deUnderscore] at h; subst h; simp
  | b, c :: cs, t, h => by
    unfold deUnderscore at h
    split at h
    · split at h
      · cases h
      · split at h
        · have := deUnderscore_length _ _ _ h
          simp only [List.length_cons] at *
          omega
        · cases h
    · cases hq : deUnderscore (isDig c) cs with
      | none => rw [hq] at h; cases h
      | some u =>
        rw [hq] at h
        cases h
        have := deUnderscore_length _ _ _ hq
        simp only [List.length_cons]
        omega

theorem strip_length_le (s : Str) : (strip s).length ≤ s.length := by
  unfold strip rstrip lstrip
  have h1 := List.Sublist.length_le (List.dropWhile_sublist isWs (l := s))
  have h2 := List.Sublist.length_le (List.dropWhile_sublist isWs (l := (s.dropWhile isWs).reverse))
  simp only [List.length_reverse] at *
  omega

/-- an integer read from at most `k + 2` columns fits into `k + 2` columns -/
theorem pyInt_fits {s : Str} {n : Int} {k : Nat} (h : pyInt s = some n) (hs : s.length ≤ k + 2) :
    -(10 ^ (k + 1) : Int) < n ∧ n < 10 ^ (k + 2) := by
  unfold pyInt at h
  cases ht : deUnderscore false (strip s) with
  | none => rw [ht] at h; cases h
  | some t =>
    have hl : t.length ≤ k + 2 := le_trans (deUnderscore_length _ _ _ ht) (le_trans (strip_length_le s) hs)
    rw [ht] at h
    simp only [bind, Option.bind] at h
    cases hp : parseNat (splitSign t).2 with
    | none => rw [hp] at h; cases h
    | some m =>
      rw [hp] at h
      dsimp only at h
      have h' : applySign (splitSign t).1 m = n := Option.some.inj h
      unfold parseNat at hp
      split at hp
      · rename_i hd
        cases hp
        have hlt := digitsVal_lt' (splitSign t).2 (by
          intro c hc
          exact List.all_eq_true.1 hd.2 c hc)
        have hcase : ((splitSign t).1 = false ∧ (splitSign t).2.length ≤ k + 2) ∨
            ((splitSign t).2.length ≤ k + 1) := by
          unfold splitSign
          split
          · right; simp only [List.length_cons] at hl; dsimp only; omega
          · right; simp only [List.length_cons] at hl; dsimp only; omega
          · left; exact ⟨rfl, hl⟩
        have hmono1 : (10:Nat) ^ (k+1) ≤ 10 ^ (k+2) := Nat.pow_le_pow_right (by norm_num) (by omega)
        rcases hcase with ⟨h1, h2⟩ | h2
        · have h3 : digitsVal (splitSign t).2 < 10 ^ (k+2) := lt_of_lt_of_le hlt (Nat.pow_le_pow_right (by norm_num) h2)
          rw [h1] at h'
          simp only [applySign, Bool.false_eq_true, if_false] at h'
          have h4 : ((digitsVal (splitSign t).2 : Nat) : Int) < 10 ^ (k+2) := by exact_mod_cast h3
          have h5 : (0:Int) < 10 ^ (k+1) := by positivity
          omega
        · have h3 : digitsVal (splitSign t).2 < 10 ^ (k+1) := lt_of_lt_of_le hlt (Nat.pow_le_pow_right (by norm_num) h2)
          have h4 : ((digitsVal (splitSign t).2 : Nat) : Int) < 10 ^ (k+1) := by exact_mod_cast h3
          have h5 : (10:Int) ^ (k+1) ≤ 10 ^ (k+2) := by exact_mod_cast hmono1
          unfold applySign at h'
          split at h' <;> omega
      · cases hp

theorem readCtrlNum_fits {s : Str} {n : Int} {k : Nat} (h : readCtrlNum s = .ok n) (hs : s.length ≤ k + 2) :
    -(10 ^ (k + 1) : Int) < n ∧ n < 10 ^ (k + 2) := by
  unfold readCtrlNum at h
  dsimp only at h
  split at h
  · cases hp : pyInt (strip s) with
    | none => rw [hp] at h; cases h
    | some m =>
      rw [hp] at h
      cases h
      exact pyInt_fits hp (le_trans (strip_length_le s) hs)
  · cases h
    have h5 : (0:Int) < 10 ^ (k+1) := by positivity
    have h6 : (0:Int) < 10 ^ (k+2) := by positivity
    omega

/-- control numbers that have been read fit their columns -/
theorem readCtrl_fits {w : Nat} {l : Str} {c : Ctrl} (h : readCtrl w l = .ok c) : FitsCtrl c.mat c.mf c.mt := by
  have hsl : ∀ i j, (slice l i j).length ≤ j - i := by
    intro i j; unfold slice; simp only [List.length_drop, List.length_take]; omega
  unfold readCtrl at h
  simp only [bind, Except.bind] at h
  split at h
  · cases h
  · rename_i a ha
    split at h
    · cases h
    · rename_i b hb
      split at h
      · cases h
      · rename_i x hx
        cases h
        have h1 := readCtrlNum_fits (k := 2) ha (le_trans (hsl _ _) (by omega))
        have h2 := readCtrlNum_fits (k := 0) hb (le_trans (hsl _ _) (by omega))
        have h3 := readCtrlNum_fits (k := 1) hx (le_trans (hsl _ _) (by omega))
        norm_num at h1 h2 h3
        exact ⟨h1, h2, h3⟩

def verbFile (s : Dict Int (List Str)) : Dict Int (SecVal Unit) := s.map (fun q => (q.1, SecVal.verb q.2))

/-- unparsed sections as they are stored by `parse` -/
def verbDic (d : MfDic) : Dict Int (Dict Int (SecVal Unit)) := d.map (fun p => (p.1, verbFile p.2))

theorem dGet_mapv {α β : Type} (f : α → β) (k : Int) : ∀ (d : Dict Int α),
    dGet k (d.map (fun p => (p.1, f p.2))) = (dGet k d).map f
  | [] => rfl
  | (a, b) :: d => by
    rw [List.map_cons, dGet, dGet, dGet_mapv f k d]
    split <;> rfl

theorem dKeys_mapv {α β : Type} (f : α → β) (d : Dict Int α) : dKeys (d.map (fun p => (p.1, f p.2))) = dKeys d := by
  unfold dKeys; rw [List.map_map]; rfl

/-- both levels of the section dictionary have distinct keys -/
def Nodup2 (d : MfDic) : Prop := DNodup d ∧ ∀ mf s, dGet mf d = some s → DNodup s

theorem addLine_nodup {d : MfDic} (h : Nodup2 d) (mf mt : Int) (l : Str) : Nodup2 (addLine mf mt l d) := by
  unfold addLine
  dsimp only
  refine ⟨dSet_nodup h.1, ?_⟩
  intro mf' s hs
  rw [dGet_dSet] at hs
  split at hs
  · cases hs
    apply dSet_nodup
    cases hg : dGet mf d with
    | none => simp [DNodup, dKeys]
    | some s => exact h.2 mf s hg
  · exact h.2 mf' s hs

theorem splitLoop_nodup {o : SplitOpts} : ∀ (ls : List Str) (st st' : SplitState), splitLoop o st ls = .ok st' →
    Nodup2 st.dic → Nodup2 st'.dic
  | [], st, st', h, hn => by rw [splitLoop] at h; cases h; exact hn
  | l :: ls, st, st', h, hn => by
    obtain ⟨s1, h1, h2⟩ := (splitLoop_cons _ _ _ _ _).1 h
    refine splitLoop_nodup ls s1 st' h2 ?_
    rcases splitStep_dic h1 with ⟨c, _, _, _, _, _, e⟩ | ⟨_, e⟩
    · rw [e]; exact addLine_nodup hn _ _ _
    · rw [e]; exact hn

theorem splitSections_nodup {o : SplitOpts} {lines : List Str} {d : MfDic} (h : splitSections o lines = .ok d) : Nodup2 d := by
  have h0 : Nodup2 ([] : MfDic) := ⟨by simp [DNodup, dKeys], by intro mf s hs; cases hs⟩
  obtain ⟨pre, l, rest, c, st, _, _, _, _, rfl, _, hcase⟩ := splitSections_ok h
  rcases hcase with ⟨_, _, hs⟩ | ⟨_, _, hs⟩
  · exact splitLoop_nodup _ _ _ hs h0
  · exact splitLoop_nodup _ _ _ hs (addLine_nodup h0 _ _ _)

/-- the dictionary has no empty file: every MF entry has a section -/
theorem splitLoop_nonempty {o : SplitOpts} : ∀ (ls : List Str) (st st' : SplitState), splitLoop o st ls = .ok st' →
    (∀ mf, dGet mf st.dic ≠ some []) → ∀ mf, dGet mf st'.dic ≠ some []
  | [], st, st', h, hn => by rw [splitLoop] at h; cases h; exact hn
  | l :: ls, st, st', h, hn => by
    obtain ⟨s1, h1, h2⟩ := (splitLoop_cons _ _ _ _ _).1 h
    refine splitLoop_nonempty ls s1 st' h2 ?_
    rcases splitStep_dic h1 with ⟨c, _, _, _, _, _, e⟩ | ⟨_, e⟩
    · rw [e]
      intro mf
      unfold addLine
      dsimp only
      rw [dGet_dSet]
      split
      · intro hh
        have := Option.some.inj hh
        cases hq : (dGet c.mf st.dic).getD [] with
        | nil => rw [hq] at this; simp [dSet] at this
        | cons p q =>
          rw [hq] at this
          obtain ⟨x, y⟩ := p
          unfold dSet at this
          split at this <;> cases this
      · exact hn mf
    · rw [e]; exact hn

/-- **C26** (partial) Reading a file of one material in strict mode without parsing any section, writing the result,
and reading the written lines again: the written lines are accepted and give the same MF/MT sections, with the columns
up to MT of every line unchanged.  `o`, `zab` are arbitrary writing options.
Missing: lines shorter than the columns up to MT, see `C26_fails`, and files with several materials. -/
theorem C26_verbatim_partial (o : WOpts) (r : ROpts) (hr : r.width = o.width) (hw : 9 ≤ o.width) (zab : Bool)
    (lines : List Str) (d : MfDic) (h : splitSections { fields := r } lines = .ok d) (mat : Int)
    (hmat : ∀ l ∈ lines, ∀ a b c, (theReader r).IsData a b c l → a = mat ∧ 0 < b)
    (hsome : ∃ l ∈ lines, ∃ a b c, (theReader r).IsData a b c l)
    (hlen : ∀ l ∈ lines, strip l ≠ [] → 6 * o.width + 9 ≤ l.length)
    (hhead : ∀ l, lines.head? = some l → strip (l.take (6 * o.width + 9)) ≠ []) :
    ∃ out d', writeTape { o := o, r := r, zab := zab, render := fun _ _ _ => none } (verbDic d) = .ok out ∧
      splitSections { fields := r } out = .ok d' ∧
      ∀ mf mt, (secOf d' mf mt).map (cols o.width) = (secOf d mf mt).map (cols o.width) := by
  have hnd := splitSections_nodup h
  obtain ⟨t, ht, ⟨hb, m0, hc⟩, ht1, _, _⟩ := (C21_structure r lines).1 ⟨d, h⟩
  have hlines : lines = t.tpid :: lines.tail := by rw [← ht]; rfl
  set e : WriteEnv Unit := { o := o, r := r, zab := zab, render := fun _ _ _ => none } with he
  have hget : ∀ mf, dGet mf (verbDic d) = (dGet mf d).map verbFile :=
    fun mf => dGet_mapv verbFile mf d
  have hget2 : ∀ mf mt, valOf (verbDic d) mf mt = (secOf d mf mt).map SecVal.verb := by
    intro mf mt
    unfold valOf secOf
    rw [hget]
    cases dGet mf d with
    | none => rfl
    | some s => exact dGet_mapv SecVal.verb mt s
  have hskip : ∀ mf mt, shouldSkip mf mt e.excl e.incl = false := fun _ _ => rfl
  -- every entry with MF ≠ 0 consists of data lines
  have hsec : ∀ mf mt ls, mf ≠ 0 → secOf d mf mt = some ls → mt ≠ 0 ∧ ls ≠ [] ∧
      ∀ l ∈ ls, l ∈ lines ∧ (theReader r).IsData mat mf mt l ∧ 0 < mf := by
    intro mf mt ls hmf hs
    have hmt : mt ≠ 0 := by
      intro hz
      rcases C22_head _ _ _ h mf mt (Or.inr hz) with hn | ⟨hz', _⟩
      · rw [hs] at hn; cases hn
      · exact hmf hz'
    rw [C22_sections _ _ _ h mf mt hmf hmt] at hs
    unfold entry at hs
    split at hs
    · cases hs
    · rename_i hne
      have hs' := Option.some.inj hs
      rw [hs'] at hne
      refine ⟨hmt, hne, ?_⟩
      intro l hl
      rw [← hs'] at hl
      obtain ⟨h1, h2⟩ := List.mem_filter.1 hl
      obtain ⟨a, ha⟩ := (carries_iff r mf mt l).1 h2
      obtain ⟨e1, e2⟩ := hmat l h1 a mf mt ha
      subst e1
      exact ⟨h1, ha, e2⟩
  have hfits : ∀ mf mt l, (theReader r).IsData mat mf mt l → FitsCtrl mat mf mt := by
    intro mf mt l hl
    exact readCtrl_fits (theReader_ctrl.1 hl.2.1)
  have hfiles : FilesOk e mat (verbDic d) := by
    refine ⟨?_, ?_, ?_, ?_, ?_⟩
    · have h1 := hnd.1
      unfold DNodup at *
      unfold verbDic
      rw [dKeys_mapv verbFile]
      exact h1
    · intro mf s hs
      rw [hget] at hs
      cases hg : dGet mf d with
      | none => rw [hg] at hs; cases hs
      | some u =>
        rw [hg] at hs
        cases hs
        have := hnd.2 mf u hg
        unfold DNodup verbFile at *
        rw [dKeys_mapv (SecVal.verb : List Str → SecVal Unit)]
        exact this
    · intro mf s hs
      by_cases hz : mf = 0
      · omega
      · -- a file has at least one section
        rw [hget] at hs
        cases hg : dGet mf d with
        | none => rw [hg] at hs; cases hs
        | some u =>
          have hune : u ≠ [] := by
            intro hu
            subst hu
            have h0 : ∀ mf, dGet mf ([] : MfDic) ≠ some [] := by intro mf; simp [dGet]
            obtain ⟨pre, l, rest, c, st, _, _, _, _, rfl, _, hcase⟩ := splitSections_ok h
            rcases hcase with ⟨_, h2, hs⟩ | ⟨_, _, hs⟩
            · cases h2
            · refine splitLoop_nonempty _ _ _ hs ?_ mf hg
              intro mf'
              simp [addLine, dSet, dGet]
          obtain ⟨⟨mt, ls⟩, us, rfl⟩ := List.exists_cons_of_ne_nil hune
          obtain ⟨_, h2, h3⟩ := hsec mf mt ls hz (by unfold secOf; rw [hg]; simp [dGet])
          obtain ⟨l, ls', rfl⟩ := List.exists_cons_of_ne_nil h2
          exact le_of_lt (h3 l (by simp)).2.2
    · intro mf s mt v hs hv hmf _
      have hv' : valOf (verbDic d) mf mt = some v := by unfold valOf; rw [hs]; exact hv
      rw [hget2] at hv'
      cases hq : secOf d mf mt with
      | none => rw [hq] at hv'; cases hv'
      | some ls =>
        rw [hq] at hv'
        cases hv'
        obtain ⟨h1, h2, h3⟩ := hsec mf mt ls hmf hq
        obtain ⟨l, ls', hll⟩ := List.exists_cons_of_ne_nil h2
        refine ⟨hfits mf mt l (h3 l (by rw [hll]; simp)).2.1, h2, ?_, trivial⟩
        intro x hx
        obtain ⟨g1, g2, _⟩ := h3 x hx
        exact ⟨hlen x g1 g2.1, g2⟩
    · obtain ⟨l, hl, a, b, c, hd⟩ := hsome
      have h1 : secOf d b c ≠ none := by
        rw [C22_sections _ _ _ h b c hd.2.2.2.1 hd.2.2.2.2]
        unfold entry
        rw [if_neg]
        · simp
        · intro hn
          have : l ∈ lines.filter (carries r.width b c) := List.mem_filter.2 ⟨hl, (carries_iff r b c l).2 ⟨a, hd⟩⟩
          dsimp only at hn
          rw [hn] at this
          cases this
      cases hq : dGet b (verbDic d) with
      | none =>
        exfalso
        have := hget2 b c
        unfold valOf at this
        rw [hq] at this
        cases hs : secOf d b c with
        | none => exact h1 hs
        | some ls => rw [hs] at this; cases this
      | some s =>
        have := hget2 b c
        unfold valOf at this
        rw [hq, Option.bind_some] at this
        cases hs : secOf d b c with
        | none => exact absurd hs h1
        | some ls =>
          rw [hs] at this
          exact ⟨b, s, c, _, hq, this, hd.2.2.2.1, rfl⟩
  have hheadsec : secOf d 0 0 = some [t.tpid] ∧ dGet 0 d = some [(0, [t.tpid])] := by
    obtain ⟨pre, y, rest', c', st, e1, e2, e3, e4, e5, e6, e7⟩ := splitSections_ok h
    have hpre : pre = [] := by
      cases pre with
      | nil => rfl
      | cons z zs =>
        rw [hlines] at e1
        simp only [List.cons_append, List.cons.injEq] at e1
        exact absurd (e2 z (by simp)) (by rw [← e1.1]; exact hb)
    subst hpre
    have hy : t.tpid = y := by
      rw [hlines] at e1
      simp only [List.nil_append, List.cons.injEq] at e1
      exact e1.1
    rcases e7 with ⟨_, h2, _⟩ | ⟨_, _, e8⟩
    · cases h2
    · have hh : lines.headD [] = t.tpid := by rw [hlines]; rfl
      have h0 : dGet 0 d = some [(0, [t.tpid])] := by
        rw [← e5]
        have key : ∀ (ls : List Str) (s s' : SplitState), splitLoop { fields := r } s ls = .ok s' → dGet 0 s'.dic = dGet 0 s.dic := by
          intro ls
          induction ls with
          | nil => intro s s' hs; rw [splitLoop] at hs; cases hs; rfl
          | cons x xs ih =>
            intro s s' hs
            obtain ⟨s1, h1, h2⟩ := (splitLoop_cons _ _ _ _ _).1 hs
            rw [ih s1 s' h2]
            rcases splitStep_dic h1 with ⟨c, _, _, _, a2, _, e⟩ | ⟨_, e⟩
            · rw [e]; unfold addLine; dsimp only; rw [dGet_dSet_ne a2]
            · rw [e]
        rw [key _ _ _ e8, hh]
        simp [addLine, dSet, dGet]
      refine ⟨?_, h0⟩
      unfold secOf
      rw [h0]
      simp [dGet]
  have hh : HeadOk e t.tpid (.verb [t.tpid]) := by
    refine ⟨hlen _ (by rw [hlines]; simp) hb, hhead _ (by rw [hlines]; rfl), ⟨m0, ?_⟩, rfl⟩
    have := theReader_ctrl.1 hc
    rw [hr] at this
    exact this
  obtain ⟨out, d', a1, a2, _, a4, a5⟩ := C25_written_partial e hr hw mat (verbDic d) hfiles t.tpid (.verb [t.tpid])
    (by rw [hget, hheadsec.2]; rfl) hh rfl
  refine ⟨out, d', a1, a2, ?_⟩
  intro mf mt
  by_cases hz : mf = 0 ∨ mt = 0
  · by_cases h00 : mf = 0 ∧ mt = 0
    · rw [h00.1, h00.2, hheadsec.1]
      exact a5
    · rcases C22_head _ _ _ h mf mt hz with h1 | ⟨h1, h1', _⟩
      · rcases C22_head _ _ _ a2 mf mt hz with h2 | ⟨h2, h2', _⟩
        · rw [h1, h2]
        · exact absurd ⟨h2, h2'⟩ h00
      · exact absurd ⟨h1, h1'⟩ h00
  · push Not at hz
    rw [a4 mf mt hz.1 hz.2, hget2]
    cases secOf d mf mt with
    | none => rfl
    | some ls => rfl

/-- `exTape` meets the hypotheses of `C26_verbatim_partial` -/
example : exTape.all (fun l => decide (75 ≤ l.length) && match readCtrl 11 l with
      | .ok c => decide (c.mt = 0) || (decide (c.mat = 125) && decide (0 < c.mf))
      | .error _ => false) = true := by decide +kernel

/-- and this is what comes out with line numbers -/
example : (match splitSections {} exTape with
    | .ok d => (match writeTape { o := { includeLinenum := true }, render := fun _ _ _ => none } (verbDic d) with
      | .ok out => decide (out.take 5 = [exLine "tape" 1 0 0 ++ "    0".toList, exLine "a" 125 1 451 ++ "    1".toList,
          exLine "b" 125 1 451 ++ "    2".toList, (rjust "0.000000+0".toList 11) ++ (rjust "0.000000+0".toList 11) ++
            rjust ['0'] 11 ++ rjust ['0'] 11 ++ rjust ['0'] 11 ++ rjust ['0'] 11 ++ " 125 1  099999".toList,
          (rjust "0.000000+0".toList 11) ++ (rjust "0.000000+0".toList 11) ++
            rjust ['0'] 11 ++ rjust ['0'] 11 ++ rjust ['0'] 11 ++ rjust ['0'] 11 ++ " 125 0  0    0".toList])
      | .error _ => false)
    | .error _ => false) = true := by decide +kernel

/-- reading, writing without parsing, and reading again: the columns up to MT of the tape head -/
def headAgain (o : WOpts) (lines : List Str) : Option (Option (List Str)) :=
  match splitSections {} lines with
  | .error _ => none
  | .ok d => match writeTape { o := o, render := fun _ _ _ => none } (verbDic d) with
    | .error _ => none
    | .ok out => match splitSections {} out with
      | .error _ => none
      | .ok d' => some ((secOf d' 0 0).map (cols 11))

/-- **C26 fails** for a short line: the line number is put directly behind the text of a tape head that has fewer than
75 columns, and becomes part of its text. -/
theorem C26_fails : ∃ lines : List Str, (splitSections {} lines).toBool = true ∧
    lines.head? = some "tape".toList ∧
    headAgain { includeLinenum := true } lines = some (some ["tape    0".toList]) :=
  ⟨"tape".toList :: exTape.tail, by decide +kernel, rfl, by decide +kernel⟩

/-- **C26 fails** when the lines carry their newline characters, as those read by `parsefile` do, and the tape head
is short: the written line contains a newline in the middle, that is, the file gets an additional line. -/
theorem C26_newline_fails : ∃ lines : List Str, (splitSections {} lines).toBool = true ∧
    (∀ l ∈ lines, l.getLast? = some '\n') ∧
    headAgain { includeLinenum := true } lines = some (some ["tape\n    0".toList]) :=
  ⟨"tape\n".toList :: exTape.tail.map (· ++ ['\n']), by decide +kernel, by decide +kernel, by decide +kernel⟩

/-! ### C27 -/

/-- what an `exclude` or `include` argument denotes: a number stands for the whole MF file, a pair (tuple or other
iterable) for a single section -/
def Selects (s : Sel) (mf mt : Int) : Prop :=
  match s with
  | .one n => n = mf
  | .many l => ∃ x ∈ l, x = .num mf ∨ x = .tup [mf, mt] ∨ x = .lst [mf, mt]

theorem norm_selects (s : Sel) (mf mt : Int) :
    Selects s mf mt ↔ (s.norm.contains (.num mf) = true ∨ s.norm.contains (.tup [mf, mt]) = true) := by
  cases s with
  | one n => simp [Selects, Sel.norm, eq_comm]
  | many l =>
    simp only [Selects, Sel.norm, List.contains_eq_mem, List.mem_map, decide_eq_true_eq]
    constructor
    · rintro ⟨x, hx, rfl | rfl | rfl⟩
      · exact Or.inl ⟨_, hx, rfl⟩
      · exact Or.inr ⟨_, hx, rfl⟩
      · exact Or.inr ⟨_, hx, rfl⟩
    · rintro (⟨x, hx, h⟩ | ⟨x, hx, h⟩)
      · cases x with
        | num n => exact ⟨_, hx, Or.inl h⟩
        | tup t => cases h
        | lst t => cases h
      · cases x with
        | num n => cases h
        | tup t => cases h; exact ⟨_, hx, Or.inr (Or.inl rfl)⟩
        | lst t => cases h; exact ⟨_, hx, Or.inr (Or.inr rfl)⟩

/-- **C27** A section is processed iff it is not excluded, if `exclude` is given; else iff it is included, if
`include` is given; else always. -/
theorem C27_selection (mf mt : Int) (excl incl : Option Sel) :
    shouldSkip mf mt excl incl = false ↔
      match excl, incl with
      | some x, _ => ¬ Selects x mf mt
      | none, some i => Selects i mf mt
      | none, none => True := by
  cases excl with
  | some x =>
    simp only [norm_selects, shouldSkip]
    cases h1 : x.norm.contains (.num mf) <;> cases h2 : x.norm.contains (.tup [mf, mt]) <;> simp
  | none =>
    cases incl with
    | some i =>
      simp only [norm_selects, shouldSkip]
      cases h1 : i.norm.contains (.num mf) <;> cases h2 : i.norm.contains (.tup [mf, mt]) <;> simp
    | none => simp [shouldSkip]

/-- **C27** The compiled parser selects the same sections, for arguments given as sequences of numbers and tuples. -/
theorem C27_cpp_agrees (mf mt : Int) (excl incl : Option (List SelItem))
    (hx : ∀ l, excl = some l → ∀ t, .lst t ∉ l) (hi : ∀ l, incl = some l → ∀ t, .lst t ∉ l) :
    shouldParseCpp mf mt (excl.map .many) (incl.map .many) =
      .ok (!shouldSkip mf mt (excl.map .many) (incl.map .many)) := by
  have key : ∀ (l : List SelItem) (y : SelItem), (∀ t, .lst t ∉ l) → (∀ t, y ≠ .lst t) →
      seqContains l y = (Sel.many l).norm.contains y := by
    intro l y hl hy
    rw [Bool.eq_iff_iff]
    simp only [seqContains, Sel.norm, List.any_eq_true, decide_eq_true_eq, List.contains_eq_mem, List.mem_map]
    constructor
    · rintro ⟨x, h1, rfl⟩
      refine ⟨x, h1, ?_⟩
      cases x with
      | lst t => exact absurd h1 (hl t)
      | num n => rfl
      | tup t => rfl
    · rintro ⟨x, h1, h2⟩
      cases x with
      | lst t => exact absurd h1 (hl t)
      | num n => exact ⟨_, h1, h2⟩
      | tup t => exact ⟨_, h1, h2⟩
  cases excl with
  | some l =>
    simp only [Option.map_some, shouldParseCpp, shouldSkip]
    rw [key l _ (hx l rfl) (by simp), key l _ (hx l rfl) (by simp)]
    cases (Sel.many l).norm.contains (.num mf) <;> cases (Sel.many l).norm.contains (.tup [mf, mt]) <;> rfl
  | none =>
    cases incl with
    | some l =>
      simp only [Option.map_some, Option.map_none, shouldParseCpp, shouldSkip]
      rw [key l _ (hi l rfl) (by simp), key l _ (hi l rfl) (by simp)]
      cases (Sel.many l).norm.contains (.num mf) <;> cases (Sel.many l).norm.contains (.tup [mf, mt]) <;> rfl
    | none => rfl

/-- the two differ otherwise: a pair given as list is ignored by the compiled parser, a plain number refused -/
theorem C27_cpp_differs : (∃ mf mt l, shouldParseCpp mf mt (some (.many l)) none = .ok (shouldSkip mf mt (some (.many l)) none)) ∧
    ∃ mf mt n, (shouldParseCpp mf mt (some (.one n)) none).toBool = false ∧ shouldSkip mf mt (some (.one n)) none = true :=
  ⟨⟨3, 102, [.lst [3, 102]], by decide⟩, ⟨3, 102, 3, by decide⟩⟩

example : shouldSkip 3 102 (some (.many [.num 1, .tup [3, 102]])) (some (.one 3)) = true ∧
    shouldSkip 3 1 (some (.many [.num 1, .tup [3, 102]])) none = false ∧
    shouldSkip 3 1 none (some (.many [.num 1, .tup [3, 102]])) = true ∧ shouldSkip 1 7 none (some (.one 1)) = false := by decide

end Verif
