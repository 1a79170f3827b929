import Verif.Model.Write
import Verif.Props.Sections
import Verif.Props.Tables
/-
The text assembled by `write` as a tape.
-/
namespace Verif
open Spec

/-! ### sorted dictionaries -/

theorem dSort_perm {α : Type} (d : Dict Int α) : List.Perm (dSort d) d := List.perm_insertionSort _ d

theorem dSort_sorted {α : Type} (d : Dict Int α) : List.Pairwise (fun a b : Int × α => a.1 ≤ b.1) (dSort d) := by
  have : Std.Total (fun a b : Int × α => a.1 ≤ b.1) := ⟨fun a b => le_total a.1 b.1⟩
  have : IsTrans (Int × α) (fun a b : Int × α => a.1 ≤ b.1) := ⟨fun a b c h1 h2 => le_trans h1 h2⟩
  exact List.pairwise_insertionSort _ d

theorem dSort_nodup {α : Type} {d : Dict Int α} (h : DNodup d) : DNodup (dSort d) := by
  unfold DNodup dKeys at *
  exact ((dSort_perm d).map _).nodup_iff.2 h

theorem dGet_perm {α : Type} {d d' : Dict Int α} (hp : List.Perm d d') (h : DNodup d) (k : Int) : dGet k d = dGet k d' := by
  have h' : DNodup d' := by unfold DNodup dKeys at *; exact (hp.map _).nodup_iff.1 h
  cases hg : dGet k d' with
  | none =>
    rw [dGet_none_iff] at hg ⊢
    intro hk
    exact hg ((hp.map Prod.fst).mem_iff.1 hk)
  | some v => exact dGet_of_mem h (hp.mem_iff.2 (dGet_mem hg))

theorem dGet_dSort {α : Type} {d : Dict Int α} (h : DNodup d) (k : Int) : dGet k (dSort d) = dGet k d :=
  dGet_perm (dSort_perm d) (dSort_nodup h) k

theorem dSort_strict {α : Type} {d : Dict Int α} (h : DNodup d) :
    List.Pairwise (fun a b : Int × α => a.1 < b.1) (dSort d) := by
  have h1 := dSort_sorted d
  have h2 : List.Pairwise (fun a b : Int × α => a.1 ≠ b.1) (dSort d) := List.pairwise_map.1 (dSort_nodup h)
  exact (h1.and h2).imp (fun {a b} h => lt_of_le_of_ne h.1 h.2)

theorem dGet_filter {α : Type} (p : Int → Bool) : ∀ (d : Dict Int α) (k : Int),
    dGet k (d.filter (fun x => p x.1)) = if p k then dGet k d else none
  | [], k => by simp [dGet]
  | (a, b) :: d, k => by
    by_cases hp : p a = true
    · rw [List.filter_cons_of_pos (by simpa using hp), dGet, dGet, dGet_filter p d k]
      by_cases hk : a = k
      · subst hk; simp [hp]
      · simp [hk]
    · rw [List.filter_cons_of_neg (by simpa using hp), dGet, dGet_filter p d k]
      by_cases hk : a = k
      · subst hk; simp [hp]
      · simp [hk]

theorem flatten_ite {α β : Type} (g : α → List β) (k : Int) : ∀ (l : List (Int × α)), DNodup l →
    (l.map (fun p => if p.1 = k then g p.2 else [])).flatten = ((dGet k l).map g).getD []
  | [], _ => rfl
  | (a, b) :: l, h => by
    unfold DNodup dKeys at h
    rw [List.map_cons, List.nodup_cons] at h
    rw [List.map_cons, List.flatten_cons, dGet, flatten_ite g k l h.2]
    by_cases hk : a = k
    · have : dGet k l = none := by rw [dGet_none_iff]; rw [← hk]; exact h.1
      simp [hk, this]
    · simp [hk]

/-! ### lines -/

theorem slice_take_append (l x : Str) (n i j : Nat) (hn : n ≤ l.length) (hj : j ≤ n) :
    slice (l.take n ++ x) i j = slice l i j := by
  unfold slice
  rw [List.take_append_of_le_length (by simp; omega), List.take_take, Nat.min_eq_left hj]

theorem readCtrl_take (w : Nat) (l x : Str) (h : 6 * w + 9 ≤ l.length) :
    readCtrl w (l.take (6 * w + 9) ++ x) = readCtrl w l := by
  unfold readCtrl
  dsimp only
  rw [slice_take_append _ _ _ _ _ h (by omega), slice_take_append _ _ _ _ _ h (by omega),
    slice_take_append _ _ _ _ _ h (by omega)]

theorem strip_eq_nil_of_sub {a b : Str} (h : ∀ c ∈ a, c ∈ b) (hb : strip b = []) : strip a = [] := by
  rw [strip_eq_nil_iff] at *
  exact fun c hc => hb c (h c hc)

/-- a line with a non-zero MT number is not blank -/
theorem not_blank_of_mt {w : Nat} {l : Str} {c : Ctrl} (h : readCtrl w l = .ok c) (hm : c.mt ≠ 0) : strip l ≠ [] := by
  intro hb
  have e : ∀ i j, strip (slice l i j) = [] := fun i j =>
    strip_eq_nil_of_sub (fun c hc => List.mem_of_mem_take (List.mem_of_mem_drop hc)) hb
  unfold readCtrl readCtrlNum at h
  simp only [e, ne_eq, not_true_eq_false, if_false, bind, Except.bind] at h
  cases h
  exact hm rfl

/-- the numbered line `l'` belongs to `l`: same columns up to MT, then arbitrary text -/
def Numbered (w : Nat) (l l' : Str) : Prop := ∃ num, l' = l.take (6 * w + 9) ++ num

theorem Numbered.take {w : Nat} {l l' : Str} (h : Numbered w l l') (hl : 6 * w + 9 ≤ l.length) :
    l'.take (6 * w + 9) = l.take (6 * w + 9) := by
  obtain ⟨num, rfl⟩ := h
  rw [List.take_append_of_le_length (by simp; omega), List.take_take, Nat.min_self]

theorem Numbered.isData {r : ROpts} {l l' : Str} (h : Numbered r.width l l') (hl : 6 * r.width + 9 ≤ l.length)
    {mat mf mt : Int} (hd : (theReader r).IsData mat mf mt l) : (theReader r).IsData mat mf mt l' := by
  obtain ⟨num, rfl⟩ := h
  obtain ⟨_, h2, h3, h4, h5⟩ := hd
  rw [theReader_ctrl] at h2
  have h6 : readCtrl r.width (l.take (6 * r.width + 9) ++ num) = .ok ⟨mat, mf, mt⟩ := by
    rw [readCtrl_take _ _ _ hl, h2]
  exact ⟨not_blank_of_mt h6 h5, theReader_ctrl.2 h6, h3, h4, h5⟩

theorem addLinenumbers_numbered (o : WOpts) (l0 : Str) (ls : List Str) (c : Ctrl) (h : readCtrl o.width l0 = .ok c) :
    ∃ out, addLinenumbers o (l0 :: ls) = .ok out ∧ List.Forall₂ (Numbered o.width) (l0 :: ls) out := by
  have hl0 : lineAt (l0 :: ls) 0 = .ok l0 := rfl
  unfold addLinenumbers
  simp only [hl0, h, bind, Except.bind]
  cases ho : o.includeLinenum with
  | false =>
    refine ⟨_, rfl, ?_⟩
    rw [List.forall₂_map_right_iff, List.forall₂_same]
    intro x _
    exact ⟨[], by rw [Nat.mul_comm]; simp⟩
  | true =>
    refine ⟨_, rfl, ?_⟩
    rw [List.forall₂_iff_get]
    refine ⟨by simp, ?_⟩
    intro i h1 h2
    simp only [List.get_eq_getElem, List.getElem_mapIdx, List.getElem_map]
    have e : o.width * 6 + 9 = 6 * o.width + 9 := by omega
    exact ⟨rjust (natStr (i % (10 ^ 5 - 1) + if c.mf ≠ 0 then 1 else 0)) 5, by simp only [e]⟩

/-! ### one section -/

/-- the data lines of a section value, before numbering -/
def secText {α : Type} (e : WriteEnv α) (mf mt : Int) : SecVal α → List Str
  | .verb ls => ls
  | .data x => match e.render mf mt x with
    | some (.ok (ls, _)) => if mf ≠ 0 then ls.dropLast else ls
    | _ => []

/-- a section value that belongs to `mat`, `mf`, `mt`: full lines with these numbers, at least one; for parsed
sections, the recipe succeeds, ends with a SEND record and leaves these control numbers -/
def SecOk {α : Type} (e : WriteEnv α) (mat mf mt : Int) (v : SecVal α) : Prop :=
  secText e mf mt v ≠ [] ∧
  (∀ l ∈ secText e mf mt v, 6 * e.o.width + 9 ≤ l.length ∧ (theReader e.r).IsData mat mf mt l) ∧
  match v with
  | .verb _ => True
  | .data x => ∃ body send, e.render mf mt x = some (.ok (body ++ [send], ⟨mat, mf, mt⟩)) ∧
      (theReader e.r).IsEnd mat mf send

theorem writtenEnd {e : WOpts} {r : ROpts} (hr : r.width = e.width) (hw : 9 ≤ e.width) (zab : Bool) (mat mf mt : Int)
    (hc : FitsCtrl mat mf mt) (res : Res (List Str)) (c : Ctrl)
    (hcase : (res, c) ∈ [(writeSend e zab ⟨mat, mf, mt⟩, (⟨mat, mf, 0⟩ : Ctrl)), (writeFend e zab ⟨mat, mf, mt⟩, ⟨mat, 0, 0⟩),
      (writeMend e zab, ⟨0, 0, 0⟩), (writeTend e zab, ⟨-1, 0, 0⟩)]) :
    ∃ line, res = .ok [line] ∧ (theReader r).IsEnd c.mat c.mf line := by
  obtain ⟨line, h1, _, h3⟩ := C12_end_records e hw zab r hr mat mf mt hc res c hcase
  obtain ⟨y1, y2, a1, a2, a3⟩ := h3 [line] 0 (by
    intro i s hs
    cases i with
    | zero => simp at hs; subst hs; exact ⟨_, rfl, List.prefix_rfl⟩
    | succ n => simp at hs)
  refine ⟨line, h1, ?_⟩
  have hmt : c.mt = 0 := by
    simp only [List.mem_cons, List.not_mem_nil, or_false, Prod.mk.injEq] at hcase
    rcases hcase with ⟨_, rfl⟩ | ⟨_, rfl⟩ | ⟨_, rfl⟩ | ⟨_, rfl⟩ <;> rfl
  have hrc : readCont r [line] 0 = .ok (⟨y1, y2, .int 0, .int 0, .int 0, .int 0, c⟩, 1) := by
    unfold readSend at a3
    cases hq : readCont r [line] 0 with
    | error e => rw [hq] at a3; cases a3
    | ok p =>
      obtain ⟨x, n⟩ := p
      rw [hq] at a3
      simp only [bind, Except.bind] at a3
      split at a3
      · cases a3
      · cases a3; rfl
  have hct := readCont_ctrl hrc
  dsimp only at hct
  refine ⟨?_, ?_, _, _, hrc, a1, a2, rfl, rfl, rfl, rfl⟩
  · -- not blank: the control columns contain digits
    have hz : ∀ a b : Int, '0' ∈ writeCtrl ⟨a, b, 0⟩ := by
      intro a b
      unfold writeCtrl
      rw [List.mem_append]
      right
      show '0' ∈ rjust (intStr 0) 3
      decide +kernel
    obtain ⟨zf, i, q1, _⟩ := zeroFields_ok e hw zab
    have h0 : '0' ∈ line := by
      simp only [List.mem_cons, List.not_mem_nil, or_false, Prod.mk.injEq] at hcase
      rcases hcase with ⟨rfl, _⟩ | ⟨rfl, _⟩ | ⟨rfl, _⟩ | ⟨rfl, _⟩
      · unfold writeSend at h1
        simp only [q1, bind, Except.bind] at h1
        have := List.cons.inj (Except.ok.inj h1)
        rw [← this.1]
        exact List.mem_append_left _ (List.mem_append_right _ (hz _ _))
      · unfold writeFend at h1
        simp only [q1, bind, Except.bind] at h1
        have := List.cons.inj (Except.ok.inj h1)
        rw [← this.1]
        exact List.mem_append_left _ (List.mem_append_right _ (hz _ _))
      · unfold writeMend at h1
        simp only [q1, bind, Except.bind] at h1
        have := List.cons.inj (Except.ok.inj h1)
        rw [← this.1]
        exact List.mem_append_left _ (List.mem_append_right _ (hz _ _))
      · unfold writeTend at h1
        simp only [q1, bind, Except.bind] at h1
        have := List.cons.inj (Except.ok.inj h1)
        rw [← this.1]
        exact List.mem_append_left _ (List.mem_append_right _ (hz _ _))
    intro hb
    have hb' : strip line = [] := hb
    rw [strip_eq_nil_iff] at hb'
    exact absurd (hb' _ h0) (by decide +kernel)
  · rw [theReader_ctrl, hct]
    obtain ⟨x, y, z⟩ := c
    dsimp only at hmt ⊢
    rw [hmt]

theorem forall₂_numbered {r : ROpts} {mat mf mt : Int} : ∀ {ls out : List Str},
    List.Forall₂ (Numbered r.width) ls out →
    (∀ l ∈ ls, 6 * r.width + 9 ≤ l.length ∧ (theReader r).IsData mat mf mt l) →
    (∀ l ∈ out, (theReader r).IsData mat mf mt l) ∧
      out.map (·.take (6 * r.width + 9)) = ls.map (·.take (6 * r.width + 9))
  | _, _, .nil, _ => by simp
  | _, _, .cons h hs, hl => by
    obtain ⟨h1, h2⟩ := forall₂_numbered hs (fun x hx => hl x (by simp [hx]))
    obtain ⟨g1, g2⟩ := hl _ (List.mem_cons_self)
    constructor
    · intro x hx
      rw [List.mem_cons] at hx
      rcases hx with rfl | hx
      · exact h.isData g1 g2
      · exact h1 x hx
    · rw [List.map_cons, List.map_cons, h2, h.take g1]

/-- the text written for a section -/
theorem writeSec_ok {α : Type} (e : WriteEnv α) (hr : e.r.width = e.o.width) (hw : 9 ≤ e.o.width) {mat mf mt : Int}
    (hfit : FitsCtrl mat mf mt) (hmf : mf ≠ 0) {v : SecVal α} (h : SecOk e mat mf mt v) :
    ∃ s : TSec, writeSec e mf mt v = .ok (s.lines, ⟨mat, mf, mt⟩) ∧ s.mt = mt ∧ s.WF (theReader e.r) mat mf ∧
      s.data.map (·.take (6 * e.o.width + 9)) = (secText e mf mt v).map (·.take (6 * e.o.width + 9)) := by
  obtain ⟨hne, hdata, hv⟩ := h
  have hnum : ∃ out, addLinenumbers e.o (secText e mf mt v) = .ok out ∧ out ≠ [] ∧
      (∀ l ∈ out, (theReader e.r).IsData mat mf mt l) ∧
      out.map (·.take (6 * e.o.width + 9)) = (secText e mf mt v).map (·.take (6 * e.o.width + 9)) := by
    obtain ⟨l0, ls, hls⟩ := List.exists_cons_of_ne_nil hne
    rw [hls] at hdata ⊢
    have hc := (hdata l0 (by simp)).2.2.1
    rw [theReader_ctrl, hr] at hc
    obtain ⟨out, h1, h2⟩ := addLinenumbers_numbered e.o l0 ls _ hc
    rw [← hr] at h2 hdata ⊢
    have h3 := forall₂_numbered h2 hdata
    refine ⟨out, h1, ?_, h3.1, h3.2⟩
    intro hn; subst hn; cases h2
  obtain ⟨out, h1, h2, h3, h4⟩ := hnum
  cases v with
  | verb ls =>
    obtain ⟨send, hs1, hs2⟩ := writtenEnd hr hw e.zab mat mf mt hfit (writeSend e.o e.zab ⟨mat, mf, mt⟩) ⟨mat, mf, 0⟩ (by simp)
    refine ⟨⟨mt, out, send⟩, ?_, rfl, ⟨h2, h3, hs2⟩, h4⟩
    have hlast : ∃ l, lineAt out (out.length - 1) = .ok l ∧ l ∈ out := by
      have hlt : out.length - 1 < out.length := by
        have := List.length_pos_iff.2 h2; omega
      refine ⟨out[out.length - 1], ?_, List.getElem_mem hlt⟩
      unfold lineAt
      rw [List.getElem?_eq_getElem hlt]
    obtain ⟨l, hl1, hl2⟩ := hlast
    have hl3 := (h3 l hl2).2.1
    rw [theReader_ctrl] at hl3
    unfold writeSec secText at *
    simp only [h1, hl1, hl3, bind, Except.bind, ne_eq, hmf, not_false_eq_true, if_true, hs1]
    rfl
  | data x =>
    obtain ⟨body, send, hx, hs⟩ := hv
    have hb : secText e mf mt (.data x) = body := by
      unfold secText; simp [hx, hmf]
    rw [hb] at h1 h4
    refine ⟨⟨mt, out, send⟩, ?_, rfl, ⟨h2, h3, hs⟩, by rw [hb]; exact h4⟩
    unfold writeSec
    simp only [hx, bind, Except.bind, ne_eq, hmf, not_false_eq_true, if_true, List.dropLast_concat, h1]
    simp [TSec.lines, pure, Except.pure]

/-! ### the sections of one file, and all files -/

/-- the sections of an MF that are written, in order -/
def kept {α : Type} (e : WriteEnv α) (mf : Int) (d : Dict Int (SecVal α)) : List (Int × SecVal α) :=
  (dSort d).filter (fun p => !shouldSkip mf p.1 e.excl e.incl)

/-- section `s` of the tape holds the text of `p` -/
def SecRel {α : Type} (e : WriteEnv α) (mf : Int) (p : Int × SecVal α) (s : TSec) : Prop :=
  s.mt = p.1 ∧ s.data.map (·.take (6 * e.o.width + 9)) = (secText e mf p.1 p.2).map (·.take (6 * e.o.width + 9))

theorem writeMts_ok {α : Type} (e : WriteEnv α) (hr : e.r.width = e.o.width) (hw : 9 ≤ e.o.width) {mat mf : Int}
    (hmf : mf ≠ 0) : ∀ (l : List (Int × SecVal α)),
    (∀ p ∈ l, shouldSkip mf p.1 e.excl e.incl = false → FitsCtrl mat mf p.1 ∧ SecOk e mat mf p.1 p.2) →
    ∀ c0 : Option Ctrl, ∃ secs : List TSec, ∃ c, writeMts e mf l c0 = .ok ((secs.map TSec.lines).flatten, c) ∧
      (∀ s ∈ secs, s.WF (theReader e.r) mat mf) ∧
      List.Forall₂ (SecRel e mf) (l.filter (fun p => !shouldSkip mf p.1 e.excl e.incl)) secs ∧
      (secs = [] → c = c0) ∧ (secs ≠ [] → ∃ mt, c = some ⟨mat, mf, mt⟩ ∧ FitsCtrl mat mf mt)
  | [], _, c0 => ⟨[], c0, rfl, by simp, by simp, by simp, by simp⟩
  | (mt, v) :: l, h, c0 => by
    by_cases hs : shouldSkip mf mt e.excl e.incl = true
    · obtain ⟨secs, c, h1, h2, h3, h4⟩ := writeMts_ok e hr hw hmf l (fun p hp => h p (by simp [hp])) c0
      refine ⟨secs, c, ?_, h2, ?_, h4⟩
      · rw [writeMts, if_pos hs, h1]
      · rw [List.filter_cons_of_neg (by simp [hs])]; exact h3
    · have hs' : shouldSkip mf mt e.excl e.incl = false := by simpa using hs
      obtain ⟨hf, hok⟩ := h (mt, v) (by simp) hs'
      obtain ⟨s, g1, g2, g3, g4⟩ := writeSec_ok e hr hw hf hmf hok
      obtain ⟨secs, c, h1, h2, h3, h4, h5⟩ := writeMts_ok e hr hw hmf l (fun p hp => h p (by simp [hp])) (some ⟨mat, mf, mt⟩)
      refine ⟨s :: secs, c, ?_, ?_, ?_, by simp, ?_⟩
      · rw [writeMts, if_neg hs, g1]
        simp only [bind, Except.bind, h1]
        rfl
      · intro x hx
        rw [List.mem_cons] at hx
        rcases hx with rfl | hx
        · exact g3
        · exact h2 x hx
      · rw [List.filter_cons_of_pos (by simp [hs'])]
        exact List.Forall₂.cons ⟨g2, g4⟩ h3
      · intro _
        by_cases hn : secs = []
        · exact ⟨mt, h4 hn, hf⟩
        · exact h5 hn

/-- file `f` of the tape holds the sections of `p` -/
def FileRel {α : Type} (e : WriteEnv α) (p : Int × Dict Int (SecVal α)) (f : TFile) : Prop :=
  f.mf = p.1 ∧ List.Forall₂ (SecRel e p.1) (kept e p.1 p.2) f.secs

theorem writeMfs_ok {α : Type} (e : WriteEnv α) (hr : e.r.width = e.o.width) (hw : 9 ≤ e.o.width) {mat : Int} :
    ∀ (l : List (Int × Dict Int (SecVal α))),
    (∀ p ∈ l, p.1 ≠ 0 ∧ ∀ q ∈ p.2, shouldSkip p.1 q.1 e.excl e.incl = false →
      FitsCtrl mat p.1 q.1 ∧ SecOk e mat p.1 q.1 q.2) →
    ∃ files : List TFile, writeMfs e l = .ok (files.map TFile.lines).flatten ∧
      (∀ f ∈ files, f.WF (theReader e.r) mat) ∧
      List.Forall₂ (FileRel e) (l.filter (fun p => decide (kept e p.1 p.2 ≠ []))) files
  | [], _ => ⟨[], rfl, by simp, by simp⟩
  | (mf, d) :: l, h => by
    obtain ⟨hmf, hd⟩ := h (mf, d) (by simp)
    obtain ⟨secs, c, h1, h2, h3, h4, h5⟩ := writeMts_ok e hr hw hmf (dSort d)
      (fun q hq => hd q ((dSort_perm d).mem_iff.1 hq)) none
    obtain ⟨files, g1, g2, g3⟩ := writeMfs_ok e hr hw l (fun p hp => h p (by simp [hp]))
    have hk : (kept e mf d = []) ↔ secs = [] := by
      unfold kept
      rw [← List.length_eq_zero_iff, h3.length_eq, List.length_eq_zero_iff]
    by_cases hn : secs = []
    · refine ⟨files, ?_, g2, ?_⟩
      · rw [writeMfs]
        simp only [h1, bind, Except.bind, h4 hn, g1, hn]
        rfl
      · rw [List.filter_cons_of_neg (by simp [hk, hn])]; exact g3
    · obtain ⟨mt, hc, hf⟩ := h5 hn
      obtain ⟨fend, f1, f2⟩ := writtenEnd hr hw e.zab mat mf mt hf (writeFend e.o e.zab ⟨mat, mf, mt⟩) ⟨mat, 0, 0⟩ (by simp)
      refine ⟨⟨mf, secs, fend⟩ :: files, ?_, ?_, ?_⟩
      · rw [writeMfs]
        simp only [h1, bind, Except.bind, hc, g1, ne_eq, hmf, not_false_eq_true, if_true, f1]
        rfl
      · intro x hx
        rw [List.mem_cons] at hx
        rcases hx with rfl | hx
        · exact ⟨hn, h2, f2⟩
        · exact g2 x hx
      · rw [List.filter_cons_of_pos (by simp [hk, hn])]
        exact List.Forall₂.cons ⟨rfl, h3⟩ g3

/-! ### reading the written data lines -/

theorem carries_data {r : ROpts} {mat mf mt : Int} {l : Str} (h : (theReader r).IsData mat mf mt l) (mf' mt' : Int) :
    carries r.width mf' mt' l = decide (mf = mf' ∧ mt = mt') := by
  obtain ⟨h1, h2, h3, h4, h5⟩ := h
  rw [theReader_ctrl] at h2
  have h1' : strip l ≠ [] := h1
  unfold carries
  rw [h2, Bool.eq_iff_iff]
  simp only [Bool.and_eq_true, decide_eq_true_eq]
  constructor
  · rintro ⟨⟨⟨⟨_, a⟩, b⟩, _⟩, _⟩
    exact ⟨a, b⟩
  · rintro ⟨rfl, rfl⟩
    exact ⟨⟨⟨⟨⟨h1', h3⟩, rfl⟩, rfl⟩, h4⟩, h5⟩

theorem carries_zero {w : Nat} {c : Ctrl} {l : Str} (h : readCtrl w l = .ok c) (hm : c.mt = 0) (mf mt : Int) :
    carries w mf mt l = false := by
  unfold carries
  rw [h]
  by_contra hn
  simp only [Bool.not_eq_false, Bool.and_eq_true, decide_eq_true_eq] at hn
  obtain ⟨⟨⟨_, a⟩, _⟩, b⟩ := hn
  exact b (a ▸ hm)

theorem carries_end {r : ROpts} {mat mf : Int} {l : Str} (h : (theReader r).IsEnd mat mf l) (mf' mt' : Int) :
    carries r.width mf' mt' l = false :=
  carries_zero (theReader_ctrl.1 h.2.1) rfl _ _

theorem filter_sec {r : ROpts} {mat mf : Int} {s : TSec} (h : s.WF (theReader r) mat mf) (mf' mt' : Int) :
    s.lines.filter (carries r.width mf' mt') = if mf = mf' ∧ s.mt = mt' then s.data else [] := by
  unfold TSec.lines
  rw [List.filter_append, List.filter_cons_of_neg (by rw [carries_end h.2.2]; simp), List.filter_nil, List.append_nil]
  split
  · rename_i hc
    rw [List.filter_eq_self]
    intro l hl
    rw [carries_data (h.2.1 l hl)]
    simp [hc]
  · rename_i hc
    rw [List.filter_eq_nil_iff]
    intro l hl
    rw [carries_data (h.2.1 l hl)]
    simp only [decide_eq_true_eq]
    exact hc

theorem filter_file {r : ROpts} {mat : Int} {f : TFile} (h : f.WF (theReader r) mat) (mf' mt' : Int) :
    f.lines.filter (carries r.width mf' mt') =
      if f.mf = mf' then (f.secs.map (fun s => if s.mt = mt' then s.data else [])).flatten else [] := by
  unfold TFile.lines
  rw [List.filter_append, List.filter_cons_of_neg (by rw [carries_end h.2.2]; simp), List.filter_nil, List.append_nil,
    List.filter_flatten, List.map_map]
  have : f.secs.map (List.filter (carries r.width mf' mt') ∘ TSec.lines) =
      f.secs.map (fun s => if f.mf = mf' ∧ s.mt = mt' then s.data else []) := by
    apply List.map_congr_left
    intro s hs
    exact filter_sec (h.2.1 s hs) mf' mt'
  rw [this]
  by_cases hm : f.mf = mf'
  · simp [hm]
  · simp only [hm, false_and, if_false]
    induction f.secs with
    | nil => rfl
    | cons a l ih => simp

theorem filter_files {r : ROpts} {mat : Int} {files : List TFile} (h : ∀ f ∈ files, f.WF (theReader r) mat) (mf' mt' : Int) :
    ((files.map TFile.lines).flatten).filter (carries r.width mf' mt') =
      (files.map (fun f => if f.mf = mf' then (f.secs.map (fun s => if s.mt = mt' then s.data else [])).flatten else [])).flatten := by
  rw [List.filter_flatten, List.map_map]
  congr 1
  apply List.map_congr_left
  intro f hf
  exact filter_file (h f hf) mf' mt'

theorem secs_text {α : Type} (e : WriteEnv α) (mf mt' : Int) : ∀ {l : List (Int × SecVal α)} {secs : List TSec},
    List.Forall₂ (SecRel e mf) l secs →
    ((secs.map (fun s => if s.mt = mt' then s.data else [])).flatten).map (·.take (6 * e.o.width + 9)) =
      (l.map (fun p => if p.1 = mt' then (secText e mf mt' p.2).map (·.take (6 * e.o.width + 9)) else [])).flatten
  | _, _, .nil => rfl
  | p :: _, s :: _, .cons h hs => by
    rw [List.map_cons, List.flatten_cons, List.map_append, secs_text e mf mt' hs, List.map_cons, List.flatten_cons]
    congr 1
    obtain ⟨h1, h2⟩ := h
    by_cases hc : p.1 = mt'
    · rw [if_pos hc, if_pos (h1.trans hc), h2, hc]
    · rw [if_neg hc, if_neg (by rw [h1]; exact hc)]; rfl

theorem files_text {α : Type} (e : WriteEnv α) (mf' mt' : Int) : ∀ {l : List (Int × Dict Int (SecVal α))} {files : List TFile},
    List.Forall₂ (FileRel e) l files → 
    ((files.map (fun f => if f.mf = mf' then (f.secs.map (fun s => if s.mt = mt' then s.data else [])).flatten else [])).flatten).map
        (·.take (6 * e.o.width + 9)) =
      (l.map (fun p => if p.1 = mf' then
        ((kept e mf' p.2).map (fun q => if q.1 = mt' then (secText e mf' mt' q.2).map (·.take (6 * e.o.width + 9)) else [])).flatten
        else [])).flatten
  | _, _, .nil => rfl
  | p :: _, s :: _, .cons h hs => by
    rw [List.map_cons, List.flatten_cons, List.map_append, files_text e mf' mt' hs, List.map_cons, List.flatten_cons]
    congr 1
    obtain ⟨h1, h2⟩ := h
    by_cases hc : p.1 = mf'
    · rw [if_pos hc, if_pos (h1.trans hc), ← hc]
      exact secs_text e _ mt' h2
    · rw [if_neg hc, if_neg (by rw [h1]; exact hc)]; rfl

end Verif
