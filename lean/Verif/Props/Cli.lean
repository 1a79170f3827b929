import Verif.Model.Cli
import Verif.Props.CppTape
import Verif.Props.Cycle
import Verif.Props.Directory
import Verif.Props.Write

/-! Property C97: replacing a section or a file on the command line. -/

namespace Verif
open Spec

/-- a file of one material in strict layout: no blank lines, lines that reach up to MT, and a tape head that is not blank in these columns -/
structure Orderly (r : ROpts) (mat : Int) (lines : List Str) (d : MfDic) : Prop where
  read : splitSections { fields := r } lines = .ok d
  one : ∀ l ∈ lines, ∀ a b c, (theReader r).IsData a b c l → a = mat ∧ 0 < b
  any : ∃ l ∈ lines, ∃ a b c, (theReader r).IsData a b c l
  full : ∀ l ∈ lines, strip l ≠ [] ∧ 6 * r.width + 9 ≤ l.length
  head : ∀ l, lines.head? = some l → strip (l.take (6 * r.width + 9)) ≠ []

/-! ## the lenient splitter -/

theorem splitLoop_blank (o : SplitOpts) (b : Bool) : ∀ (ls : List Str) (st : SplitState), (∀ l ∈ ls, strip l ≠ []) →
    splitLoop { o with ignoreBlank := b } st ls = splitLoop o st ls
  | [], _, _ => rfl
  | l :: ls, st, h => by
    have h1 : splitStep { o with ignoreBlank := b } st l = splitStep o st l := by
      unfold splitStep
      rw [if_neg (h l (by simp)), if_neg (h l (by simp))]
    rw [splitLoop, splitLoop, h1]
    cases splitStep o st l with
    | error e => rfl
    | ok s => exact splitLoop_blank o b ls s (fun k hk => h k (by simp [hk]))

theorem splitSections_blank (o : SplitOpts) (b : Bool) (lines : List Str) (h : ∀ l ∈ lines, strip l ≠ []) :
    splitSections { o with ignoreBlank := b } lines = splitSections o lines := by
  unfold splitSections
  cases lines with
  | nil => rfl
  | cons l ls =>
    have e1 : splitLead { o with ignoreBlank := b } (l :: ls) = .ok (l :: ls) := by rw [splitLead, if_neg (h l (by simp))]
    have e2 : splitLead o (l :: ls) = .ok (l :: ls) := by rw [splitLead, if_neg (h l (by simp))]
    rw [e1, e2]
    simp only [bind, Except.bind]
    have h2 := fun st => splitLoop_blank o b ls st (fun k hk => h k (by simp [hk]))
    have h3 := fun st => splitLoop_blank o b (l :: ls) st h
    simp only [h2, h3]

theorem Orderly.lenient {x : PCtx} {mat : Int} {lines : List Str} {d : MfDic} (h : Orderly x.split.fields mat lines d) :
    splitSections x.lenient.split lines = .ok d := by
  have h1 := splitSections_noTpid h.read
  have h2 := C24_partial { fields := x.split.fields, ignoreTpid := true } rfl lines d h1 (.inr fun l hl => (h.full l hl).1)
  have h3 := splitSections_blank { fields := x.split.fields, ignoreSend := true, ignoreTpid := true } x.split.ignoreBlank lines
    (fun l hl => (h.full l hl).1)
  rw [show x.lenient.split = { fields := x.split.fields, ignoreBlank := x.split.ignoreBlank, ignoreSend := true, ignoreTpid := true } from rfl]
  exact h3.trans h2

/-! ## the dictionary of an orderly file -/

theorem Orderly.sec {r : ROpts} {mat : Int} {lines : List Str} {d : MfDic} (h : Orderly r mat lines d) {mf mt : Int} {ls : List Str}
    (hmf : mf ≠ 0) (hs : secOf d mf mt = .some ls) : 0 < mf ∧ ls ≠ [] ∧ ∀ l ∈ ls, 6 * r.width + 9 ≤ l.length ∧ (theReader r).IsData mat mf mt l := by
  have hmt : mt ≠ 0 := by
    intro hz
    rcases C22_head _ _ _ h.read mf mt (Or.inr hz) with hn | ⟨hz', _⟩
    · rw [hs] at hn; cases hn
    · exact hmf hz'
  rw [C22_sections _ _ _ h.read mf mt hmf hmt] at hs
  unfold entry at hs
  split at hs
  · cases hs
  · rename_i hne
    have hs' := Option.some.inj hs
    rw [hs'] at hne
    have hall : ∀ l ∈ ls, 0 < mf ∧ 6 * r.width + 9 ≤ l.length ∧ (theReader r).IsData mat mf mt l := by
      intro l hl
      rw [← hs'] at hl
      obtain ⟨h1, h2⟩ := List.mem_filter.1 hl
      obtain ⟨a, ha⟩ := (carries_iff r mf mt l).1 h2
      obtain ⟨e1, e2⟩ := h.one l h1 a mf mt ha
      subst e1
      exact ⟨e2, (h.full l h1).2, ha⟩
    refine ⟨?_, hne, fun l hl => (hall l hl).2⟩
    obtain ⟨l, ls', e⟩ := List.exists_cons_of_ne_nil hne
    exact (hall l (by rw [e]; simp)).1

theorem Orderly.tpid {r : ROpts} {mat : Int} {lines : List Str} {d : MfDic} (h : Orderly r mat lines d) :
    ∃ t m0, lines.head? = .some t ∧ readCtrl r.width t = .ok ⟨m0, 0, 0⟩ ∧ dGet 0 d = .some [(0, [t])] := by
  obtain ⟨pre, y, rest, c, st, e1, e2, e3, e4, e5, e6, e7⟩ := splitSections_ok h.read
  have hpre : pre = [] := by
    cases pre with
    | nil => rfl
    | cons z zs => exact absurd (e2 z (by simp)) (h.full z (by rw [e1]; simp)).1
  subst hpre
  rw [List.nil_append] at e1
  rcases e7 with ⟨_, h2, _⟩ | ⟨z1, z2, e8⟩
  · cases h2
  · refine ⟨y, c.mat, by rw [e1]; rfl, ?_, ?_⟩
    · obtain ⟨m, f, t⟩ := c
      dsimp only at z1 z2 ⊢
      subst z1 z2
      exact e4
    · have hh : lines.headD [] = y := by rw [e1]; rfl
      rw [← e5]
      have key : ∀ (ls : List Str) (s s' : SplitState), splitLoop { fields := r } s ls = .ok s' → dGet 0 s'.dic = dGet 0 s.dic := by
        intro ls
        induction ls with
        | nil => intro s s' hs; rw [splitLoop] at hs; cases hs; rfl
        | cons x xs ih =>
          intro s s' hs
          obtain ⟨s1, h1, h2⟩ := (splitLoop_cons _ _ _ _ _).1 hs
          rw [ih s1 s' h2]
          rcases splitStep_dic h1 with ⟨c, _, _, _, a2, _, e⟩ | ⟨_, e⟩
          · rw [e]; unfold addLine; dsimp only; rw [dGet_dSet_ne a2]
          · rw [e]
      rw [key _ _ _ e8, hh]
      simp [addLine, dSet, dGet]

/-- the sections as lines -/
def linesFile {α : Type} (s : Dict Int (List Str)) : Dict Int (SecVal α) := s.map (fun q => (q.1, SecVal.verb q.2))

def linesDic {α : Type} (d : MfDic) : Dict Int (Dict Int (SecVal α)) := d.map (fun p => (p.1, linesFile p.2))

theorem dGet_linesDic {α : Type} (d : MfDic) (mf : Int) : dGet mf (linesDic (α := α) d) = (dGet mf d).map linesFile := dGet_mapv linesFile mf d

theorem dGet_linesFile {α : Type} (s : Dict Int (List Str)) (mt : Int) : dGet mt (linesFile (α := α) s) = (dGet mt s).map SecVal.verb :=
  dGet_mapv SecVal.verb mt s

theorem linesFile_nodup {α : Type} {s : Dict Int (List Str)} (h : DNodup s) : DNodup (linesFile (α := α) s) := by
  unfold DNodup linesFile at *
  rw [dKeys_mapv (SecVal.verb : List Str → SecVal α)]
  exact h

theorem valOf_linesDic {α : Type} (d : MfDic) (mf mt : Int) : valOf (linesDic (α := α) d) mf mt = (secOf d mf mt).map SecVal.verb := by
  unfold valOf secOf
  rw [dGet_linesDic]
  cases dGet mf d with
  | none => rfl
  | some s => exact dGet_linesFile s mt

theorem parseMts_none {x : PCtx} {a : PArgs} (ha : a.excl = none ∧ a.incl = some (.many [])) (o : PObj) (mf : Int) : ∀ (s : Dict Int (List Str)),
    (∀ p ∈ s, ∃ c, (lineAt p.2 0 >>= readCtrl x.split.fields.width) = .ok c) → parseMts x a mf o s = (o, .ok (linesFile s))
  | [], _ => rfl
  | (mt, ls) :: s, h => by
    obtain ⟨c, hc⟩ := h (mt, ls) (by simp)
    have h1 : parseSec x a o mf mt ls = (o, .ok (.verb ls)) := by
      unfold parseSec
      dsimp only at hc
      rw [hc]
      dsimp only
      split
      · rfl
      · rw [if_pos (by rw [ha.1, ha.2]; rfl)]
    rw [parseMts, h1]
    dsimp only
    rw [parseMts_none ha o mf s (fun p hp => h p (by simp [hp]))]
    rfl

theorem parseMfs_none {x : PCtx} {a : PArgs} (ha : a.excl = none ∧ a.incl = some (.many [])) (o : PObj) : ∀ (d : MfDic),
    (∀ q ∈ d, ∀ p ∈ q.2, ∃ c, (lineAt p.2 0 >>= readCtrl x.split.fields.width) = .ok c) → parseMfs x a o d = (o, .ok (linesDic d))
  | [], _ => rfl
  | (mf, s) :: d, h => by
    rw [parseMfs, parseMts_none ha o mf s (h (mf, s) (by simp))]
    dsimp only
    rw [parseMfs_none ha o d (fun p hp => h p (by simp [hp]))]
    rfl

theorem Orderly.parse {x : PCtx} {mat : Int} {lines : List Str} {d : MfDic} (h : Orderly x.split.fields mat lines d) (o : PObj) :
    parse x.lenient o { lines := lines, incl := .some (.many []) } = (o, .ok (linesDic d)) := by
  unfold Verif.parse
  dsimp only
  rw [h.lenient]
  have hnd := splitSections_nodup h.read
  refine parseMfs_none ⟨rfl, rfl⟩ o d ?_
  rintro ⟨mf, s⟩ hq ⟨mt, ls⟩ hp
  have hg : dGet mf d = .some s := dGet_of_mem hnd.1 hq
  have hg2 : dGet mt s = .some ls := dGet_of_mem (hnd.2 mf s hg) hp
  dsimp only
  by_cases hz : mf = 0
  · subst hz
    obtain ⟨t, m0, _, hc, hd⟩ := h.tpid
    rw [hd] at hg
    cases Option.some.inj hg
    simp only [List.mem_singleton, Prod.mk.injEq] at hp
    obtain ⟨_, rfl⟩ := hp
    exact ⟨_, hc⟩
  · obtain ⟨_, h2, h3⟩ := h.sec (mf := mf) (mt := mt) (ls := ls) hz (by unfold secOf; rw [hg]; exact hg2)
    obtain ⟨l, ls', rfl⟩ := List.exists_cons_of_ne_nil h2
    exact ⟨_, theReader_ctrl.1 (h3 l (by simp)).2.2.1⟩

/-! ## what is written -/

theorem Orderly.secOk {r : ROpts} {mat : Int} {lines : List Str} {d : MfDic} (h : Orderly r mat lines d) {α : Type} (e : WriteEnv α)
    (he : e.r = r) (hr : e.r.width = e.o.width) {mf mt : Int} {ls : List Str} (hmf : mf ≠ 0) (hs : secOf d mf mt = .some ls) :
    FitsCtrl mat mf mt ∧ SecOk e mat mf mt (.verb ls) := by
  obtain ⟨_, h2, h3⟩ := h.sec hmf hs
  obtain ⟨l, ls', hl⟩ := List.exists_cons_of_ne_nil h2
  refine ⟨readCtrl_fits (theReader_ctrl.1 (h3 l (by rw [hl]; simp)).2.2.1), h2, fun k hk => ?_, trivial⟩
  obtain ⟨g1, g2⟩ := h3 k hk
  rw [he, ← hr, he]
  exact ⟨g1, g2⟩

theorem Orderly.files {r : ROpts} {mat : Int} {lines : List Str} {d : MfDic} (h : Orderly r mat lines d) {α : Type} (e : WriteEnv α)
    (he : e.r = r) (hr : e.r.width = e.o.width) (hk : e.excl = none ∧ e.incl = none) : FilesOk e mat (linesDic d) := by
  have hnd := splitSections_nodup h.read
  have hskip : ∀ mf mt, shouldSkip mf mt e.excl e.incl = false := fun _ _ => by rw [hk.1, hk.2]; rfl
  refine ⟨?_, ?_, ?_, ?_, ?_⟩
  · have h1 := hnd.1
    unfold DNodup linesDic at *
    rw [dKeys_mapv linesFile]
    exact h1
  · intro mf s hs
    rw [dGet_linesDic] at hs
    cases hg : dGet mf d with
    | none => rw [hg] at hs; cases hs
    | some u =>
      rw [hg] at hs
      cases hs
      exact linesFile_nodup (hnd.2 mf u hg)
  · intro mf s hs
    by_cases hz : mf = 0
    · omega
    · rw [dGet_linesDic] at hs
      cases hg : dGet mf d with
      | none => rw [hg] at hs; cases hs
      | some u =>
        have hune : u ≠ [] := by
          intro hu
          subst hu
          obtain ⟨pre, l, rest, c, st, _, _, _, _, rfl, _, hcase⟩ := splitSections_ok h.read
          rcases hcase with ⟨_, h2, hs⟩ | ⟨_, _, hs⟩
          · cases h2
          · refine splitLoop_nonempty _ _ _ hs ?_ mf hg
            intro mf'
            simp [addLine, dSet, dGet]
        obtain ⟨⟨mt, ls⟩, us, rfl⟩ := List.exists_cons_of_ne_nil hune
        exact le_of_lt (h.sec (mf := mf) (mt := mt) (ls := ls) hz (by unfold secOf; rw [hg]; simp [dGet])).1
  · intro mf s mt v hs hv hmf _
    have hv' : valOf (linesDic d) mf mt = some v := by unfold valOf; rw [hs]; exact hv
    rw [valOf_linesDic] at hv'
    cases hq : secOf d mf mt with
    | none => rw [hq] at hv'; cases hv'
    | some ls =>
      rw [hq] at hv'
      cases hv'
      exact h.secOk e he hr hmf hq
  · obtain ⟨l, hl, a, b, c, hd⟩ := h.any
    have h1 : secOf d b c ≠ none := by
      rw [C22_sections _ _ _ h.read b c hd.2.2.2.1 hd.2.2.2.2]
      unfold entry
      rw [if_neg]
      · simp
      · intro hn
        have : l ∈ lines.filter (carries r.width b c) := List.mem_filter.2 ⟨hl, (carries_iff r b c l).2 ⟨a, hd⟩⟩
        dsimp only at hn
        rw [hn] at this
        cases this
    cases hs : secOf d b c with
    | none => exact absurd hs h1
    | some ls =>
      have h2 := valOf_linesDic (α := α) d b c
      rw [hs] at h2
      unfold valOf at h2
      cases hq : dGet b (linesDic (α := α) d) with
      | none => rw [hq] at h2; cases h2
      | some s =>
        rw [hq] at h2
        exact ⟨b, s, c, _, hq, h2, hd.2.2.2.1, hskip b c⟩

theorem FilesOk.replace {α : Type} {e : WriteEnv α} {mat : Int} {dic : Dict Int (Dict Int (SecVal α))} (h : FilesOk e mat dic)
    (hk : e.excl = none ∧ e.incl = none) {mf : Int} (hmf : 0 < mf) {s : Dict Int (SecVal α)} (hn : DNodup s) (hne : ∃ mt v, dGet mt s = .some v)
    (hs : ∀ mt v, dGet mt s = .some v → FitsCtrl mat mf mt ∧ SecOk e mat mf mt v) : FilesOk e mat (dSet mf s dic) := by
  refine ⟨dSet_nodup h.nodup, fun a u hu => ?_, fun a u hu => ?_, fun a u mt v hu hv hz hsk => ?_, ?_⟩
  · by_cases ha : mf = a
    · subst ha; rw [dGet_dSet_self] at hu; cases hu; exact hn
    · rw [dGet_dSet_ne ha] at hu; exact h.nodup2 a u hu
  · by_cases ha : mf = a
    · subst ha; omega
    · rw [dGet_dSet_ne ha] at hu; exact h.pos a u hu
  · by_cases ha : mf = a
    · subst ha; rw [dGet_dSet_self] at hu; cases hu; exact hs mt v hv
    · rw [dGet_dSet_ne ha] at hu; exact h.secs a u mt v hu hv hz hsk
  · obtain ⟨mt, v, hv⟩ := hne
    exact ⟨mf, s, mt, v, dGet_dSet_self _ _ _, hv, by omega, by rw [hk.1, hk.2]; rfl⟩

/-- **C97** (partial) `endf-cli replace MF/MT source destination` and `endf-cli replace MF source destination` with two files of the same
material in strict layout, the source having that section or file: afterwards the destination is accepted by the strict parser, the section
`MF/MT` (all sections of the file `MF`) are those of the source, and all other sections, with the tape head, are those of the
destination, in the columns up to MT.  `x` are arbitrary options and recipes of the Python parser.
Missing: the tape head as section to be replaced, several materials, blank or short lines; for different materials it is false, see `C97_mat_fails`. -/
theorem C97_partial (x : PCtx) (zab : Bool) (hr : x.split.fields.width = x.wo.width) (hw : 9 ≤ x.wo.width) (mat : Int)
    (src dst : List Str) (ds dd : MfDic) (hsrc : Orderly x.split.fields mat src ds) (hdst : Orderly x.split.fields mat dst dd)
    (mf : Int) (mt : Option Int) (hmf : mf ≠ 0) (hin : ∃ b, (mt = none ∨ mt = some b) ∧ secOf ds mf b ≠ none) :
    ∃ out d', replaceLines x zab mf mt src dst = .ok out ∧ splitSections { fields := x.split.fields } out = .ok d' ∧
      ∀ a b, (secOf d' a b).map (cols x.wo.width) =
        if a = mf ∧ (mt = none ∨ mt = some b) then (secOf ds a b).map (cols x.wo.width) else (secOf dd a b).map (cols x.wo.width) := by
  obtain ⟨b0, hb0, hs0⟩ := hin
  obtain ⟨ls0, hls0⟩ := Option.ne_none_iff_exists'.1 hs0
  have hpos := (hsrc.sec hmf hls0).1
  set e := x.lenient.penned zab with he
  have her : e.r.width = e.o.width := hr
  have hf := hdst.files e rfl her ⟨rfl, rfl⟩
  have hnds := splitSections_nodup hsrc.read
  obtain ⟨t, m0, ht1, ht2, ht3⟩ := hdst.tpid
  -- the file put into the dictionary
  obtain ⟨f, hfs⟩ : ∃ f, dGet mf ds = some f := by
    unfold secOf at hls0
    cases hg : dGet mf ds with
    | none => rw [hg] at hls0; cases hls0
    | some f => exact ⟨f, rfl⟩
  have hfsec : ∀ b, secOf ds mf b = dGet b f := fun b => by unfold secOf; rw [hfs]; rfl
  have main : ∀ s : Dict Int (SecVal DDic), DNodup s →
      (∀ b, dGet b s = (if mt = none ∨ mt = some b then (secOf ds mf b).map SecVal.verb else (secOf dd mf b).map SecVal.verb)) →
      ∃ out d', writeTape e (dSet mf s (linesDic dd)) = .ok out ∧ splitSections { fields := x.split.fields } out = .ok d' ∧
      ∀ a b, (secOf d' a b).map (cols x.wo.width) =
        if a = mf ∧ (mt = none ∨ mt = some b) then (secOf ds a b).map (cols x.wo.width) else (secOf dd a b).map (cols x.wo.width) := by
    intro s hn hs
    have hok : FilesOk e mat (dSet mf s (linesDic dd)) := by
      refine hf.replace ⟨rfl, rfl⟩ hpos hn ⟨b0, .verb ls0, by rw [hs, if_pos hb0, hls0]; rfl⟩ fun b v hv => ?_
      rw [hs] at hv
      split at hv
      · cases hq : secOf ds mf b with
        | none => rw [hq] at hv; cases hv
        | some ls => rw [hq] at hv; cases hv; exact hsrc.secOk e rfl her hmf hq
      · cases hq : secOf dd mf b with
        | none => rw [hq] at hv; cases hv
        | some ls => rw [hq] at hv; cases hv; exact hdst.secOk e rfl her hmf hq
    have hh : HeadOk e t (.verb [t]) := by
      have hmem : t ∈ dst := List.mem_of_mem_head? (by rw [ht1]; rfl)
      have hwid : e.o.width = x.split.fields.width := hr.symm
      refine ⟨?_, ?_, ⟨m0, ?_⟩, rfl⟩
      · rw [hwid]; exact (hdst.full t hmem).2
      · rw [hwid]; exact hdst.head t ht1
      · rw [hwid]; exact ht2
    obtain ⟨out, d', a1, a2, _, a4, a5⟩ := C25_written_partial e her hw mat _ hok t (.verb [t])
      (by rw [dGet_dSet_ne hmf, dGet_linesDic, ht3]; rfl) hh rfl
    refine ⟨out, d', a1, a2, fun a b => ?_⟩
    have hnone : ∀ {l d} {a b : Int}, splitSections { fields := x.split.fields } l = .ok d → (a = 0 ∨ b = 0) → ¬ (a = 0 ∧ b = 0) → secOf d a b = none := by
      intro l d a b h hz h0
      rcases C22_head _ _ _ h a b hz with h1 | ⟨h1, h2, _⟩
      · exact h1
      · exact absurd ⟨h1, h2⟩ h0
    by_cases hz : a = 0 ∨ b = 0
    · by_cases h00 : a = 0 ∧ b = 0
      · obtain ⟨rfl, rfl⟩ := h00
        rw [if_neg (fun h => hmf h.1.symm)]
        refine a5.trans ?_
        have : secOf dd 0 0 = some [t] := by unfold secOf; rw [ht3]; rfl
        rw [this]; rfl
      · rw [hnone a2 hz h00, hnone hsrc.read hz h00, hnone hdst.read hz h00]
        simp
    · push Not at hz
      refine (a4 a b hz.1 hz.2).trans ?_
      have hval : valOf (dSet mf s (linesDic dd)) a b =
          if a = mf ∧ (mt = none ∨ mt = some b) then (secOf ds a b).map SecVal.verb else (secOf dd a b).map SecVal.verb := by
        by_cases ha : a = mf
        · subst ha
          unfold valOf
          rw [dGet_dSet_self, Option.bind_some, hs]
          by_cases hc : mt = none ∨ mt = some b
          · rw [if_pos hc, if_pos ⟨rfl, hc⟩]
          · rw [if_neg hc, if_neg (fun h => hc h.2)]
        · rw [if_neg (fun h => ha h.1), ← valOf_linesDic]
          unfold valOf
          rw [dGet_dSet_ne (Ne.symm ha)]
      rw [hval]
      by_cases hc : a = mf ∧ (mt = none ∨ mt = some b)
      · rw [if_pos hc, if_pos hc]
        cases secOf ds a b with
        | none => rfl
        | some ls => rfl
      · rw [if_neg hc, if_neg hc]
        cases secOf dd a b with
        | none => rfl
        | some ls => rfl
  have hrep : ∀ obj, pathGet mf mt (linesDic (α := DDic) ds) = .ok obj → replaceLines x zab mf mt src dst = writeTape e (pathSet mf obj (linesDic dd)) := by
    intro obj ho
    unfold replaceLines
    rw [hsrc.parse]
    dsimp only
    rw [ho, hdst.parse]
    rfl
  cases mt with
  | none =>
    rw [hrep (.file (linesFile f)) (by unfold pathGet; rw [dGet_linesDic, hfs]; rfl)]
    exact main (linesFile f) (linesFile_nodup (hnds.2 mf f hfs)) fun b => by
      rw [if_pos (Or.inl rfl), dGet_linesFile, hfsec]
  | some m =>
    have hm : m = b0 := by simpa using hb0
    subst hm
    rw [hrep (.sec m (.verb ls0)) (by
      unfold pathGet
      rw [dGet_linesDic, hfs]
      dsimp only [Option.map_some]
      rw [dGet_linesFile, ← hfsec, hls0]
      rfl)]
    refine main _ (dSet_nodup ?_) fun b => ?_
    · cases hg : dGet mf (linesDic (α := DDic) dd) with
      | none => exact List.nodup_nil
      | some u => exact hf.nodup2 mf u hg
    · by_cases hb : m = b
      · subst hb
        rw [dGet_dSet_self, if_pos (Or.inr rfl), hls0]; rfl
      · rw [dGet_dSet_ne hb, if_neg (by simpa using hb), ← valOf_linesDic (α := DDic)]
        unfold valOf
        cases dGet mf (linesDic (α := DDic) dd) with
        | none => rfl
        | some u => rfl

/-! ### concrete files -/

/-- **C97** `endf-cli replace` is refused if the source has no such section, or no such file: nothing is written -/
theorem C97_refused (x : PCtx) (zab : Bool) (mat : Int) (src dst : List Str) (ds : MfDic) (hsrc : Orderly x.split.fields mat src ds)
    (mf : Int) (mt : Option Int) (hno : ∀ b, mt = none ∨ mt = some b → secOf ds mf b = none) :
    replaceLines x zab mf mt src dst = .error .keyError := by
  unfold replaceLines
  rw [hsrc.parse]
  dsimp only
  have : pathGet mf mt (linesDic (α := DDic) ds) = .error .keyError := by
    unfold pathGet
    rw [dGet_linesDic]
    cases hg : dGet mf ds with
    | none => rfl
    | some f =>
      have hs : ∀ b, secOf ds mf b = dGet b f := fun b => by unfold secOf; rw [hg]; rfl
      cases mt with
      | none =>
        exfalso
        cases f with
        | nil => exact split_nonempty hsrc.read mf hg
        | cons q f =>
          have h1 := hno q.1 (.inl rfl)
          rw [hs] at h1
          simp [dGet] at h1
      | some b =>
        have h1 := hno b (.inr rfl)
        rw [hs] at h1
        rw [Option.map_some]
        dsimp only
        rw [dGet_linesFile, h1]
        rfl
  rw [this]
  rfl

namespace CliEx

def orderlyB (r : ROpts) (mat : Int) (lines : List Str) : Bool :=
  (splitSections { fields := r } lines).toBool &&
  (lines.all fun l => match readCtrl r.width l with
    | .ok c => decide (c.mat ≠ 0 → c.mf ≠ 0 → c.mt ≠ 0 → c.mat = mat ∧ 0 < c.mf)
    | .error _ => true) &&
  (lines.any fun l => match readCtrl r.width l with
    | .ok c => decide (c.mat ≠ 0 ∧ c.mf ≠ 0 ∧ c.mt ≠ 0) && decide (strip l ≠ [])
    | .error _ => false) &&
  (lines.all fun l => decide (strip l ≠ []) && decide (6 * r.width + 9 ≤ l.length)) &&
  decide (strip ((lines.headD []).take (6 * r.width + 9)) ≠ [])

theorem orderlyB_ok {r : ROpts} {mat : Int} {lines : List Str} (h : orderlyB r mat lines = true) :
    ∃ d, Orderly r mat lines d := by
  unfold orderlyB at h
  simp only [Bool.and_eq_true, List.all_eq_true, List.any_eq_true, decide_eq_true_eq] at h
  obtain ⟨⟨⟨⟨h1, h2⟩, l, hl, h3⟩, h4⟩, h5⟩ := h
  cases hd : splitSections { fields := r } lines with
  | error e => rw [hd] at h1; cases h1
  | ok d =>
    refine ⟨d, hd, fun k hk a b c hc => ?_, ⟨l, hl, ?_⟩, h4, fun k hk => ?_⟩
    · have := h2 k hk
      rw [theReader_ctrl.1 hc.2.1] at this
      simp only [decide_eq_true_eq] at this
      exact this hc.2.2.1 hc.2.2.2.1 hc.2.2.2.2
    · cases hc : readCtrl r.width l with
      | error e => rw [hc] at h3; cases h3
      | ok c =>
        rw [hc] at h3
        simp only [Bool.and_eq_true, decide_eq_true_eq] at h3
        exact ⟨c.mat, c.mf, c.mt, h3.2, theReader_ctrl.2 hc, h3.1.1, h3.1.2.1, h3.1.2.2⟩
    · cases lines with
      | nil => cases hk
      | cons y ys => cases hk; exact h5

/-- a file with MF3/MT1 of the given material -/
def source (mat : Int) : List Str :=
  [exLine "other" 1 0 0, exLine "x" mat 3 1, exLine "y" mat 3 1, exLine "" mat 3 0, exLine "" mat 0 0, exLine "" 0 0 0, exLine "" (-1) 0 0]

/-- a parser with default options; recipes do not matter here -/
def ctx97 : PCtx := { trees := [] }

def sectionIs (r : Res (List Str)) (mf mt : Int) (ls : Option (List Str)) : Bool :=
  match r with
  | .ok out => (match splitSections {} out with
    | .ok d => decide ((secOf d mf mt).map (cols 11) = ls.map (cols 11))
    | .error _ => false)
  | .error _ => false

end CliEx

open CliEx

/-- the hypotheses of `C97_partial` are met by these two files, for the section and for the whole file -/
example : ∃ ds dd, Orderly {} 125 (source 125) ds ∧ Orderly {} 125 exTape dd ∧ secOf ds 3 1 ≠ none := by
  obtain ⟨ds, h1⟩ := orderlyB_ok (r := {}) (mat := 125) (lines := source 125) (by decide +kernel)
  obtain ⟨dd, h2⟩ := orderlyB_ok (r := {}) (mat := 125) (lines := exTape) (by decide +kernel)
  refine ⟨ds, dd, h1, h2, ?_⟩
  have h3 : resIs (splitSections {} (source 125)) [((3, 1), some [exLine "x" 125 3 1, exLine "y" 125 3 1])] = true := by decide +kernel
  rw [h1.read] at h3
  simp only [resIs, List.all_cons, List.all_nil, Bool.and_true, decide_eq_true_eq] at h3
  rw [h3]
  simp

/-- the destination has MF3/MT2, the source has not -/
example : (match splitSections {} (source 125), replaceLines ctx97 false 3 (some 2) (source 125) exTape with
    | .ok ds, .error .keyError => decide (secOf ds 3 2 = none)
    | _, _ => false) = true := by decide +kernel

/-- MF3/MT1 is replaced, MF3/MT2 stays; with the path `3` it disappears -/
example : sectionIs (replaceLines ctx97 false 3 (some 1) (source 125) exTape) 3 1 (some [exLine "x" 125 3 1, exLine "y" 125 3 1]) = true ∧
    sectionIs (replaceLines ctx97 false 3 (some 1) (source 125) exTape) 3 2 (some [exLine "d" 125 3 2]) = true ∧
    sectionIs (replaceLines ctx97 false 3 none (source 125) exTape) 3 2 none = true ∧
    sectionIs (replaceLines ctx97 false 3 none (source 125) exTape) 0 0 (some [exLine "tape" 1 0 0]) = true := by decide +kernel

/-- **C97 fails** for files of different materials: the command succeeds, and the destination cannot be read any more. -/
theorem C97_mat_fails : ¬ ∀ (x : PCtx) (zab : Bool), x.split.fields.width = x.wo.width → 9 ≤ x.wo.width → ∀ (mat mat' : Int)
    (src dst : List Str) (ds dd : MfDic), Orderly x.split.fields mat src ds → Orderly x.split.fields mat' dst dd → ∀ (mf mt : Int) (out : List Str),
    mf ≠ 0 → secOf ds mf mt ≠ none → replaceLines x zab mf (some mt) src dst = .ok out → ∃ d', splitSections { fields := x.split.fields } out = .ok d' := by
  intro h
  obtain ⟨ds, h1⟩ := orderlyB_ok (r := {}) (mat := 128) (lines := source 128) (by decide +kernel)
  obtain ⟨dd, h2⟩ := orderlyB_ok (r := {}) (mat := 125) (lines := exTape) (by decide +kernel)
  have h3 : resIs (splitSections {} (source 128)) [((3, 1), some [exLine "x" 128 3 1, exLine "y" 128 3 1])] = true := by decide +kernel
  rw [h1.read] at h3
  simp only [resIs, List.all_cons, List.all_nil, Bool.and_true, decide_eq_true_eq] at h3
  have h4 : (match replaceLines ctx97 false 3 (some 1) (source 128) exTape with
    | .ok out => !(splitSections {} out).toBool
    | .error _ => false) = true := by decide +kernel
  cases ho : replaceLines ctx97 false 3 (some 1) (source 128) exTape with
  | error e => rw [ho] at h4; cases h4
  | ok out =>
    obtain ⟨d', hd⟩ := h ctx97 false rfl (by decide) 128 125 (source 128) exTape ds dd h1 h2 3 1 out (by decide) (by rw [h3]; simp) ho
    rw [ho] at h4
    dsimp only at h4
    rw [show splitSections {} out = .ok d' from hd] at h4
    cases h4

namespace CliEx

/-- `exTape` with a section MF4/MT2 -/
def dest4 : List Str := exTape.take 10 ++ [exLine "a" 125 4 2, exLine "b" 125 4 2, exLine "" 125 4 0, exLine "" 125 0 0] ++ exTape.drop 10

/-- generated functions for the tape head, MF1 and MF3 -/
def write97 : CWrite Str where
  should _ _ := some true
  fn mf _ := if mf = 0 ∨ mf = 1 ∨ mf = 3 then some (fun _ => none) else none
  mat _ := none

def sectionIsC (r : CRes (List Str)) (mf mt : Int) (ls : Option (List Str)) : Bool :=
  match r with
  | .ok out => sectionIs (.ok out) mf mt ls
  | _ => false

end CliEx

/-- **C97 fails** with the compiled parser, which the command prefers: a section of the destination that is not concerned and for which the
compiled parser has no recipe loses its first line.  With the Python parser it stays (`C97_partial`). -/
theorem C97_cpp_fails : ¬ ∀ (x : CTape Str) (w : CWrite Str) (mat : Int) (src dst : List Str) (ds dd : MfDic), Orderly {} mat src ds → Orderly {} mat dst dd →
    (∀ l ∈ src ++ dst, FullLine l) → (∀ mf mt, w.should mf mt = some true) → (∀ mf mt, (w.fn mf mt).isSome = (x.fn mf mt).isSome) →
    ∀ (mf mt : Int) (out : List Str) (d' : MfDic), mf ≠ 0 → replaceCpp x w mf (some mt) src dst = .ok out → splitSections {} out = .ok d' →
    ∀ a b, ¬ (a = mf ∧ b = mt) → (secOf d' a b).map (cols 11) = (secOf dd a b).map (cols 11) := by
  intro h
  obtain ⟨ds, h1⟩ := orderlyB_ok (r := {}) (mat := 125) (lines := source 125) (by decide +kernel)
  obtain ⟨dd, h2⟩ := orderlyB_ok (r := {}) (mat := 125) (lines := dest4) (by decide +kernel)
  have h3 : resIs (splitSections {} dest4) [((4, 2), some [exLine "a" 125 4 2, exLine "b" 125 4 2])] = true := by decide +kernel
  rw [h2.read] at h3
  simp only [resIs, List.all_cons, List.all_nil, Bool.and_true, decide_eq_true_eq] at h3
  have h4 : sectionIsC (replaceCpp exMod write97 3 (some 1) (source 125) dest4) 4 2 (some [exLine "b" 125 4 2]) = true := by decide +kernel
  cases ho : replaceCpp exMod write97 3 (some 1) (source 125) dest4 with
  | throw => rw [ho] at h4; cases h4
  | undef => rw [ho] at h4; cases h4
  | ok out =>
    rw [ho] at h4
    unfold sectionIsC sectionIs at h4
    dsimp only at h4
    cases hd : splitSections {} out with
    | error e => rw [hd] at h4; cases h4
    | ok d' =>
      rw [hd] at h4
      simp only [decide_eq_true_eq] at h4
      have := h exMod write97 125 (source 125) dest4 ds dd h1 h2 (by decide +kernel) (fun _ _ => rfl) (fun mf mt => by
          unfold write97 exMod
          dsimp only
          by_cases h0 : mf = 0
          · simp [h0]
          · by_cases h1 : mf = 1
            · simp [h1]
            · by_cases h3 : mf = 3
              · simp [h3]
              · simp [h0, h1, h3]) 3 1 out d' (by decide) ho hd 4 2 (by decide)
      rw [h3, h4] at this
      revert this
      decide +kernel

end Verif
