import Verif.Lemmas.SameLines
import Verif.Props.CppLines
import Verif.Props.Cycle
/-
C94: the interpreter reads the same dictionary from the lines of a section, whichever parser has written them.
-/
namespace Verif
open Verif.Spec

/-- the lines of the compiled function for a recipe with abbreviations -/
theorem lines_bothWritten {o : WOpts} (ho : o.width = 11) (hp : o.preferNoexp = false) {zab : Bool} {fuel : Nat} {mf mt : Int} {p : Prog} {d : DDic}
    {w : WSt} {cs : List CRec} (hpy : writeSection fuel mf mt p d = .ok w) (h : List.Forall₂ RecAs w.out cs) (hrec : ∀ r ∈ w.out, RecOk r)
    {ls : List Str} {c : Ctrl} (hls : sectionLines fuel o zab mf mt p d = .ok (ls, c)) (ln : Int) :
    ∃ ls', recLines o false ln cs = some ls' ∧ List.Forall₂ LineAs ls ls' := by
  unfold sectionLines at hls
  rw [hpy] at hls
  simp only [bind_ok, pure_ok] at hls
  obtain ⟨_, hw, lss, h1, _, _, h2⟩ := hls
  cases hw
  cases h2
  exact lines_same ho hp zab h hrec lss h1 ln

/-- **C94** (partial) Sections as in `C90_abbr_partial`, with numbers that fit into the columns (`RecOk`): if both parsers write the
dictionary, and the interpreter reads something from its own lines, it reads exactly the same from the lines of the compiled function,
whatever the parsing options.
Missing: TEXT and INTG records (for TEXT records see `C94_cycle_partial`); keeping the texts of numbers; empty LIST records (`C93_empty_list_fails`); `prefer_noexp` and the numbers of
`C74_fails`. -/
theorem C94_partial (o : WOpts) (ho : o.width = 11) (hpn : o.preferNoexp = false) (zab : Bool) (depth : Nat) (p : Prog) (hp : AbbrOk p) (hf : AbbrFree p)
    (hnt : noText p = true) (code : Code) (defs : List VKey) (hcomp : compile depth (writeOut p) = some (code, defs))
    (hok : writeOk depth code defs = true) (hwf : WF (writeOut p)) (htx : plainTexts (writeOut p) = true) (fuel fuel' : Nat) (h0 : 0 < fuel)
    (mf mt : Int) (omt : Option Int) (hmt : omt = some mt ∨ omt = none) (d : DDic) (hd : Clean (.dic d)) (k : Ctrl) (hC : CtrlAll k (numbered mf mt d))
    (hU : Unshadowed (looked (writeOut p)) (numbered mf mt d)) (hP : Positive (starts (writeOut p)) (numbered mf mt d)) (w : WSt) (v : WFun)
    (hpy : writeSection fuel mf mt p d = .ok w) (hcpp : writeFun fuel' mf omt code defs d = .ok v) (hrec : ∀ r ∈ w.out, RecOk r)
    (ls : List Str) (c : Ctrl) (hls : sectionLines fuel o zab mf mt p d = .ok (ls, c)) (ln : Int) :
    ∃ ls', recLines o false ln v.out = some ls' ∧ List.Forall₂ LineAs ls ls' ∧
      ∀ r : RCtx, r.ro.width = 11 → r.ro.preserve = false → ∀ (ig : Bool) (s : RSt), readSection { r with lines := ls } ig p = .ok s →
        readSection { r with lines := ls' } ig p = .ok s := by
  have h := C90_abbr_partial depth p hp hf code defs hcomp hok hwf htx fuel fuel' h0 mf mt omt hmt d hd k hC hU hP w v hpy hcpp
  obtain ⟨ls', h1, h2⟩ := lines_bothWritten ho hpn hpy h hrec hls ln
  exact ⟨ls', h1, h2, fun r hr hpre ig s hs => readSection_cov (c := { r with lines := ls }) hr hpre h2 hnt hs⟩

/-- C94 (partial) for shipped recipes. -/
theorem C94_shipped_partial (p : Prog) (hp : p ∈ Shipped.written) (hnt : noText p = true) : ∃ code defs, compile 50 (writeOut p) = some (code, defs) ∧
    ∀ (o : WOpts), o.width = 11 → o.preferNoexp = false → ∀ (zab : Bool) (fuel fuel' : Nat), 0 < fuel →
    ∀ (mf mt : Int) (omt : Option Int), omt = some mt ∨ omt = none → ∀ d : DDic, Clean (.dic d) →
    ∀ k : Ctrl, CtrlAll k (numbered mf mt d) → Unshadowed (looked (writeOut p)) (numbered mf mt d) → Positive (starts (writeOut p)) (numbered mf mt d) →
    ∀ (w : WSt) (v : WFun), writeSection fuel mf mt p d = .ok w → writeFun fuel' mf omt code defs d = .ok v → (∀ r ∈ w.out, RecOk r) →
    ∀ (ls : List Str) (c : Ctrl), sectionLines fuel o zab mf mt p d = .ok (ls, c) → ∀ ln : Int,
    ∃ ls', recLines o false ln v.out = some ls' ∧ List.Forall₂ LineAs ls ls' ∧
      ∀ r : RCtx, r.ro.width = 11 → r.ro.preserve = false → ∀ (ig : Bool) (s : RSt), readSection { r with lines := ls } ig p = .ok s →
        readSection { r with lines := ls' } ig p = .ok s := by
  obtain ⟨code, defs, hc, h⟩ := C92_partial p hp
  refine ⟨code, defs, hc, fun o ho hpn zab fuel fuel' h0 mf mt omt hmt d hd k hC hU hP w v hpy hcpp hrec ls c hls ln => ?_⟩
  have h := h fuel fuel' h0 mf mt omt hmt d hd k hC hU hP w v hpy hcpp
  obtain ⟨ls', h1, h2⟩ := lines_bothWritten ho hpn hpy h hrec hls ln
  exact ⟨ls', h1, h2, fun r hr hpre ig s hs => readSection_cov (c := { r with lines := ls }) hr hpre h2 hnt hs⟩

/-- the shipped recipes without TEXT records: all but those of the tape head and of MF1/MT451 -/
theorem shipped_noText : (Shipped.written.filter noText).length = 33 := by decide +kernel

/-- the line of a TEXT record -/
theorem text_same {o : WOpts} (ho : o.width = 11) {zab : Bool} {r : ARec} {c : CRec} (h : RecAs r c) (hok : RecOk r) (hk : r.kind = .text)
    {ls : List Str} (hw : renderRec o zab r = .ok ls) {ln ln' : Int} {ls' : List Str} (hc : c.lines o false ln = some (ls', ln')) :
    ∃ l l', ls = [l] ∧ ls' = [l'] ∧ 66 ≤ l.length ∧ 66 ≤ l'.length ∧ slice l' 0 66 = slice l 0 66 := by
  obtain ⟨kind, flds, tbl, ctrl⟩ := r
  dsimp only at hk
  subst hk
  cases c with
  | text hl k =>
    obtain ⟨_, h2, t, h3, h4⟩ := h
    dsimp only at h2 h3
    subst h2 h3
    have h66 : t.length = 66 := hok.2 t rfl
    obtain rfl := h4 h66
    cases hw
    cases hc
    have e1 : ljust hl (o.width * 6) = hl := by rw [ho]; unfold ljust; rw [h66]; simp
    refine ⟨_, _, rfl, rfl, by rw [e1, List.length_append]; omega, by rw [List.length_append]; omega, ?_⟩
    rw [e1, slice_left (by omega), slice_left (by omega)]
  | cont fs k => obtain ⟨_, ⟨h | h, _⟩ | ⟨h, _⟩⟩ := h <;> cases h
  | tab1 => cases h.1
  | tab2 => cases h.1
  | list => cases h.1
  | send => cases h.1

/-- a record that is read from some lines is read from lines that say the same -/
theorem readKind_cov {ro : ROpts} (hr : ro.width = 11) (hp : ro.preserve = false) {L L' : List Str} (hl : List.Forall₂ LineAs L L') {m : Nat} {k : RKind}
    (hi : ∀ n, k ≠ .intg n) (ht : k = .text → ∃ l l', L[m]? = some l ∧ L'[m]? = some l' ∧ slice l' 0 66 = slice l 0 66) {x : ARec × Nat}
    (h : readKind ro L m k = .ok x) : readKind ro L' m k = .ok x := by
  have ok : ∀ {α : Type} {a b : Res α} {y : α}, SameOut a b → a = .ok y → b = .ok y := by
    intro α a b y h h1
    rcases h with h | ⟨e, h, _⟩
    · rw [h, h1]
    · rw [h] at h1; cases h1
  cases k with
  | text =>
    obtain ⟨l, l', h1, h2, h3⟩ := ht rfl
    simp only [readKind, readText, bind_ok, pure_ok] at h ⊢
    obtain ⟨⟨t, o⟩, ⟨l0, g1, c, g2, g3⟩, g4⟩ := h
    have e : l0 = l := by
      unfold lineAt at g1
      rw [h1] at g1
      cases g1
      rfl
    subst e
    have hla : LineAs l0 l' := by
      rcases line_as hl m with ⟨a, _⟩ | ⟨a, b, h4, h5, h6⟩
      · rw [h1] at a; cases a
      · rw [h1] at h4; rw [h2] at h5; cases h4; cases h5; exact h6
    refine ⟨⟨t, o⟩, ⟨l', by unfold lineAt; rw [h2], c, ?_, ?_⟩, g4⟩
    · rw [hr] at g2 ⊢
      rw [ctrl_sameLine hla, g2]
    · rw [← g3, hr, h3]
  | head => exact ok (.bind (cont_cov hl hr hp m) fun _ => .inl rfl) h
  | cont => exact ok (.bind (cont_cov hl hr hp m) fun _ => .inl rfl) h
  | dir => exact ok (.bind (dir_cov hl hr m) fun _ => .inl rfl) h
  | intg n => exact absurd rfl (hi n)
  | tab1 => exact ok (.bind (tab1_cov hl hr hp m) fun _ => .inl rfl) h
  | tab2 => exact ok (.bind (tab2_cov hl hr hp m) fun _ => .inl rfl) h
  | list => exact ok (.bind (list_cov hl hr hp m) fun _ => .inl rfl) h
  | send => exact ok (.bind (send_cov hl hr hp m) fun _ => .inl rfl) h

/-- the lines of the compiled function have the records that were read, one after the other -/
theorem laid_both {o : WOpts} {ro : ROpts} {zab : Bool} (ho : o.width = 11) (hpn : o.preferNoexp = false) (hr : ro.width = 11) (hpre : ro.preserve = false)
    {qs qs' : List ARec} (hq : ∀ q ∈ qs, ∃ lines m m', readKind ro lines m q.kind = .ok (q, m')) (hk : ∀ q ∈ qs, Stays o ro q)
    (hs : List.Forall₂ SameRec qs qs') (hp : ∀ q ∈ qs', PlainRec q) (he : ∀ q ∈ qs.dropLast, q.kind ≠ .send) (hok : ∀ q ∈ qs', RecOk q)
    {cs : List CRec} (hcs : List.Forall₂ RecAs qs' cs) {lss : List (List Str)} (h : qs'.mapM (renderRec o zab) = .ok lss) {ln : Int} {ls' : List Str}
    (hls : recLines o false ln cs = some ls') : ∀ L L' m, List.Forall₂ LineAs L L' → StandsAt L m lss.flatten → StandsAt L' m ls' →
    ∃ m', Laid ro L' m qs m' := by
  induction hs generalizing lss cs ln ls' with
  | nil => exact fun L L' m _ _ _ => ⟨m, .nil m⟩
  | @cons q q' qs qs' hqq hs ih =>
    intro L L' m hL hst hst'
    cases hcs with
    | @cons _ c _ cs h0 hcs =>
    simp only [List.mapM_cons, bind_ok, pure_ok] at h
    obtain ⟨ls, h1, lss', h2, rfl⟩ := h
    obtain ⟨a, ln', a1, a2, _⟩ := C93_record_partial o ho hpn zab _ _ h0 (hok _ (by simp)) ls h1 ln
    simp only [recLines, a1, Option.bind_eq_bind, Option.bind_some] at hls
    cases hb : recLines o false ln' cs with
    | none => rw [hb] at hls; cases hls
    | some b =>
    rw [hb] at hls
    cases hls
    obtain ⟨_, n, n', hq1⟩ := hq q (by simp)
    obtain ⟨⟨g1, -⟩, g2⟩ := readKind_written (by omega) (by omega) hq1 (hk q (by simp)) hqq (hp q' (by simp)) h1
    rw [List.flatten_cons] at hst
    obtain ⟨st1, st2⟩ := StandsAt.append hst
    obtain ⟨st1', st2'⟩ := StandsAt.append hst'
    have hlen := a2.length_eq
    have hnext : NextRec ro L' m q (if q.kind = .send then m else m + ls.length) := by
      refine ⟨m, by rw [skipBlank_same hL]; exact skip_marked g1 st1, readKind_cov hr hpre hL ?_ ?_ (g2 L m st1)⟩
      · intro k hk
        have e : q'.kind = .intg k := by rw [← hqq.kind]; exact hk
        cases c with
        | cont fs k => obtain ⟨_, ⟨h | h, _⟩ | ⟨h, _⟩⟩ := h0 <;> rw [e] at h <;> cases h
        | text => have := h0.1; rw [e] at this; cases this
        | tab1 => have := h0.1; rw [e] at this; cases this
        | tab2 => have := h0.1; rw [e] at this; cases this
        | list => have := h0.1; rw [e] at this; cases this
        | send => have := h0.1; rw [e] at this; cases this
      · intro hk
        obtain ⟨l, l', e1, e2, h66, h66', e3⟩ := text_same ho h0 (hok _ (by simp)) (by rw [← hqq.kind]; exact hk) h1 a1
        subst e1 e2
        obtain ⟨l1, b1, b2⟩ := st1 0 l rfl
        obtain ⟨l2, b3, b4⟩ := st1' 0 l' rfl
        refine ⟨l1, l2, b1, b3, ?_⟩
        obtain ⟨_, rfl⟩ := b2
        obtain ⟨_, rfl⟩ := b4
        rw [slice_left h66, slice_left h66', e3]
    cases qs with
    | nil => exact ⟨_, .cons hnext (.nil _)⟩
    | cons r qs =>
      have hns : q.kind ≠ .send := he q (by simp)
      rw [if_neg hns] at hnext
      rw [← hlen] at st2'
      obtain ⟨m', hm⟩ := ih (fun q hq' => hq q (List.mem_cons_of_mem _ hq')) (fun q hq' => hk q (List.mem_cons_of_mem _ hq'))
        (fun q hq' => hp q (List.mem_cons_of_mem _ hq'))
        (fun q hq' => he q (by rw [List.dropLast_cons_of_ne_nil (by simp)]; exact List.mem_cons_of_mem _ hq'))
        (fun q hq' => hok q (List.mem_cons_of_mem _ hq')) hcs h2 hb L L' (m + ls.length) hL st2 st2'
      exact ⟨m', .cons hnext hm⟩

/-- C94 (partial), a whole cycle: a section has been read by the interpreter and meets the conditions of `C88_partial` (`Faithful`); the
compiled function writes the dictionary; the interpreter reads the written lines, with exactly the same dictionary and the same
records. -/
theorem C94_cycle_partial (p : Prog) (hp : p ∈ Shipped.written) : ∃ code defs, compile 50 (writeOut p) = some (code, defs) ∧
    ∀ (o : WOpts), o.width = 11 → o.preferNoexp = false → ∀ (zab : Bool) (fuel fuel' : Nat), 0 < fuel →
    ∀ (r : RCtx) (k : Ctrl) (s : RSt), r.ro.width = 11 → r.ro.preserve = false → Strict r.po → readSection r false p = .ok s → Faithful r o p k s →
    ∀ (mf mt : Int) (omt : Option Int), omt = some mt ∨ omt = none →
    CtrlAll k (numbered mf mt s.cur) → Unshadowed (looked (writeOut p)) (numbered mf mt s.cur) → Positive (starts (writeOut p)) (numbered mf mt s.cur) →
    ∀ (w : WSt) (v : WFun), writeSection fuel mf mt p s.cur = .ok w → writeFun fuel' mf omt code defs s.cur = .ok v → (∀ q ∈ w.out, RecOk q) →
    ∀ (ls : List Str) (c : Ctrl), sectionLines fuel o zab mf mt p s.cur = .ok (ls, c) → ∀ ln : Int,
    ∃ ls' s2, recLines o false ln v.out = some ls' ∧ readSection { r with lines := ls' } false p = .ok s2 ∧ s2.cur = s.cur ∧ s2.recs = s.recs := by
  obtain ⟨code, defs, hc, h⟩ := C92_partial p hp
  refine ⟨code, defs, hc, fun o ho hpn zab fuel fuel' h0 r k s hr hpre hst hs hf mf mt omt hmt hC' hU' hP w v hpy hcpp hrec ls c hls ln => ?_⟩
  have hd : Clean (.dic s.cur) := C37_read r false p s hs
  have h := h fuel fuel' h0 mf mt omt hmt s.cur hd k hC' hU' hP w v hpy hcpp
  obtain ⟨ls', h1, h2⟩ := lines_bothWritten ho hpn hpy h hrec hls ln
  have hrecs := C39_partial r p k s fuel mf mt w hst hs hf.wf hf.tidy hf.ctrl hf.ctrls hf.mat hf.unshadowed hf.unused hpy
  have hpl := writeSection_plain hf.plain (readSection_plain hpre hf.plain hs) hpy
  obtain ⟨a1, a2⟩ := readSection_ahead hf.foreseen hs
  unfold sectionLines at hls
  rw [hpy] at hls
  simp only [bind_ok, pure_ok] at hls
  obtain ⟨_, hw, lss, g1, _, _, g2⟩ := hls
  cases hw
  cases g2
  obtain ⟨m, hlaid⟩ := laid_both ho hpn hr hpre a1.from hf.stays hrecs hpl hf.framed.only hrec h g1 h1 lss.flatten ls' 0 h2
    (fun i l hi => ⟨l, by simpa using hi, List.prefix_rfl⟩) (fun i l hi => ⟨l, by simpa using hi, List.prefix_rfl⟩)
  obtain ⟨s2, b1, b2, b3⟩ := a2 ls' m hlaid
  exact ⟨ls', s2, h1, b1, b2, b3⟩

/-- C94 (partial), the compiled parser reads what it has written: if a section has been read by the interpreter, and the compiled function
writes the dictionary and reads the written lines under the conditions of `C86_partial`, then it returns the same dictionary. -/
theorem C94_compiled_partial (p : Prog) (hp : p ∈ Shipped.written) (hp' : p ∈ Shipped.compared) :
    ∃ code defs, compile 50 (writeOut p) = some (code, defs) ∧
    ∀ (o : WOpts), o.width = 11 → o.preferNoexp = false → ∀ (fuel fuel' : Nat), 0 < fuel →
    ∀ (r : RCtx) (k : Ctrl) (s : RSt), 0 < r.fuel → r.ro.width = 11 → r.ro.preserve = false → Strict r.po → readSection r false p = .ok s → Faithful r o p k s →
    HasHead p s → ∀ (mf mt : Int) (omt : Option Int), omt = some mt ∨ omt = none →
    CtrlAll k (numbered mf mt s.cur) → Unshadowed (looked (writeOut p)) (numbered mf mt s.cur) → Positive (starts (writeOut p)) (numbered mf mt s.cur) →
    ∀ (w : WSt) (v : WFun), writeSection fuel mf mt p s.cur = .ok w → writeFun fuel' mf omt code defs s.cur = .ok v → (∀ q ∈ w.out, RecOk q) →
    ∀ (ls : List Str) (c : Ctrl), sectionLines fuel o false mf mt p s.cur = .ok (ls, c) →
    ∀ (ln : Int) (ls' : List Str), recLines o false ln v.out = some ls' → (∀ l ∈ ls', PlainLine l) → FunCtrl ls' mf omt k →
    Fit { r with lines := ls' } k (writeOut p) { cur := initWork [] } →
    ∀ (cc : FunCtx) (d : DDic), cc.acc = r.ro.acceptSpaces → runFun cc mf omt code defs ls' = .ok d → SameAt (.dic s.cur) (.dic d) := by
  obtain ⟨code, defs, hc, h⟩ := C94_cycle_partial p hp
  obtain ⟨_, _, hc', hb⟩ := C92_partial p hp
  rw [hc] at hc'
  cases hc'
  obtain ⟨_, _, hc', hr'⟩ := C86_partial p hp'
  rw [hc] at hc'
  cases hc'
  refine ⟨code, defs, hc, fun o ho hpn fuel fuel' h0 r k s hrf hr hpre hst hs hf hh mf mt omt hmt hC' hU' hP w v hpy hcpp hrec ls c hls ln ls' hls' hpl hfc hfit
    cc d hcc hd => ?_⟩
  obtain ⟨l1, s2, h1, h2, h3, h4⟩ := h o ho hpn false fuel fuel' h0 r k s hr hpre hst hs hf mf mt omt hmt hC' hU' hP w v hpy hcpp hrec ls c hls ln
  have hb := hb fuel fuel' h0 mf mt omt hmt s.cur (C37_read r false p s hs) k hC' hU' hP w v hpy hcpp
  obtain ⟨l2, b1, b2⟩ := lines_bothWritten ho hpn hpy hb hrec hls ln
  rw [hls'] at h1 b1
  cases h1
  cases b1
  have hbl : ∀ l ∈ ls', isBlankLine l = false := by
    clear * - b2
    induction b2 with
    | nil => simp
    | cons h _ ih =>
      intro l hl
      rcases List.mem_cons.1 hl with rfl | hl
      · exact h.2.2.2.2
      · exact ih l hl
  have := hr' { r with lines := ls' } cc hrf hr hpre hcc hst hpl hbl mf omt k hfc hfit s2 d h2 (by unfold HasHead at *; rw [h3]; exact hh) hd
  rw [h3] at this
  exact this

namespace ShippedEx
open FunEx CF CycleExample

/-- The section is read by the interpreter, meets the conditions of `C94_compiled_partial`, is written by the compiled function, and read
again by it, with the number `x` at some place. -/
def exchanges (p : Prog) (lines : List Str) (mf mt : Int) (k : Ctrl) (at_ : List Key) (x : Rat) : Bool :=
  wfB p &&
  match compile 50 (writeOut p), readSection (strict lines) false p with
  | some (code, defs), .ok s => faithfulB (strict lines) { strictDatatypes := false } p k s && ctrlAllB k (numbered mf mt s.cur) &&
    unshadowedB (looked (writeOut p)) (numbered mf mt s.cur) && positiveB (starts (writeOut p)) (numbered mf mt s.cur) &&
    ctlNames.all (fun n => dHas (.var n) s.cur) &&
    (match writeSection 100 mf mt p s.cur, writeFun 100 mf (some mt) code defs s.cur, sectionLines 100 { strictDatatypes := false } false mf mt p s.cur with
    | .ok w, .ok v, .ok _ => w.out.all recB && (match recLines { strictDatatypes := false } false 0 v.out with
      | some ls' => ls'.all (fun l => decide (66 ≤ l.length) && !l.contains '_' && l.all (fun c => !isWs c || c == ' ')) &&
        ctrlB ls' mf (some mt) k && fitB (strict ls') k (writeOut p) { cur := initWork [] } &&
        (match runFun { ctrl := ⟨0, 0, 0⟩ } mf (some mt) code defs ls' with
        | .ok d => decide (numAt (valAt (.dic d) at_) = some x)
        | _ => false)
      | none => false)
    | _, _, _ => false)
  | _, _ => false

theorem exchanges_ok {p : Prog} (hp : p ∈ Shipped.written) (hp' : p ∈ Shipped.compared) {lines : List Str} {mf mt : Int} {k : Ctrl} {at_ : List Key} {x : Rat}
    (h : exchanges p lines mf mt k at_ x = true) : ∃ code defs s v ls' s2 d, compile 50 (writeOut p) = some (code, defs) ∧
    readSection (strict lines) false p = .ok s ∧ writeFun 100 mf (some mt) code defs s.cur = .ok v ∧
    recLines { strictDatatypes := false } false 0 v.out = some ls' ∧
    readSection (strict ls') false p = .ok s2 ∧ s2.cur = s.cur ∧ runFun { ctrl := ⟨0, 0, 0⟩ } mf (some mt) code defs ls' = .ok d ∧ SameAt (.dic s.cur) (.dic d) ∧
    numAt (valAt (.dic d) at_) = some x := by
  unfold exchanges at h
  simp only [Bool.and_eq_true] at h
  obtain ⟨hwf, h⟩ := h
  split at h
  swap
  · cases h
  rename_i code defs s hc hs
  simp only [Bool.and_eq_true, List.all_eq_true] at h
  obtain ⟨⟨⟨⟨⟨hf, hC⟩, hU⟩, hP⟩, hn⟩, h⟩ := h
  split at h
  swap
  · cases h
  rename_i w v lc hw hv hls
  obtain ⟨ls, c⟩ := lc
  simp only [Bool.and_eq_true, List.all_eq_true] at h
  obtain ⟨hrec, h⟩ := h
  split at h
  swap
  · cases h
  rename_i ls' hls'
  simp only [Bool.and_eq_true, List.all_eq_true, decide_eq_true_eq] at h
  obtain ⟨⟨⟨hpl, hk⟩, hfit⟩, h⟩ := h
  split at h
  swap
  · cases h
  rename_i d hd
  have hF := faithfulB_ok (wfB_ok hwf) hf
  obtain ⟨_, _, hc1, h1⟩ := C94_cycle_partial p hp
  obtain ⟨_, _, hc2, h2⟩ := C94_compiled_partial p hp hp'
  rw [hc] at hc1 hc2
  cases hc1
  cases hc2
  obtain ⟨l1, s2, a1, a2, a3, _⟩ := h1 { strictDatatypes := false } rfl rfl false 100 100 (by decide) (strict lines) k s rfl rfl ⟨rfl, rfl, rfl, rfl⟩ hs hF mf mt (some mt) (.inl rfl)
    (ctrlAllB_ok hC) (unshadowedB_ok hU) (positiveB_ok hP) w v hw hv (fun q hq => recB_ok (hrec q hq)) ls c hls 0
  rw [hls'] at a1
  cases a1
  refine ⟨code, defs, s, v, ls', s2, d, hc, hs, hv, hls', a2, a3, hd, ?_, of_decide_eq_true h⟩
  refine h2 { strictDatatypes := false } rfl rfl 100 100 (by decide) (strict lines) k s (by decide : 0 < 100) rfl rfl ⟨rfl, rfl, rfl, rfl⟩ hs hF
    (.inr fun n hm h0 => by have := hn n hm; unfold dHas at this; rw [h0] at this; cases this) mf mt (some mt) (.inl rfl)
    (ctrlAllB_ok hC) (unshadowedB_ok hU) (positiveB_ok hP) w v hw hv (fun q hq => recB_ok (hrec q hq)) ls c hls 0 ls' hls' (fun l hm => ?_) (ctrlB_ok hk) (fitB_ok hfit)
    _ d rfl hd
  obtain ⟨⟨b1, b2⟩, b3⟩ := hpl l hm
  refine ⟨b1, by simpa using b2, fun c hc hw => ?_⟩
  have := b3 c hc
  rw [hw] at this
  simpa using this

/-- a text with control numbers -/
def textLine (t k : String) : Str := ljust t.toList 66 ++ k.toList

/-- MF1/MT451 with one line of description and one line of the directory -/
def lines451 : List Str := [line ["1.001+3", "0.99", "0", "0", "0", "1"] " 125 1451    1", line ["0.0", "0.0", "0", "0", "0", "6"] " 125 1451    2",
  line ["1.0", "2.0+7", "1", "0", "10", "8"] " 125 1451    3", line ["293.6", "0.0", "0", "0", "6", "1"] " 125 1451    4",
  textLine "  1-H -  1 LANL       EVAL-OCT05 G.M.Hale" " 125 1451    5", textLine " CH99                 DIST-FEB18                       20111222" " 125 1451    6",
  textLine "----ENDF/B-VIII.0     MATERIAL  125" " 125 1451    7", textLine "-----INCIDENT NEUTRON DATA" " 125 1451    8", textLine "------ENDF-6 FORMAT" " 125 1451    9",
  textLine "A line of text: 1.0+5" " 125 1451   10", line ["", "", "3", "1", "35", "5"] " 125 1451   11", line ["0.0", "0.0", "0", "0", "0", "0"] " 125 1  099999"]

end ShippedEx

open ShippedEx FunEx CF

/-- a section of MF3, which the compiled function writes, and both read -/
example : ∃ code defs s v ls' s2 d, compile 50 (writeOut Shipped.mf3) = some (code, defs) ∧
    readSection (strict lines3) false Shipped.mf3 = .ok s ∧ writeFun 100 3 (some 1) code defs s.cur = .ok v ∧
    recLines { strictDatatypes := false } false 0 v.out = some ls' ∧
    readSection (strict ls') false Shipped.mf3 = .ok s2 ∧ s2.cur = s.cur ∧ runFun { ctrl := ⟨0, 0, 0⟩ } 3 (some 1) code defs ls' = .ok d ∧ SameAt (.dic s.cur) (.dic d) ∧
    numAt (valAt (.dic d) [.var "QI"]) = some (-2500000) :=
  exchanges_ok (by simp [Shipped.written]) (by simp [Shipped.compared]) (k := ⟨125, 3, 1⟩) (by decide +kernel)

/-- a section with an abbreviation -/
example : ∃ code defs s v ls' s2 d, compile 50 (writeOut Shipped.mf6) = some (code, defs) ∧
    readSection (strict lines6) false Shipped.mf6 = .ok s ∧ writeFun 100 6 (some 16) code defs s.cur = .ok v ∧
    recLines { strictDatatypes := false } false 0 v.out = some ls' ∧
    readSection (strict ls') false Shipped.mf6 = .ok s2 ∧ s2.cur = s.cur ∧ runFun { ctrl := ⟨0, 0, 0⟩ } 6 (some 16) code defs ls' = .ok d ∧ SameAt (.dic s.cur) (.dic d) ∧
    numAt (valAt (.dic d) [.var "subsection", .idx 1, .var "b", .idx 1, .idx 2, .idx 1]) = some (1 / 8) :=
  exchanges_ok (by simp [Shipped.written]) (by simp [Shipped.compared]) (k := ⟨125, 6, 16⟩) (by decide +kernel)

/-- a section whose records are found by lookahead -/
example : ∃ code defs s v ls' s2 d, compile 50 (writeOut Shipped.mf1_mt458) = some (code, defs) ∧
    readSection (strict lines458) false Shipped.mf1_mt458 = .ok s ∧ writeFun 100 1 (some 458) code defs s.cur = .ok v ∧
    recLines { strictDatatypes := false } false 0 v.out = some ls' ∧
    readSection (strict ls') false Shipped.mf1_mt458 = .ok s2 ∧ s2.cur = s.cur ∧ runFun { ctrl := ⟨0, 0, 0⟩ } 1 (some 458) code defs ls' = .ok d ∧ SameAt (.dic s.cur) (.dic d) ∧
    numAt (valAt (.dic d) [.var "MAT"]) = some 125 :=
  exchanges_ok (by simp [Shipped.written]) (by simp [Shipped.compared]) (k := ⟨125, 1, 458⟩) (by decide +kernel)

/-- the first section of a material, with texts and a directory -/
example : ∃ code defs s v ls' s2 d, compile 50 (writeOut Shipped.mf1_mt451) = some (code, defs) ∧
    readSection (strict lines451) false Shipped.mf1_mt451 = .ok s ∧ writeFun 100 1 (some 451) code defs s.cur = .ok v ∧
    recLines { strictDatatypes := false } false 0 v.out = some ls' ∧
    readSection (strict ls') false Shipped.mf1_mt451 = .ok s2 ∧ s2.cur = s.cur ∧ runFun { ctrl := ⟨0, 0, 0⟩ } 1 (some 451) code defs ls' = .ok d ∧ SameAt (.dic s.cur) (.dic d) ∧
    numAt (valAt (.dic d) [.var "NCx", .idx 1]) = some 35 :=
  exchanges_ok (by simp [Shipped.written]) (by simp [Shipped.compared]) (k := ⟨125, 1, 451⟩) (by decide +kernel)

end Verif
