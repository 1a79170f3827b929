import Verif.Lemmas.ReplayRead
import Verif.Lemmas.RenderOk
import Verif.Props.Interp
import Verif.Props.Roundtrip
/-
C88: a section that is parsed, written and parsed again.
-/
namespace Verif
open Spec

theorem Laid.from {ro : ROpts} {lines : List Str} {o o2 : Nat} {qs : List ARec} (h : Laid ro lines o qs o2) :
    ∀ q ∈ qs, ∃ lines m m', readKind ro lines m q.kind = .ok (q, m') := by
  induction h with
  | nil => simp
  | cons h _ ih =>
    intro q hq
    rcases List.mem_cons.1 hq with rfl | hq
    · obtain ⟨o1, _, h⟩ := h
      exact ⟨_, _, _, h⟩
    · exact ih q hq

/-- the written lines have the records that were read, one after the other -/
theorem laid_written {o : WOpts} {ro : ROpts} {zab : Bool} (hw : 11 ≤ o.width) (hr : ro.width = o.width)
    {qs qs' : List ARec} (hq : ∀ q ∈ qs, ∃ lines m m', readKind ro lines m q.kind = .ok (q, m')) (hk : ∀ q ∈ qs, Stays o ro q)
    (hs : List.Forall₂ SameRec qs qs') (hp : ∀ q ∈ qs', PlainRec q) (he : ∀ q ∈ qs.dropLast, q.kind ≠ .send) {lss : List (List Str)}
    (h : qs'.mapM (renderRec o zab) = .ok lss) : ∀ L m, StandsAt L m lss.flatten → ∃ m', Laid ro L m qs m' := by
  induction hs generalizing lss with
  | nil => exact fun L m _ => ⟨m, .nil m⟩
  | @cons q q' qs qs' hqq hs ih =>
    intro L m hst
    simp only [List.mapM_cons, bind_ok, pure_ok] at h
    obtain ⟨ls, h1, lss', h2, rfl⟩ := h
    obtain ⟨_, n, n', hq1⟩ := hq q (by simp)
    obtain ⟨⟨g1, -⟩, g2⟩ := readKind_written hw hr hq1 (hk q (by simp)) hqq (hp q' (by simp)) h1
    rw [List.flatten_cons] at hst
    obtain ⟨st1, st2⟩ := StandsAt.append hst
    have hnext : NextRec ro L m q (if q.kind = .send then m else m + ls.length) := ⟨m, skip_marked g1 st1, g2 L m st1⟩
    cases qs with
    | nil => exact ⟨_, .cons hnext (.nil _)⟩
    | cons r qs =>
      have hns : q.kind ≠ .send := he q (by simp)
      rw [if_neg hns] at hnext
      obtain ⟨m', hm⟩ := ih (fun q hq' => hq q (List.mem_cons_of_mem _ hq')) (fun q hq' => hk q (List.mem_cons_of_mem _ hq'))
        (fun q hq' => hp q (List.mem_cons_of_mem _ hq'))
        (fun q hq' => he q (by rw [List.dropLast_cons_of_ne_nil (by simp)]; exact List.mem_cons_of_mem _ hq')) h2 L (m + ls.length) st2
      exact ⟨m', .cons hnext hm⟩

/-- C88 (partial): if a section has been read under the conditions of `C39_partial` and without keeping the texts of numbers,
if the records looked at before a decision are the records that are read next (`Foreseen`; recipes without lookahead meet this
condition, `LookFree.foreseen`), if no value of a record is changed by formatting (`Stays`), and if writing the dictionary
succeeds, then any lines beginning with the written ones — line numbers or further lines may follow — are read with the same
records and exactly the same dictionary.  Missing in comparison to the full claim: lookahead with records other than those
that follow, the conditions of C39, and numbers with more digits than are written (see `C88_fails`). -/
theorem C88_partial (c : RCtx) (p : Prog) (k : Ctrl) (s : RSt) (fuel : Nat) (o : WOpts) (zab : Bool) (mf mt : Int) (ls : List Str) (k' : Ctrl)
    (hs : Strict c.po) (hr : readSection c false p = .ok s) (hwf : WF p) (ht : Tidy c p { cur := initWork [] })
    (hk : ∀ r ∈ s.recs, r.ctrl = if r.kind = .send then { k with mt := 0 } else k)
    (hc : CtrlAll k s.cur) (hm : dHas (.var "MAT") s.cur = true)
    (hu : Unshadowed (looked p) s.cur) (hb : Unused (abbrs p) s.cur)
    (hn : Foreseen c s.recs p { cur := initWork [] }) (hp : p.plain = true) (hpre : c.ro.preserve = false) (hw : 11 ≤ o.width) (hcw : c.ro.width = o.width)
    (hst : ∀ q ∈ s.recs, Stays o c.ro q) (he : ∀ q ∈ s.recs.dropLast, q.kind ≠ .send)
    (hl : sectionLines fuel o zab mf mt p s.cur = .ok (ls, k')) :
    ∀ lines2, StandsAt lines2 0 ls → ∃ s2, readSection { c with lines := lines2 } false p = .ok s2 ∧
      s2.cur = s.cur ∧ s2.recs = s.recs := by
  unfold sectionLines at hl
  simp only [bind_ok, pure_ok] at hl
  obtain ⟨w, h1, lss, h2, k2, h3, h4⟩ := hl
  cases h4
  have hrec := C39_partial c p k s fuel mf mt w hs hr hwf ht hk hc hm hu hb h1
  have hpl := writeSection_plain hp (readSection_plain hpre hp hr) h1
  obtain ⟨a1, a2⟩ := readSection_ahead hn hr
  intro L hL
  obtain ⟨m, hlaid⟩ := laid_written hw hcw a1.from hst hrec hpl he h2 L 0 hL
  exact a2 L m hlaid

/-- control numbers of a section that has been written -/
theorem getCtrl_written {k : Ctrl} {fuel : Nat} {p : Prog} {d : DDic} (hd : Clean (.dic d)) (hc : CtrlAll k d)
    (hm : dHas (.var "MAT") d = true) {w : WSt} (h : writeSection fuel k.mf k.mt p d = .ok w) : getCtrl w = .ok k := by
  obtain ⟨m1, m2, m3⟩ := hc [] d .top hm
  have hMF : dHas (.var "MF") d = true := dHas_some.2 ⟨_, m2⟩
  have hMT : dHas (.var "MT") d = true := dHas_some.2 ⟨_, m3⟩
  have hcur := C72_unchanged fuel k.mf k.mt p d hd w h
  simp only [hMF, hMT, if_true] at hcur
  have hups : w.ups = [] := by
    unfold writeSection at h
    simp only [hMF, hMT, if_true, ctrlNum, m2, m3, bind, Except.bind, ne_eq, not_true_eq_false, if_false, pure, Except.pure] at h
    split at h
    · cases h
    · rename_i s1 h1
      split at h
      · cases h
      · cases h
        exact (writeProg_frame h1).ups
  unfold getCtrl WSt.outer
  rw [hups, hcur]
  simp only [List.map_nil, matScope, ctrlNum, m1, m2, m3, bind, Except.bind, pure, Except.pure]

/-- the records of a section that has been read can be written as lines -/
theorem lines_run {o : WOpts} {ro : ROpts} {zab : Bool} (hw : 11 ≤ o.width) (hr : ro.width = o.width) (ho : o.strictDatatypes = false)
    {qs qs' : List ARec} (hq : ∀ q ∈ qs, ∃ lines m m', readKind ro lines m q.kind = .ok (q, m')) (hk : ∀ q ∈ qs, Stays o ro q)
    (hs : List.Forall₂ SameRec qs qs') (hp : ∀ q ∈ qs', PlainRec q) (hi : ∀ q ∈ qs', IntsRec q) (hf : ∀ q ∈ qs, FullRec q) :
    ∃ lss, qs'.mapM (renderRec o zab) = .ok lss := by
  induction hs with
  | nil => exact ⟨[], rfl⟩
  | @cons q q' qs qs' hqq hs ih =>
    obtain ⟨_, n, n', hq1⟩ := hq q (by simp)
    obtain ⟨ls, h1⟩ := renderRec_run (zab := zab) hw hr ho hq1 (hk q (by simp)) hqq (hp q' (by simp)) (hi q' (by simp)) (hf q (by simp))
    obtain ⟨lss, h2⟩ := ih (fun q h => hq q (by simp [h])) (fun q h => hk q (by simp [h])) (fun q h => hp q (by simp [h]))
      (fun q h => hi q (by simp [h])) (fun q h => hf q (by simp [h]))
    refine ⟨ls :: lss, ?_⟩
    simp only [List.mapM_cons, bind_ok, pure_ok]
    exact ⟨ls, h1, lss, h2, rfl⟩

/-- C88 (partial): what has been read can be written as lines, and the lines are read again with the same records and the same
dictionary.  In addition to the conditions of `C88_partial` without the one that writing succeeds: the conditions of
`C39_success_partial`; no table is empty, and no number of list elements negative (`FullRec`); numbers written with `str()` and
numbers of list elements come from the dictionary as integers (`IntsRec`); `strict_datatypes` is off. -/
theorem C88_success_partial (c : RCtx) (p : Prog) (k : Ctrl) (s : RSt) (fuel : Nat) (o : WOpts) (zab : Bool)
    (hs : Strict c.po) (hr : readSection c false p = .ok s) (hwf : WF p) (ht : Tidy c p { cur := initWork [] })
    (hwh : Whole c p { cur := initWork [] })
    (hk : ∀ r ∈ s.recs, r.ctrl = if r.kind = .send then { k with mt := 0 } else k)
    (hc : CtrlAll k s.cur) (hm : dHas (.var "MAT") s.cur = true)
    (hu : Unshadowed (looked p) s.cur) (hb : Unused (abbrs p) s.cur) (hv : Unused (loopVars p) s.cur) (hf : c.fuel ≤ fuel)
    (hn : Foreseen c s.recs p { cur := initWork [] }) (hp : p.plain = true) (hpre : c.ro.preserve = false) (hw : 11 ≤ o.width) (hcw : c.ro.width = o.width)
    (ho : o.strictDatatypes = false) (hst : ∀ q ∈ s.recs, Stays o c.ro q) (hfu : ∀ q ∈ s.recs, FullRec q)
    (hi : ∀ w, writeSection fuel k.mf k.mt p s.cur = .ok w → ∀ r ∈ w.out, IntsRec r)
    (he : ∀ q ∈ s.recs.dropLast, q.kind ≠ .send) :
    ∃ ls, sectionLines fuel o zab k.mf k.mt p s.cur = .ok (ls, k) ∧
      ∀ lines2, StandsAt lines2 0 ls → ∃ s2, readSection { c with lines := lines2 } false p = .ok s2 ∧
        s2.cur = s.cur ∧ s2.recs = s.recs := by
  obtain ⟨w, hw1, hrec⟩ := C39_success_partial c p k s fuel hs hr hwf ht hwh hk hc hm hu hb hv hf
  have hpl := writeSection_plain hp (readSection_plain hpre hp hr) hw1
  obtain ⟨lss, hl⟩ := lines_run (zab := zab) hw hcw ho (readSection_ahead hn hr).1.from hst hrec hpl (hi w hw1) hfu
  have hclean : Clean (.dic s.cur) := C37_read c false p s hr
  have hl' : sectionLines fuel o zab k.mf k.mt p s.cur = .ok (lss.flatten, k) := by
    unfold sectionLines
    simp only [bind_ok, pure_ok]
    exact ⟨w, hw1, lss, hl, k, getCtrl_written hclean hc hm hw1, rfl⟩
  exact ⟨lss.flatten, hl', C88_partial c p k s fuel o zab k.mf k.mt _ k hs hr hwf ht hk hc hm hu hb hn hp hpre hw hcw hst he hl'⟩

/-- the values of a record that is to be written: they stand in some lines as a record of this kind, and formatting changes
none of them -/
def Settled (o : WOpts) (ro : ROpts) (r : ARec) : Prop :=
  ∃ lines m m' q, readKind ro lines m r.kind = .ok (q, m') ∧ SameRec q r ∧ Stays o ro q

theorem SameVal.swap {u v : Val} (h : SameVal u v) : SameVal v u := by
  cases u <;> cases v <;> simp only [SameVal] at h ⊢ <;> exact h.symm

theorem forall₂_swap {us vs : List Val} (h : List.Forall₂ SameVal us vs) : List.Forall₂ SameVal vs us := by
  induction h with
  | nil => exact .nil
  | cons h _ ih => exact .cons (SameVal.swap h) ih

theorem settled_replay {o : WOpts} {ro : ROpts} (hp : ro.preserve = false) {k : Ctrl} {prs : List (ARec × ARec)}
    (hq : ∀ pr ∈ prs, ∃ lines m m', readKind ro lines m pr.1.kind = .ok (pr.1, m'))
    (hk : ∀ pr ∈ prs, pr.1.ctrl = if pr.1.kind = .send then { k with mt := 0 } else k)
    (hP : ∀ pr ∈ prs, RPair k pr.1 pr.2) (hs : ∀ pr ∈ prs, Settled o ro pr.2) :
    ∃ qs2, List.Forall₂ (fun (pr : ARec × ARec) q2 => ReplayRec pr.1 pr.2 q2) prs qs2 ∧ List.Forall₂ SameRec qs2 (prs.map Prod.snd) ∧
      (∀ q ∈ qs2, ∃ lines m m', readKind ro lines m q.kind = .ok (q, m')) ∧ (∀ q ∈ qs2, Stays o ro q) ∧
      qs2.map ARec.kind = prs.map (fun pr => pr.1.kind) := by
  induction prs with
  | nil => exact ⟨[], .nil, .nil, by simp, by simp, rfl⟩
  | cons pr prs ih =>
    obtain ⟨qs2, i1, i2, i3, i4, i5⟩ := ih (fun x hx => hq x (List.mem_cons_of_mem _ hx)) (fun x hx => hk x (List.mem_cons_of_mem _ hx))
      (fun x hx => hP x (List.mem_cons_of_mem _ hx)) (fun x hx => hs x (List.mem_cons_of_mem _ hx))
    obtain ⟨lines, m, m', q2, h1, h2, h3⟩ := hs pr (by simp)
    obtain ⟨lines1, n, n', g1⟩ := hq pr (by simp)
    obtain ⟨p1, p2⟩ := hP pr (by simp)
    have hkd := readKind_kind h1
    rw [p1] at h1
    refine ⟨q2 :: qs2, .cons ⟨hkd.trans p1, ?_, forall₂_swap h2.flds, forall₂_swap h2.tbl, ?_, ?_⟩ i1, .cons h2 i2, ?_, ?_, ?_⟩
    · rw [h2.ctrl, p2, hk pr (by simp)]
    · exact fun hne => (readKind_alike hp hne g1 h1).1
    · exact fun hne => (readKind_alike hp hne g1 h1).2
    · intro q hq
      rcases List.mem_cons.1 hq with rfl | hq
      · exact ⟨lines, m, m', by rw [hkd, p1]; exact h1⟩
      · exact i3 q hq
    · intro q hq
      rcases List.mem_cons.1 hq with rfl | hq
      · exact h3
      · exact i4 q hq
    · simp only [List.map_cons, i5, hkd, p1]

/-- C88 (partial), for all parsing options: whatever deviations from the recipe were tolerated while reading, if the records
that are written for the dictionary are settled (`Settled`), then any lines beginning with the written ones are read with
exactly the same dictionary, and the records found there have the values that were written.  The deviations themselves are
gone: where a value contradicted the recipe, the written record has the value of the recipe.  Missing in comparison to the
full claim: recipes with lookahead, and the conditions of C39. -/
theorem C88_options_partial (c : RCtx) (p : Prog) (k : Ctrl) (s : RSt) (fuel : Nat) (o : WOpts) (zab : Bool) (mf mt : Int) (ls : List Str)
    (k' : Ctrl) (hr : readSection c false p = .ok s) (hwf : WF p) (ht : Tidy c p { cur := initWork [] })
    (hk : ∀ r ∈ s.recs, r.ctrl = if r.kind = .send then { k with mt := 0 } else k)
    (hc : CtrlAll k s.cur) (hm : dHas (.var "MAT") s.cur = true)
    (hu : Unshadowed (looked p) s.cur) (hb : Unused (abbrs p) s.cur)
    (hn : LookFree p) (hp : p.plain = true) (hpre : c.ro.preserve = false) (hw : 11 ≤ o.width) (hcw : c.ro.width = o.width)
    (hst : ∀ w, writeSection fuel mf mt p s.cur = .ok w → ∀ r ∈ w.out, Settled o c.ro r)
    (he : ∀ q ∈ s.recs.dropLast, q.kind ≠ .send)
    (hl : sectionLines fuel o zab mf mt p s.cur = .ok (ls, k')) :
    ∀ lines2, StandsAt lines2 0 ls → ∃ s2 w, readSection { c with lines := lines2 } false p = .ok s2 ∧ s2.cur = s.cur ∧
      writeSection fuel mf mt p s.cur = .ok w ∧ List.Forall₂ SameRec s2.recs w.out := by
  unfold sectionLines at hl
  simp only [bind_ok, pure_ok] at hl
  obtain ⟨w, h1, lss, h2, k2, h3, h4⟩ := hl
  cases h4
  have hst := hst w h1
  have hpl := writeSection_plain hp (readSection_plain hpre hp hr) h1
  have hfrom := (readSection_again hn hr).1.from
  have hw' := h1
  unfold readSection at hr
  simp only [Out.andThen_ok, Out.lift_ok] at hr
  obtain ⟨s0, h0, D, hD, hr1⟩ := hr
  cases hr1
  dsimp only at hk hc hm hu hb hw' hfrom he h1 ⊢
  letI L1 : Lit := ⟨false⟩
  have hnil : Lvl false ([] : DDic) := ⟨by unfold DNodup dKeys; simp, by simp [dGet], by simp [dGet], by simp [dGet], by simp [dGet]⟩
  have hw0 := (clean_work hnil).1
  obtain ⟨g1, g2⟩ := readProg_grow (s := { cur := initWork [] }) hw0 rfl rfl ht h0
  have hf := readProg_frame h0
  have hlD := removeWork_lvl g2.lvl hD
  have hup : dHas .up D = false := by
    rw [hlD.2, (hf.lvl hw0.lvl).2]; rfl
  have hcD : Clean (.dic D) := by
    have := hlD.1.clean
    rwa [dDel_none (dHas_none.1 hup)] at this
  have hH : Hold s0.cur D := fun n v hv ha => ⟨v, removeWork_get g2 hD rfl ha hv, .refl _⟩
  obtain ⟨m1, m2, m3⟩ := hc [] D .top hm
  have hMF : dHas (.var "MF") D = true := dHas_some.2 ⟨_, m2⟩
  have hMT : dHas (.var "MT") D = true := dHas_some.2 ⟨_, m3⟩
  unfold writeSection at hw'
  simp only [hMF, hMT, if_true, bind_ok] at hw'
  obtain ⟨_, _, hw'⟩ := hw'
  split at hw'
  · cases hw'
  simp only [bind_ok] at hw'
  obtain ⟨_, _, hw'⟩ := hw'
  split at hw'
  · cases hw'
  simp only [bind_ok, pure_ok] at hw'
  obtain ⟨w1, hw1, cur, hcur, rfl⟩ := hw'
  have hlev : Lev (abbrs p) (looked p) (initWork []) (initWork D) D := by
    apply Lev.init
    have na : ∀ n e', ¬ dGet (.var n) D = some (.abb e') := fun n e' h => clean_get_not_abb hcD h e' rfl
    refine ⟨?_, fun n v hv => .inr hv, ?_, fun n e hv => absurd hv (na _ _), hup.symm⟩
    · intro n e
      exact ⟨fun h => by simp [dGet] at h, fun h => absurd h (na _ _)⟩
    · intro n v hv
      refine ⟨hv, ?_⟩
      cases hcD with
      | dic _ _ _ h3 => exact h3 _ _ hv
  have hat : At (abbrs p) (looked p) (fun _ _ => True) D { cur := initWork [] } { cur := initWork D } D [] :=
    ⟨⟨⟨[], .top, by simp⟩, by simp, by simp, by simp⟩, hlev, rfl, rfl, rfl, .nil⟩
  obtain ⟨prs, a1, a2, a3, a4, a5⟩ := replay (s := { cur := initWork [] }) (k := k) ⟨hu, hb⟩ hc hwf hn (fun _ h => h) (fun _ h => h) hw0
    (clean_work hlD.1).1 rfl rfl ht h0 hw1 hat hH
  simp only [List.nil_append] at a1 a2
  rw [a1] at hfrom hk he
  dsimp only at hst hpl h2
  rw [a2] at hst hpl h2
  obtain ⟨qs2, b1, b2, b3, b4, b5⟩ := settled_replay hpre (fun pr hpr => hfrom _ (List.mem_map_of_mem hpr))
    (fun pr hpr => hk _ (List.mem_map_of_mem hpr)) a4 (fun pr hpr => hst _ (List.mem_map_of_mem hpr))
  have he2 : ∀ q ∈ qs2.dropLast, q.kind ≠ .send := by
    intro q hq
    have e : qs2.dropLast.map ARec.kind = (prs.map Prod.fst).dropLast.map ARec.kind := by
      rw [List.map_dropLast, List.map_dropLast, b5, List.map_map]; rfl
    have hm : q.kind ∈ (prs.map Prod.fst).dropLast.map ARec.kind := e ▸ List.mem_map_of_mem hq
    obtain ⟨x, hx, e'⟩ := List.mem_map.1 hm
    rw [← e']
    exact he x hx
  intro L hL
  obtain ⟨m, hlaid⟩ := laid_written hw hcw b3 b4 b2 hpl he2 h2 L 0 hL
  obtain ⟨S', g⟩ := a5 qs2 b1 L 0 m [] [] hlaid
  refine ⟨{ (s0.put m ([] ++ qs2) S') with cur := D }, _, ?_, rfl, h1, ?_⟩
  · have e : (RSt.put { cur := initWork [], ignoreAll := false } 0 [] []) = { cur := initWork [], ignoreAll := false } := rfl
    rw [e] at g
    dsimp only at g
    unfold readSection
    rw [g]
    have hD' : removeWork (s0.put m ([] ++ qs2) S').cur = .ok D := hD
    simp only [Out.andThen, hD', Out.lift]
  · dsimp only
    rw [a2]
    exact b2

/-- numbers that come from a field written by the package stay the same, so that after one cycle of writing and reading the
condition on numbers in `C88_partial` is met -/
theorem C88_number_partial (o : WOpts) (hw : 9 ≤ o.width) (hp : o.preferNoexp = false) (ro : ROpts) (hr : ro.width = o.width)
    (v : ℚ) (hv : InRange v) (x : Num) (h : Field o ro (.flt v) x) : Field o ro (.flt x.val) x := by
  obtain ⟨t, h1, h2, h3⟩ := h
  exact ⟨t, C07_partial o hw hp v hv t h1 ro hr x h3, h2, h3⟩

namespace ReparseEx
open RoundtripExample

/-- `StaysNum` decided -/
def staysNumB (o : WOpts) (ro : ROpts) : PyNum → Bool
  | .int n => decide ((intStr n).length ≤ o.width)
  | .num x =>
    match float2fortstr o (.flt x.val) with
    | .error _ => false
    | .ok s => decide (s.length = o.width) &&
      match readFloat ro s with
      | .error _ => false
      | .ok y => decide (y = x)

theorem staysField {o : WOpts} {ro : ROpts} {x : Num} (h : staysNumB o ro (.num x) = true) : Field o ro (.flt x.val) x := by
  unfold staysNumB at h
  dsimp only at h
  split at h
  · cases h
  · rename_i s hs
    rw [Bool.and_eq_true, decide_eq_true_eq] at h
    obtain ⟨h1, h⟩ := h
    split at h
    · cases h
    · rename_i y hy
      rw [decide_eq_true_eq] at h
      subst h
      exact ⟨s, hs, h1, hy⟩

theorem staysNumB_ok {o : WOpts} {ro : ROpts} {x : PyNum} (h : staysNumB o ro x = true) : StaysNum o ro x := by
  cases x with
  | int n => exact of_decide_eq_true (p := (intStr n).length ≤ o.width) h
  | num x => exact staysField h

def staysValB (o : WOpts) (ro : ROpts) : Val → Bool
  | .num (.num x) => staysNumB o ro (.num x)
  | .lst l => l.all (staysNumB o ro)
  | .txt t => decide (t.length = 6 * o.width)
  | _ => true

theorem staysValB_ok {o : WOpts} {ro : ROpts} {v : Val} (h : staysValB o ro v = true) : StaysVal o ro v := by
  cases v with
  | num x =>
    cases x with
    | int n => trivial
    | num x => exact staysField h
  | lst l => exact fun x hx => staysNumB_ok (List.all_eq_true.1 h x hx)
  | txt t => exact of_decide_eq_true (p := t.length = 6 * o.width) h
  | _ => trivial

def staysB (o : WOpts) (ro : ROpts) (q : ARec) : Bool :=
  decide (q.kind ≠ .intg 3) && q.flds.all (staysValB o ro) && q.tbl.all (staysValB o ro)

theorem staysB_ok {o : WOpts} {ro : ROpts} {q : ARec} (h : staysB o ro q = true) : Stays o ro q := by
  unfold staysB at h
  simp only [Bool.and_eq_true, decide_eq_true_eq, List.all_eq_true] at h
  exact ⟨h.1.1, fun v hv => staysValB_ok (h.1.2 v hv), fun v hv => staysValB_ok (h.2 v hv)⟩

/-! ## `Foreseen` decided -/

def eqValB : Val → Val → Bool
  | .num x, .num y => decide (x = y)
  | .lst l, .lst m => decide (l = m)
  | .txt s, .txt t => decide (s = t)
  | _, _ => false

theorem eqValB_ok {u v : Val} (h : eqValB u v = true) : u = v := by
  cases u <;> cases v <;> simp only [eqValB, decide_eq_true_eq, Bool.false_eq_true] at h <;> rw [h]

def eqRecB (q r : ARec) : Bool :=
  decide (q.kind = r.kind) && all2 eqValB q.flds r.flds && all2 eqValB q.tbl r.tbl && decide (q.ctrl = r.ctrl)

theorem all2_eq {α : Type} {f : α → α → Bool} (hf : ∀ a b, f a b = true → a = b) {l m : List α} (h : all2 f l m = true) : l = m := by
  induction l generalizing m with
  | nil => cases m with
    | nil => rfl
    | cons => cases h
  | cons a l ih => cases m with
    | nil => cases h
    | cons b m =>
      simp only [all2, Bool.and_eq_true] at h
      rw [hf _ _ h.1, ih h.2]

theorem eqRecB_ok {q r : ARec} (h : eqRecB q r = true) : q = r := by
  unfold eqRecB at h
  simp only [Bool.and_eq_true, decide_eq_true_eq] at h
  obtain ⟨⟨⟨h1, h2⟩, h3⟩, h4⟩ := h
  cases q; cases r
  simp only [ARec.mk.injEq]
  exact ⟨h1, all2_eq (fun _ _ => eqValB_ok) h2, all2_eq (fun _ _ => eqValB_ok) h3, h4⟩

def prefB : List ARec → List ARec → Bool
  | [], _ => true
  | a :: l, b :: m => eqRecB a b && prefB l m
  | _ :: _, [] => false

theorem prefB_ok {l m : List ARec} (h : prefB l m = true) : l <+: m := by
  induction l generalizing m with
  | nil => exact List.nil_prefix
  | cons a l ih => cases m with
    | nil => cases h
    | cons b m =>
      simp only [prefB, Bool.and_eq_true] at h
      rw [eqRecB_ok h.1]
      exact List.cons_prefix_cons.2 ⟨rfl, ih h.2⟩

def aheadB (c : RCtx) (F : List ARec) : Prog → RSt → Bool
  | .skip, _ | .act _, _ | .abbr _ _, _ => true
  | .seq a b, s => aheadB c F a s && ifRun (readProg c a s) (aheadB c F b)
  | .sect r body, s => ifOk (openR s r) fun s1 => aheadB c F body { s1 with cur := initWork s1.cur }
  | .loop v a b body, s => ifOk (loopHead c.fuel s.env v a b) fun (x, y) =>
      allIterB (RSt.setVar v) (readProg c body) (aheadB c F body) (intRange x y) s
  | .ite cond look thn els, s =>
    (match look with
      | none => true
      | some e => ifOk (lookCount c s e) fun n => match looks c thn { s with look := some n, ignoreAll := true } with
        | none => false
        | some t => prefB t (F.drop s.recs.length)) &&
    match chosen c cond look thn s with
    | none => true
    | some b => if b then aheadB c F thn s else aheadB c F els s

theorem aheadB_ok {c : RCtx} {F : List ARec} {p : Prog} {s : RSt} (h : aheadB c F p s = true) : Foreseen c F p s := by
  induction p generalizing s with
  | skip | act | abbr => trivial
  | seq a b iha ihb =>
    simp only [aheadB, Bool.and_eq_true] at h
    exact ⟨iha h.1, fun s1 h1 => ihb (by have := h.2; rw [h1] at this; exact this)⟩
  | sect r body ih =>
    intro s1 h1
    simp only [aheadB, h1] at h
    exact ih h
  | loop v a b body ih =>
    intro x y h1
    simp only [aheadB, h1] at h
    exact allIterB_ok (fun s => ih (s := s)) _ h
  | ite cond look thn els iht ihe =>
    simp only [aheadB, Bool.and_eq_true] at h
    obtain ⟨h1, h2⟩ := h
    refine ⟨?_, ?_, ?_⟩
    · rintro e rfl n hn
      simp only [hn, ifOk] at h1
      split at h1
      · cases h1
      · rename_i t ht
        exact ⟨t, ht, prefB_ok h1⟩
    · intro hc
      simp only [hc, if_true] at h2
      exact iht h2
    · intro hc
      simp only [hc, Bool.false_eq_true, if_false] at h2
      exact ihe h2

/-- everything `C88_partial` demands, in one computation -/
def holds88 (c : RCtx) (p : Prog) (k : Ctrl) (o : WOpts) : Bool :=
  holds c p k k.mf k.mt && p.plain && decide (c.ro.preserve = false) && decide (11 ≤ o.width) && decide (c.ro.width = o.width) &&
  match readSection c false p with
  | .err _ _ => false
  | .ok s => aheadB c s.recs p { cur := initWork [] } && s.recs.all (staysB o c.ro) && s.recs.dropLast.all (fun q => decide (q.kind ≠ .send)) &&
    resOk (sectionLines 100 o false k.mf k.mt p s.cur)

theorem holds88_ok {c : RCtx} {p : Prog} {k : Ctrl} {o : WOpts} (hs : Strict c.po) (hwf : WF p)
    (h : holds88 c p k o = true) : ∃ s ls k', readSection c false p = .ok s ∧
      sectionLines 100 o false k.mf k.mt p s.cur = .ok (ls, k') ∧
      ∀ lines2, StandsAt lines2 0 ls → ∃ s2, readSection { c with lines := lines2 } false p = .ok s2 ∧
        s2.cur = s.cur ∧ s2.recs = s.recs := by
  unfold holds88 at h
  simp only [Bool.and_eq_true, decide_eq_true_eq] at h
  obtain ⟨⟨⟨⟨⟨h0, h1⟩, h2⟩, h3⟩, h4⟩, h5⟩ := h
  unfold holds at h0
  rw [Bool.and_eq_true] at h0
  obtain ⟨t1, h0⟩ := h0
  cases hr : readSection c false p with
  | err e s => rw [hr] at h0; cases h0
  | ok s =>
    rw [hr] at h0 h5
    simp only [Bool.and_eq_true, List.all_eq_true, decide_eq_true_eq] at h0 h5
    obtain ⟨⟨⟨⟨⟨a1, a2⟩, a3⟩, a4⟩, a5⟩, -⟩ := h0
    obtain ⟨⟨⟨b0, b1⟩, b2⟩, b3⟩ := h5
    obtain ⟨⟨ls, k'⟩, hl⟩ := resOk_ok b3
    exact ⟨s, ls, k', rfl, hl, C88_partial c p k s 100 o false k.mf k.mt ls k' hs hr hwf (tidyB_ok t1) a1 (ctrlAllB_ok a2) a3
      (unshadowedB_ok a4) (unusedB_ok a5) (aheadB_ok b0) h1 h2 h3 h4 (fun q hq => staysB_ok (b1 q hq)) b2 hl⟩

/-- the recipe of `RoundtripExample` without lookahead -/
def plainRecipe : Prog :=
  .seq (.act (.cont true {} [v "ZA", v "AWR", i 0, i 0, v "N", .mul (i 4) (v "K")]))
    (.seq (.abbr "M" (.add (v "N") (i 1)))
      (.seq (.ite (.cmp .ge (v "K") (i 2)) none
        (.sect ⟨"S", []⟩
          (.seq (.act (.list {} [f, f, i 0, i 0, v "NPL", v "N2"]
            (.seq (.loop "k" (i 1) (v "M") (.expr (.var ⟨"B", [.var "k"]⟩))) .pad) none))
          (.act (.tab1 {} [f, v "Q", i 0, i 0, v "NR", v "NP"] ⟨"X", []⟩ ⟨"Y", []⟩ (some ⟨"table", []⟩)))))
        .skip)
      (.act .send)))

/-- all hypotheses of `C88_partial` can be met: HEAD, LIST in a section, TAB1 with a table and SEND, read, written in
exponential form, and read again -/
example : Strict ctx.po ∧ WF plainRecipe ∧ holds88 ctx plainRecipe k {} = true := by
  refine ⟨⟨rfl, rfl, rfl, rfl⟩, ?_, by decide +kernel⟩
  simp [plainRecipe, WF, ActWF]

/-- and with a decision that depends on a variable of the TAB1 record that follows -/
example : Strict ctx.po ∧ WF recipe ∧ ¬ LookFree recipe ∧ holds88 ctx recipe k {} = true := by
  refine ⟨⟨rfl, rfl, rfl, rfl⟩, ?_, ?_, by decide +kernel⟩
  · simp [recipe, WF, ActWF]
  · simp [recipe, LookFree]

/-! ## `C88_success_partial` -/

def intsValB : Val → Bool
  | .num (.int _) => true
  | .lst l => l.all fun x => match x with
    | .int _ => true
    | .num _ => false
  | _ => false

theorem intsValB_ok {v : Val} (h : intsValB v = true) : IntsVal v := by
  cases v with
  | num x => cases x with
    | int n => trivial
    | num x => cases h
  | lst l =>
    intro x hx
    have := List.all_eq_true.1 h x hx
    cases x with
    | int n => exact ⟨n, rfl⟩
    | num x => cases this
  | _ => cases h

def intsRecB (q : ARec) : Bool :=
  match q.kind with
  | .dir | .intg _ => q.flds.all intsValB
  | .tab1 | .tab2 => (q.tbl.take 2).all intsValB
  | .list => match q.flds[4]? with
    | some v => intsValB v
    | none => true
  | _ => true

theorem intsRecB_ok {q : ARec} (h : intsRecB q = true) : IntsRec q := by
  unfold intsRecB at h
  refine ⟨fun hk => ?_, fun n hk => ?_, fun hk => ?_, fun hk => ?_⟩
  · rw [hk] at h
    exact fun v hv => intsValB_ok (List.all_eq_true.1 h v hv)
  · rw [hk] at h
    exact fun v hv => intsValB_ok (List.all_eq_true.1 h v hv)
  · rcases hk with hk | hk <;> rw [hk] at h <;> exact fun v hv => intsValB_ok (List.all_eq_true.1 h v hv)
  · intro v hv
    rw [hk] at h
    dsimp only at h
    rw [hv] at h
    exact intsValB_ok h

def fullRecB (q : ARec) : Bool :=
  match q.kind with
  | .tab1 | .tab2 => q.tbl.all fun v => match v with
    | .lst [] => false
    | _ => true
  | .list => match q.flds[4]? with
    | some (Val.num (.int n)) => decide (0 ≤ n)
    | _ => true
  | _ => true

theorem fullRecB_ok {q : ARec} (h : fullRecB q = true) : FullRec q := by
  unfold fullRecB at h
  refine ⟨fun hk => ?_, fun hk => ?_⟩
  · have h' : q.tbl.all (fun v => match v with
        | .lst [] => false
        | _ => true) = true := by rcases hk with hk | hk <;> rw [hk] at h <;> exact h
    rintro v hv rfl
    exact absurd (List.all_eq_true.1 h' _ hv) (by simp)
  · intro n hn
    rw [hk] at h
    dsimp only at h
    rw [hn] at h
    exact of_decide_eq_true h

/-- everything `C88_success_partial` demands: nothing is written except for the types of the numbers -/
def holdsRun (c : RCtx) (p : Prog) (k : Ctrl) (o : WOpts) (fuel : Nat) : Bool :=
  holdsAll c p k && p.plain && decide (c.ro.preserve = false) && decide (11 ≤ o.width) && decide (c.ro.width = o.width) &&
  decide (o.strictDatatypes = false) && decide (c.fuel ≤ fuel) &&
  match readSection c false p with
  | .err _ _ => false
  | .ok s => aheadB c s.recs p { cur := initWork [] } && s.recs.all (staysB o c.ro) && s.recs.all fullRecB &&
    s.recs.dropLast.all (fun q => decide (q.kind ≠ .send)) &&
    match writeSection fuel k.mf k.mt p s.cur with
    | .ok w => w.out.all intsRecB
    | .error _ => true

theorem holdsRun_ok {c : RCtx} {p : Prog} {k : Ctrl} {o : WOpts} {fuel : Nat} (hs : Strict c.po) (hwf : WF p)
    (h : holdsRun c p k o fuel = true) : ∃ s ls, readSection c false p = .ok s ∧
      sectionLines fuel o false k.mf k.mt p s.cur = .ok (ls, k) ∧
      ∀ lines2, StandsAt lines2 0 ls → ∃ s2, readSection { c with lines := lines2 } false p = .ok s2 ∧
        s2.cur = s.cur ∧ s2.recs = s.recs := by
  unfold holdsRun at h
  simp only [Bool.and_eq_true, decide_eq_true_eq] at h
  obtain ⟨⟨⟨⟨⟨⟨⟨h0, h1⟩, h2⟩, h3⟩, h4⟩, h5⟩, h6⟩, h⟩ := h
  unfold holdsAll at h0
  rw [Bool.and_eq_true, Bool.and_eq_true] at h0
  obtain ⟨⟨t1, t2⟩, h0⟩ := h0
  cases hr : readSection c false p with
  | err e s => rw [hr] at h; cases h
  | ok s =>
    rw [hr] at h0 h
    simp only [Bool.and_eq_true, List.all_eq_true, decide_eq_true_eq] at h0 h
    obtain ⟨⟨⟨⟨⟨a1, a2⟩, a3⟩, a4⟩, a5⟩, a6⟩ := h0
    obtain ⟨⟨⟨⟨b0, b1⟩, b2⟩, b3⟩, b4⟩ := h
    obtain ⟨ls, g⟩ := C88_success_partial c p k s fuel o false hs hr hwf (tidyB_ok t1) (wholeB_ok t2) a1 (ctrlAllB_ok a2) a3
      (unshadowedB_ok a4) (unusedB_ok a5) (unusedB_ok a6) h6 (aheadB_ok b0) h1 h2 h3 h4 h5 (fun q hq => staysB_ok (b1 q hq))
      (fun q hq => fullRecB_ok (b2 q hq)) (fun w hw r hr' => by
        rw [hw] at b4
        exact intsRecB_ok (List.all_eq_true.1 b4 r hr')) b3
    exact ⟨s, ls, rfl, g⟩

/-- all hypotheses of `C88_success_partial` can be met with the default options of the parser (endf_parser.py:122) -/
example : Strict ctx.po ∧ WF recipe ∧ holdsRun ctx recipe k { strictDatatypes := false } 100 = true := by
  refine ⟨⟨rfl, rfl, rfl, rfl⟩, ?_, by decide +kernel⟩
  simp [recipe, WF, ActWF]

def same1B (u v : Val) : Bool :=
  match u, v with
  | .num x, .num y => decide (x.val = y.val)
  | .lst l, .lst m => decide (l.map PyNum.val = m.map PyNum.val)
  | .txt s, .txt t => decide (s = t)
  | _, _ => false

theorem same1B_ok {u v : Val} (h : same1B u v = true) : SameVal u v := by
  cases u <;> cases v <;> simp only [same1B, decide_eq_true_eq, Bool.false_eq_true] at h <;> exact h

def sameLB : List Val → List Val → Bool
  | [], [] => true
  | u :: us, v :: vs => same1B u v && sameLB us vs
  | _, _ => false

theorem sameLB_ok {us vs : List Val} (h : sameLB us vs = true) : List.Forall₂ SameVal us vs := by
  induction us generalizing vs with
  | nil => cases vs with | nil => exact .nil | cons => cases h
  | cons u us ih =>
    cases vs with
    | nil => cases h
    | cons v vs =>
      simp only [sameLB, Bool.and_eq_true] at h
      exact .cons (same1B_ok h.1) (ih h.2)

/-- `Settled` for a record that is read back from its own lines -/
def settledB (o : WOpts) (ro : ROpts) (r : ARec) : Bool :=
  match renderRec o false r with
  | .error _ => false
  | .ok ls => match readKind ro ls 0 r.kind with
    | .error _ => false
    | .ok (q, _) => decide (q.kind = r.kind) && decide (q.ctrl = r.ctrl) && sameLB q.flds r.flds && sameLB q.tbl r.tbl && staysB o ro q

theorem settledB_ok {o : WOpts} {ro : ROpts} {r : ARec} (h : settledB o ro r = true) : Settled o ro r := by
  unfold settledB at h
  split at h
  · cases h
  · rename_i ls _
    split at h
    · cases h
    · rename_i q m hq
      simp only [Bool.and_eq_true, decide_eq_true_eq] at h
      exact ⟨ls, 0, m, q, hq, ⟨h.1.1.1.1, h.1.1.1.2, sameLB_ok h.1.1.2, sameLB_ok h.1.2⟩, staysB_ok h.2⟩

/-- all hypotheses of `C88_options_partial`, by computation -/
def holdsOpt (c : RCtx) (p : Prog) (k : Ctrl) (o : WOpts) : Bool :=
  holds c p k k.mf k.mt && p.plain && decide (c.ro.preserve = false) && decide (11 ≤ o.width) && decide (c.ro.width = o.width) &&
  match readSection c false p with
  | .err _ _ => false
  | .ok s => s.recs.dropLast.all (fun q => decide (q.kind ≠ .send)) && resOk (sectionLines 100 o false k.mf k.mt p s.cur) &&
    match writeSection 100 k.mf k.mt p s.cur with
    | .error _ => false
    | .ok w => w.out.all (settledB o c.ro)

theorem holdsOpt_ok {c : RCtx} {p : Prog} {k : Ctrl} {o : WOpts} (hwf : WF p) (hn : LookFree p)
    (h : holdsOpt c p k o = true) : ∃ s ls k', readSection c false p = .ok s ∧
      sectionLines 100 o false k.mf k.mt p s.cur = .ok (ls, k') ∧
      ∀ lines2, StandsAt lines2 0 ls → ∃ s2 w, readSection { c with lines := lines2 } false p = .ok s2 ∧ s2.cur = s.cur ∧
        writeSection 100 k.mf k.mt p s.cur = .ok w ∧ List.Forall₂ SameRec s2.recs w.out := by
  unfold holdsOpt at h
  simp only [Bool.and_eq_true, decide_eq_true_eq] at h
  obtain ⟨⟨⟨⟨⟨h0, h1⟩, h2⟩, h3⟩, h4⟩, h5⟩ := h
  unfold holds at h0
  rw [Bool.and_eq_true] at h0
  obtain ⟨t1, h0⟩ := h0
  cases hr : readSection c false p with
  | err e s => rw [hr] at h0; cases h0
  | ok s =>
    rw [hr] at h0 h5
    simp only [Bool.and_eq_true, List.all_eq_true, decide_eq_true_eq] at h0 h5
    obtain ⟨⟨⟨⟨⟨a1, a2⟩, a3⟩, a4⟩, a5⟩, -⟩ := h0
    obtain ⟨⟨b2, b3⟩, b1⟩ := h5
    obtain ⟨⟨ls, k'⟩, hl⟩ := resOk_ok b3
    refine ⟨s, ls, k', rfl, hl, C88_options_partial c p k s 100 o false k.mf k.mt ls k' hr hwf (tidyB_ok t1) a1 (ctrlAllB_ok a2) a3
      (unshadowedB_ok a4) (unusedB_ok a5) hn h1 h2 h3 h4 ?_ b2 hl⟩
    intro w hw r hr'
    rw [hw] at b1
    simp only [List.all_eq_true] at b1
    exact settledB_ok (b1 r hr')

/-- all hypotheses of `C88_options_partial` can be met with the default options, which tolerate other numbers where the
recipe has 0: L2 of the HEAD record is 5 where the recipe has 0, so that the records are not those that are read again,
but the dictionary is the same -/
example : WF plainRecipe ∧ LookFree plainRecipe ∧ ¬ Strict ctxOff.po ∧ holdsOpt ctxOff plainRecipe k {} = true := by
  refine ⟨?_, ?_, ?_, by decide +kernel⟩
  · simp [plainRecipe, WF, ActWF]
  · simp [plainRecipe, LookFree]
  · intro h; exact absurd h.1 (by decide)

/-- a number with more digits than are written -/
def longHead : Str := " 1.001000+30.999167312          0          0          2          8 125 3  1".toList
def headRecipe : Prog := .act (.cont true {} [v "ZA", v "AWR", i 0, i 0, v "N", v "M"])

def awr (s : RSt) : Option ℚ :=
  match dGet (.var "AWR") s.cur with
  | some (.num x) => some x.val
  | _ => none

def differs (c : RCtx) (p : Prog) (k : Ctrl) (o : WOpts) : Bool :=
  match readSection c false p with
  | .err _ _ => false
  | .ok s =>
    match sectionLines 100 o false k.mf k.mt p s.cur with
    | .error _ => false
    | .ok (ls, _) =>
      match readSection { c with lines := ls } false p with
      | .err _ _ => false
      | .ok s2 => decide (awr s2 ≠ awr s)

theorem differs_ok {c : RCtx} {p : Prog} {k : Ctrl} {o : WOpts} (h : differs c p k o = true) : ∃ s ls k' s2,
    readSection c false p = .ok s ∧ sectionLines 100 o false k.mf k.mt p s.cur = .ok (ls, k') ∧
    readSection { c with lines := ls } false p = .ok s2 ∧ s2.cur ≠ s.cur := by
  unfold differs at h
  split at h
  · cases h
  · rename_i s hs
    split at h
    · cases h
    · rename_i ls k' hl
      split at h
      · cases h
      · rename_i s2 h2
        rw [decide_eq_true_eq] at h
        exact ⟨s, ls, k', s2, hs, hl, h2, fun e => h (by unfold awr; rw [e])⟩

end ReparseEx

open ReparseEx RoundtripExample

/-- C88 fails if a number has more digits than are written by default. -/
theorem C88_fails : ∃ s ls k' s2, readSection { lines := [longHead], po := strict } false headRecipe = .ok s ∧
    sectionLines 100 {} false 3 1 headRecipe s.cur = .ok (ls, k') ∧
    readSection { lines := ls, po := strict } false headRecipe = .ok s2 ∧ s2.cur ≠ s.cur :=
  differs_ok (c := { lines := [longHead], po := strict }) (p := headRecipe) (k := ⟨125, 3, 1⟩) (o := {}) (by decide +kernel)

end Verif
