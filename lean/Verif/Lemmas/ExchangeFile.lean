import Verif.Props.Exchange
/-
Sections written by the compiled function, inside of a file: the data lines, followed by a SEND record, are read by the interpreter.
-/
namespace Verif
open Verif.Spec

theorem recAs_send {r : ARec} {c : CRec} (h : RecAs r c) (hk : r.kind = .send) : c = .send r.ctrl := by
  cases c with
  | cont fs k => obtain ⟨_, ⟨h | h, _⟩ | ⟨h, _⟩⟩ := h <;> rw [hk] at h <;> cases h
  | text => have := h.1; rw [hk] at this; cases this
  | tab1 => have := h.1; rw [hk] at this; cases this
  | tab2 => have := h.1; rw [hk] at this; cases this
  | list => have := h.1; rw [hk] at this; cases this
  | send k => rw [h.2]

theorem recAs_intg {r : ARec} {c : CRec} (h : RecAs r c) (n : Int) : r.kind ≠ .intg n := by
  intro e
  cases c with
  | cont fs k => obtain ⟨_, ⟨h | h, _⟩ | ⟨h, _⟩⟩ := h <;> rw [e] at h <;> cases h
  | text => have := h.1; rw [e] at this; cases this
  | tab1 => have := h.1; rw [e] at this; cases this
  | tab2 => have := h.1; rw [e] at this; cases this
  | list => have := h.1; rw [e] at this; cases this
  | send => have := h.1; rw [e] at this; cases this

theorem recLines_cons {o : WOpts} {ln : Int} {c : CRec} {cs : List CRec} {ls : List Str} (h : recLines o false ln (c :: cs) = some ls) :
    ∃ a ln' b, c.lines o false ln = some (a, ln') ∧ recLines o false ln' cs = some b ∧ ls = a ++ b := by
  rw [recLines] at h
  cases ha : c.lines o false ln with
  | none => rw [ha] at h; cases h
  | some a =>
    obtain ⟨a, ln'⟩ := a
    rw [ha] at h
    simp only [Option.bind_eq_bind, Option.bind_some] at h
    cases hb : recLines o false ln' cs with
    | none => rw [hb] at h; cases h
    | some b =>
      rw [hb] at h
      cases h
      exact ⟨a, ln', b, rfl, hb, rfl⟩

/-- the last line is the SEND record -/
theorem recLines_frame {o : WOpts} {bs : List ARec} {e : ARec} (hk : e.kind = .send) : ∀ {cs : List CRec}, List.Forall₂ RecAs (bs ++ [e]) cs →
    ∀ {ln : Int} {ls : List Str}, recLines o false ln cs = some ls → ∃ body z, ls = body ++ [z] ∧ cppSend o false e.ctrl.mat e.ctrl.mf = some z := by
  induction bs with
  | nil =>
    intro cs h ln ls hl
    cases h with
    | cons h0 hn =>
    cases hn
    obtain rfl := recAs_send h0 hk
    obtain ⟨a, ln', b, h1, h2, rfl⟩ := recLines_cons hl
    cases h2
    rw [CRec.lines] at h1
    cases hz : cppSend o false e.ctrl.mat e.ctrl.mf with
    | none => rw [hz] at h1; cases h1
    | some z =>
      rw [hz] at h1
      cases h1
      exact ⟨[], z, rfl, rfl⟩
  | cons r bs ih =>
    intro cs h ln ls hl
    cases h with
    | cons h0 hn =>
    obtain ⟨a, ln', b, h1, h2, rfl⟩ := recLines_cons hl
    obtain ⟨body, z, rfl, hz⟩ := ih hn h2
    exact ⟨a ++ body, z, by simp, hz⟩

/-- the records of a section, with any SEND record behind the lines of the compiled function -/
theorem laid_frame {o : WOpts} {ro : ROpts} (ho : o.width = 11) (hpn : o.preferNoexp = false) (hr : ro.width = 11) (hpre : ro.preserve = false)
    {bs bs' : List ARec} {e e' : ARec} (hq : ∀ q ∈ bs ++ [e], ∃ lines m m', readKind ro lines m q.kind = .ok (q, m')) (hk : ∀ q ∈ bs ++ [e], Stays o ro q)
    (hs : List.Forall₂ SameRec bs bs') (hse : SameRec e e') (hek : e.kind = .send) (hp : ∀ q ∈ bs' ++ [e'], PlainRec q) (he : ∀ q ∈ bs, q.kind ≠ .send)
    (hok : ∀ q ∈ bs' ++ [e'], RecOk q) {cs : List CRec} (hcs : List.Forall₂ RecAs (bs' ++ [e']) cs) {lss : List (List Str)}
    (h : (bs' ++ [e']).mapM (renderRec o false) = .ok lss) {ln : Int} {body : List Str} {z : Str} (hls : recLines o false ln cs = some (body ++ [z])) :
    ∀ L L' m, List.Forall₂ LineAs L L' → StandsAt L m lss.flatten → StandsAt L' m body → ∃ m', Laid ro L' m (bs ++ [e]) m' := by
  induction hs generalizing lss cs ln body with
  | nil =>
    intro L L' m hL hst _
    rw [List.nil_append] at *
    cases hcs with
    | @cons _ c _ cs h0 hn =>
    simp only [List.mapM_cons, List.mapM_nil, bind_ok, pure_ok] at h
    obtain ⟨ls, h1, lss', rfl, rfl⟩ := h
    obtain ⟨_, n, n', hq1⟩ := hq e (by simp)
    obtain ⟨⟨g1, -⟩, g2⟩ := readKind_written (by omega) (by omega) hq1 (hk e (by simp)) hse (hp e' (by simp)) h1
    have st1 : StandsAt L m ls := by simpa using hst
    have hnext : NextRec ro L' m e m := by
      refine ⟨m, by rw [skipBlank_same hL]; exact skip_marked g1 st1, readKind_cov hr hpre hL ?_ ?_ ?_⟩
      · intro k hk; rw [hek] at hk; cases hk
      · intro hk; rw [hek] at hk; cases hk
      · have := g2 L m st1
        rwa [if_pos hek] at this
    exact ⟨_, .cons hnext (.nil _)⟩
  | @cons q q' qs qs' hqq hs ih =>
    intro L L' m hL hst hst'
    rw [List.cons_append] at *
    cases hcs with
    | @cons _ c _ cs h0 hcs =>
    simp only [List.mapM_cons, bind_ok, pure_ok] at h
    obtain ⟨ls, h1, lss', h2, rfl⟩ := h
    obtain ⟨a, ln', a1, a2, _⟩ := C93_record_partial o ho hpn false _ _ h0 (hok _ (by simp)) ls h1 ln
    obtain ⟨a', ln'', b, c1, c2, c3⟩ := recLines_cons hls
    rw [a1] at c1
    cases c1
    obtain ⟨b0, z', rfl, -⟩ := recLines_frame (by rw [← hse.kind]; exact hek) hcs c2
    rw [← List.append_assoc] at c3
    obtain ⟨rfl, hz⟩ := List.append_inj' c3 rfl
    cases hz
    obtain ⟨_, n, n', hq1⟩ := hq q (by simp)
    obtain ⟨⟨g1, -⟩, g2⟩ := readKind_written (by omega) (by omega) hq1 (hk q (by simp)) hqq (hp q' (by simp)) h1
    rw [List.flatten_cons] at hst
    obtain ⟨st1, st2⟩ := StandsAt.append hst
    obtain ⟨st1', st2'⟩ := StandsAt.append hst'
    have hlen := a2.length_eq
    have hns : q.kind ≠ .send := he q (by simp)
    have hnext : NextRec ro L' m q (m + ls.length) := by
      refine ⟨m, by rw [skipBlank_same hL]; exact skip_marked g1 st1, readKind_cov hr hpre hL ?_ ?_ ?_⟩
      · intro k hk
        exact recAs_intg h0 k (by rw [← hqq.kind]; exact hk)
      · intro hk
        obtain ⟨l, l', e1, e2, h66, h66', e3⟩ := text_same ho h0 (hok _ (by simp)) (by rw [← hqq.kind]; exact hk) h1 a1
        subst e1 e2
        obtain ⟨l1, b1, b2⟩ := st1 0 l rfl
        obtain ⟨l2, b3, b4⟩ := st1' 0 l' rfl
        refine ⟨l1, l2, b1, b3, ?_⟩
        obtain ⟨_, rfl⟩ := b2
        obtain ⟨_, rfl⟩ := b4
        rw [slice_left h66, slice_left h66', e3]
      · have := g2 L m st1
        rwa [if_neg hns] at this
    rw [← hlen] at st2'
    obtain ⟨m', hm⟩ := ih (fun q hq' => hq q (List.mem_cons_of_mem _ hq')) (fun q hq' => hk q (List.mem_cons_of_mem _ hq'))
      (fun q hq' => hp q (List.mem_cons_of_mem _ hq')) (fun q hq' => he q (List.mem_cons_of_mem _ hq'))
      (fun q hq' => hok q (List.mem_cons_of_mem _ hq')) hcs h2 c2 L L' (m + ls.length) hL st2 st2'
    exact ⟨m', .cons hnext hm⟩

theorem stands_here (a b : List Str) : StandsAt (a ++ b) 0 a := by
  intro i s hs
  rw [Nat.zero_add]
  obtain ⟨hi, rfl⟩ := List.getElem?_eq_some_iff.1 hs
  exact ⟨a[i], by rw [List.getElem?_append_left hi, List.getElem?_eq_getElem hi], List.prefix_rfl⟩

theorem stands_self (a : List Str) : StandsAt a 0 a := by
  have := stands_here a []
  rwa [List.append_nil] at this

theorem lineAs_refl {l : Str} (h : isBlankLine l = false) : LineAs l l :=
  ⟨rfl, fun _ _ => .inl rfl, fun _ _ _ _ h => h, h, h⟩

theorem strip_of_notBlank {l : Str} (h : isBlankLine l = false) : strip l ≠ [] := by
  simpa [isBlankLine] using h

/-- the lines written by the compiled function for a section, and what the interpreter reads from them in a file -/
theorem section_compiled {c : RCtx} {o : WOpts} {p : Prog} {k : Ctrl} {s : RSt} {fuel : Nat} {ls : List Str} {k' : Ctrl} {w : WSt} {cs : List CRec}
    (ho : o.width = 11) (hpn : o.preferNoexp = false) (hcw : c.ro.width = 11) (hpre : c.ro.preserve = false)
    (hs : Strict c.po) (hr : readSection c false p = .ok s) (hf : Faithful c o p k s) (hfit : FitsCtrl k.mat k.mf k.mt)
    (hpy : writeSection fuel k.mf k.mt p s.cur = .ok w) (hrec : ∀ q ∈ w.out, RecOk q) (has : List.Forall₂ RecAs w.out cs)
    (hl : sectionLines fuel o false k.mf k.mt p s.cur = .ok (ls, k')) (ln : Int) {snd : List Str} (hsnd : writeSend o false k = .ok snd) :
    ∃ body tail, recLines o false ln cs = some (body ++ tail) ∧ body ≠ [] ∧ (∀ l ∈ body, readCtrl 11 l = .ok k ∧ strip l ≠ []) ∧
      (k.mf = 0 → (∃ l, body = [l]) ∧ tail = []) ∧
      (k.mf ≠ 0 → ∃ z, tail = [z] ∧ ∀ r : ROpts, r.width = 11 → (theReader r).IsEnd k.mat k.mf z) ∧
      ∃ s2, readSection { c with lines := body ++ snd } false p = .ok s2 ∧ s2.cur = s.cur := by
  obtain ⟨ls', h1, h2⟩ := lines_bothWritten ho hpn hpy has hrec hl ln
  obtain ⟨rfl, body, tail, rfl, b1, b2, b3, b4, -⟩ := section_written hs hpre (by omega) (by omega) hr hf hfit hl
  have hrecs := C39_partial c p k' s fuel k'.mf k'.mt w hs hr hf.wf hf.tidy hf.ctrl hf.ctrls hf.mat hf.unshadowed hf.unused hpy
  have hpl := writeSection_plain hf.plain (readSection_plain hpre hf.plain hr) hpy
  obtain ⟨a1, a2⟩ := readSection_ahead hf.foreseen hr
  unfold sectionLines at hl
  rw [hpy] at hl
  simp only [bind_ok, pure_ok] at hl
  obtain ⟨_, hw, lss, g1, _, _, g2⟩ := hl
  cases hw
  injection g2 with g2 _
  obtain ⟨body', tail', d1, d2, rfl⟩ := forall₂_append_left h2
  have hlines : ∀ l ∈ body', readCtrl 11 l = .ok k' ∧ strip l ≠ [] := by
    intro l hl
    obtain ⟨i, hi, rfl⟩ := List.getElem_of_mem hl
    have hi' : i < body.length := by rw [d1.length_eq]; exact hi
    have hla := List.forall₂_iff_get.1 d1 |>.2 i hi' hi
    refine ⟨?_, strip_of_notBlank hla.2.2.2.2⟩
    have := ctrl_sameLine hla
    simp only [List.get_eq_getElem] at this
    rw [this]
    have := (b2 _ (List.getElem_mem hi')).2.1
    rwa [ho] at this
  have hne : body' ≠ [] := by
    rintro rfl
    cases d1
    exact b1 rfl
  refine ⟨body', tail', h1, hne, hlines, ?_, ?_, ?_⟩
  · intro hz
    obtain ⟨⟨l, rfl⟩, rfl⟩ := b3 hz
    cases d2
    cases d1 with
    | cons _ hn => cases hn; exact ⟨⟨_, rfl⟩, rfl⟩
  · intro hz
    have hfr := hf.framed
    unfold Framed at hfr
    rw [if_neg hz] at hfr
    obtain ⟨bs, e, hrr, hbne, hbs, hek⟩ := hfr
    rw [hrr] at hrecs
    obtain ⟨us, vs, r1, r2, r3⟩ := forall₂_append_left hrecs
    cases r2 with
    | @cons _ e' _ _ hee hn =>
    cases hn
    rw [r3] at has
    obtain ⟨bd, z, e1, e2⟩ := recLines_frame (by rw [← hee.kind]; exact hek) has h1
    obtain ⟨snd', rfl, _⟩ := b4 hz
    cases d2 with
    | cons hz' hn =>
    cases hn
    obtain ⟨e0, e3⟩ := List.append_inj' e1 rfl
    subst e0
    have e3 := (List.cons.inj e3).1
    subst e3
    refine ⟨_, rfl, fun r hr => ?_⟩
    have hec : e'.ctrl = { k' with mt := 0 } := by
      rw [← hee.ctrl, hf.ctrl e (by rw [hrr]; simp), if_pos hek]
    rw [hec] at e2
    obtain ⟨z', q1, _, _, q2⟩ := cppSend_end o false r hr (mat := k'.mat) (mf := k'.mf) ⟨hfit.1, hfit.2.1, by omega⟩
    dsimp only at e2
    rw [q1] at e2
    cases e2
    exact q2
  · have hself : List.Forall₂ LineAs (body ++ snd) (body' ++ snd) := by
      refine List.rel_append d1 ?_
      obtain ⟨l, hsd, hb, -⟩ := writtenEnd (e := o) (r := c.ro) (by omega) (by omega) false k'.mat k'.mf k'.mt hfit
        (writeSend o false k') ⟨k'.mat, k'.mf, 0⟩ (by simp)
      rw [hsnd] at hsd
      cases hsd
      refine .cons (lineAs_refl ?_) .nil
      unfold isBlankLine
      simpa [theReader] using hb
    have hfrom := a1.from
    have hfr := hf.framed
    unfold Framed at hfr
    have stay : ∀ m', Laid c.ro (body' ++ snd) 0 s.recs m' → ∃ s2, readSection { c with lines := body' ++ snd } false p = .ok s2 ∧ s2.cur = s.cur := by
      intro m' hm
      obtain ⟨s2, x1, x2, _⟩ := a2 _ _ hm
      exact ⟨s2, x1, x2⟩
    by_cases hz : k'.mf = 0
    · rw [if_pos hz] at hfr
      obtain ⟨r, hrr, hrk⟩ := hfr
      obtain ⟨_, rfl⟩ := b3 hz
      cases d2
      rw [List.append_nil] at g2 h1
      obtain ⟨m', hm⟩ := laid_both ho hpn hcw hpre hfrom hf.stays hrecs hpl (by rw [hrr]; simp) hrec has g1 h1 _ _ 0 hself
        (by rw [← g2]; exact stands_here _ _) (stands_here _ _)
      exact stay m' hm
    · rw [if_neg hz] at hfr
      obtain ⟨bs, e, hrr, hbne, hbs, hek⟩ := hfr
      obtain ⟨snd', rfl, q1⟩ := b4 hz
      rw [hsnd] at q1
      cases q1
      cases d2 with
      | cons hz' hn =>
      cases hn
      rw [hrr] at hrecs hfrom
      obtain ⟨us, vs, r1, r2, r3⟩ := forall₂_append_left hrecs
      cases r2 with
      | @cons _ e' _ _ hee hn =>
      cases hn
      rw [r3] at has hpl hrec g1
      obtain ⟨m', hm⟩ := laid_frame ho hpn hcw hpre hfrom (by rw [← hrr]; exact hf.stays) r1 hee hek hpl hbs hrec has g1 h1 _ _ 0 hself
        (by rw [← g2]; exact stands_self _) (stands_here _ _)
      rw [← hrr] at hm
      exact stay m' hm

end Verif
