import Verif.Props.Reparse
import Verif.Props.Parse
import Verif.Props.Write
/-
C89: a whole file that is parsed, written and parsed again.
-/
namespace Verif
open Spec

/-- endf_parser.py:990-1146: `write` of the parser object with these options and recipes.  Simplified: without
`check_arrays` (for which see C41) and without the explanations of missing variables (C61). -/
def PCtx.writer (x : PCtx) (zab : Bool) : WriteEnv DDic :=
  { o := x.wo, r := x.split.fields, zab := zab
    render := fun mf mt d => (responsible x.trees mf mt).map fun p => sectionLines x.fuel x.wo zab mf mt p d }

/-- the same section: equal dictionaries, or the same lines in the columns up to MT -/
inductive SameSec (w : Nat) : Option (SecVal DDic) → Option (SecVal DDic) → Prop where
  | none : SameSec w none none
  | data (d : DDic) : SameSec w (some (.data d)) (some (.data d))
  | verb {ls ls' : List Str} (h : cols w ls = cols w ls') : SameSec w (some (.verb ls)) (some (.verb ls'))

/-- the tape head is a TEXT record; any other section has records and ends with the SEND record -/
def Framed (mf : Int) (recs : List ARec) : Prop :=
  if mf = 0 then ∃ r, recs = [r] ∧ r.kind = .text
  else ∃ bs e, recs = bs ++ [e] ∧ bs ≠ [] ∧ (∀ b ∈ bs, b.kind ≠ .send) ∧ e.kind = .send

/-- what `C88_partial` demands of a section that has been read -/
structure Faithful (c : RCtx) (o : WOpts) (p : Prog) (k : Ctrl) (s : RSt) : Prop where
  wf : WF p
  plain : p.plain = true
  tidy : Tidy c p { cur := initWork [] }
  foreseen : Foreseen c s.recs p { cur := initWork [] }
  ctrl : ∀ r ∈ s.recs, r.ctrl = if r.kind = .send then { k with mt := 0 } else k
  ctrls : CtrlAll k s.cur
  mat : dHas (.var "MAT") s.cur = true
  unshadowed : Unshadowed (looked p) s.cur
  unused : Unused (abbrs p) s.cur
  stays : ∀ q ∈ s.recs, Stays o c.ro q
  framed : Framed k.mf s.recs

theorem renderRec_zab {o : WOpts} {zab : Bool} {r : ARec} (hk : r.kind ≠ .send) : renderRec o zab r = renderRec o false r := by
  obtain ⟨k, fl, tb, c⟩ := r
  unfold renderRec
  split <;> first | rfl | exact absurd (by assumption) hk | simp_all

theorem renderRec_text {o : WOpts} {zab : Bool} {r : ARec} {ls : List Str} (hk : r.kind = .text) (h : renderRec o zab r = .ok ls) :
    ∃ l, ls = [l] := by
  obtain ⟨k, fl, tb, c⟩ := r
  dsimp only at hk
  subst hk
  unfold renderRec at h
  split at h <;> first | (exfalso; simp_all; done) | (cases h; exact ⟨_, rfl⟩)

theorem mapM_append_ok {α β : Type} {f : α → Res β} {a b : List α} {ys : List β} :
    (a ++ b).mapM f = .ok ys ↔ ∃ u, a.mapM f = .ok u ∧ ∃ v, b.mapM f = .ok v ∧ ys = u ++ v := by
  rw [List.mapM_append]
  simp only [bind_ok, pure_ok]
  constructor <;> rintro ⟨u, h1, v, h2, e⟩ <;> exact ⟨u, h1, v, h2, e.symm⟩

/-- the lines of records other than SEND -/
theorem lines_written {o : WOpts} {ro : ROpts} {zab : Bool} (hw : 11 ≤ o.width) (hr : ro.width = o.width) {k : Ctrl}
    {qs qs' : List ARec} (hq : ∀ q ∈ qs, ∃ lines m m', readKind ro lines m q.kind = .ok (q, m')) (hk : ∀ q ∈ qs, Stays o ro q)
    (hs : List.Forall₂ SameRec qs qs') (hp : ∀ q ∈ qs', PlainRec q) (he : ∀ q ∈ qs, q.kind ≠ .send) (hc : ∀ q ∈ qs, q.ctrl = k)
    {lss : List (List Str)} (h : qs'.mapM (renderRec o zab) = .ok lss) :
    qs'.mapM (renderRec o false) = .ok lss ∧ (qs ≠ [] → lss.flatten ≠ []) ∧
      ∀ l ∈ lss.flatten, l.length = 6 * o.width + 9 ∧ ∃ a, l = a ++ writeCtrl k := by
  induction hs generalizing lss with
  | nil =>
    cases h
    exact ⟨rfl, fun h => absurd rfl h, by simp⟩
  | @cons q q' qs qs' hqq hs ih =>
    simp only [List.mapM_cons, bind_ok, pure_ok] at h
    obtain ⟨ls, h1, lss', h2, rfl⟩ := h
    have hne : q.kind ≠ .send := he q (by simp)
    have hne' : q'.kind ≠ .send := by rw [← hqq.kind]; exact hne
    obtain ⟨_, n, n', hq1⟩ := hq q (by simp)
    obtain ⟨⟨-, g1⟩, -⟩ := readKind_written hw hr hq1 (hk q (by simp)) hqq (hp q' (by simp)) h1
    obtain ⟨g2, g3⟩ := renderRec_ends hne' h1
    obtain ⟨i1, -, i3⟩ := ih (fun q hq' => hq q (List.mem_cons_of_mem _ hq')) (fun q hq' => hk q (List.mem_cons_of_mem _ hq'))
      (fun q hq' => hp q (List.mem_cons_of_mem _ hq')) (fun q hq' => he q (List.mem_cons_of_mem _ hq'))
      (fun q hq' => hc q (List.mem_cons_of_mem _ hq')) h2
    refine ⟨?_, ?_, ?_⟩
    · simp only [List.mapM_cons, bind_ok, pure_ok]
      exact ⟨ls, by rw [← renderRec_zab hne']; exact h1, lss', i1, rfl⟩
    · intro _
      rw [List.flatten_cons]
      simp [g2]
    · intro l hl
      rw [List.flatten_cons, List.mem_append] at hl
      rcases hl with hl | hl
      · refine ⟨g1 hne l hl, ?_⟩
        obtain ⟨a, rfl⟩ := g3 l hl
        exact ⟨a, by rw [← hqq.ctrl, hc q (by simp)]⟩
      · exact i3 l hl

theorem writeSend_zero {o : WOpts} {zab : Bool} (k : Ctrl) : writeSend o zab { k with mt := 0 } = writeSend o zab k := rfl

theorem stands_cols {w : Nat} {ls body : List Str} (h : cols w ls = body) (tail : List Str) : StandsAt (ls ++ tail) 0 (body ++ tail) := by
  subst h
  unfold cols
  intro i s hs
  rw [Nat.zero_add]
  by_cases hi : i < ls.length
  · rw [List.getElem?_append_left (by simpa using hi), List.getElem?_map, List.getElem?_eq_getElem hi] at hs
    cases hs
    exact ⟨ls[i], by rw [List.getElem?_append_left hi, List.getElem?_eq_getElem hi], List.take_prefix _ _⟩
  · rw [List.getElem?_append_right (by simpa using hi), List.length_map] at hs
    exact ⟨s, by rw [List.getElem?_append_right (by omega)]; exact hs, List.prefix_rfl⟩

/-- the lines written for a section and what is read from them -/
theorem section_written {c : RCtx} {o : WOpts} {p : Prog} {k : Ctrl} {s : RSt} {fuel : Nat} {zab : Bool} {ls : List Str} {k' : Ctrl}
    (hs : Strict c.po) (hpre : c.ro.preserve = false) (hw : 11 ≤ o.width) (hcw : c.ro.width = o.width)
    (hr : readSection c false p = .ok s) (hf : Faithful c o p k s) (hfit : FitsCtrl k.mat k.mf k.mt)
    (hl : sectionLines fuel o zab k.mf k.mt p s.cur = .ok (ls, k')) :
    k' = k ∧ ∃ body tail, ls = body ++ tail ∧ body ≠ [] ∧
      (∀ l ∈ body, l.length = 6 * o.width + 9 ∧ readCtrl o.width l = .ok k ∧ strip l ≠ []) ∧
      (k.mf = 0 → (∃ l, body = [l]) ∧ tail = []) ∧ (k.mf ≠ 0 → ∃ send, tail = [send] ∧ writeSend o zab k = .ok [send]) ∧
      ∀ ls2 snd, cols o.width ls2 = body → writeSend o false k = .ok snd →
        ∃ s2, readSection { c with lines := ls2 ++ snd } false p = .ok s2 ∧ s2.cur = s.cur := by
  have hl' := hl
  unfold sectionLines at hl'
  simp only [bind_ok, pure_ok] at hl'
  obtain ⟨w, h1, lss, h2, k2, h3, h4⟩ := hl'
  injection h4 with e1 e2
  subst e1
  subst e2
  have hk' : k2 = k := by
    have hcl := C37_read c false p s hr
    have hcur := C72_unchanged _ _ _ _ _ hcl _ h1
    obtain ⟨m1, m2, m3⟩ := hf.ctrls [] s.cur .top hf.mat
    have hMF : dHas (.var "MF") s.cur = true := dHas_some.2 ⟨_, m2⟩
    have hMT : dHas (.var "MT") s.cur = true := dHas_some.2 ⟨_, m3⟩
    simp only [hMF, hMT, if_true] at hcur
    have hsc : matScope w.cur w.outer = s.cur := by
      rw [hcur]
      cases w.outer with
      | nil => rfl
      | cons u us => rw [matScope]; simp [hf.mat]
    unfold getCtrl at h3
    simp only [hsc, ctrlNum, m1, m2, m3, bind, Except.bind, pure, Except.pure] at h3
    cases h3
    rfl
  refine ⟨hk', ?_⟩
  rw [hk'] at h3 hl
  clear hk'
  have hrec := C39_partial c p k s fuel k.mf k.mt w hs hr hf.wf hf.tidy hf.ctrl hf.ctrls hf.mat hf.unshadowed hf.unused h1
  have hpl := writeSection_plain hf.plain (readSection_plain hpre hf.plain hr) h1
  obtain ⟨a1, -⟩ := readSection_ahead hf.foreseen hr
  have hfrom := a1.from
  -- lines that end with the control numbers
  have hline : ∀ l : Str, l.length = 6 * o.width + 9 → (∃ a, l = a ++ writeCtrl k) →
      l.length = 6 * o.width + 9 ∧ readCtrl o.width l = .ok k ∧ strip l ≠ [] := by
    rintro l hlen ⟨a, rfl⟩
    have h9 := (writeCtrl_length_iff k).2 hfit
    rw [List.length_append, h9] at hlen
    refine ⟨by rw [List.length_append, h9, hlen], ?_, ?_⟩
    · simpa using readCtrl_writeCtrl o.width a (by omega) k hfit []
    · obtain ⟨x, hx1, hx2⟩ := writeCtrl_mem k
      exact strip_ne_of_mem (List.mem_append_right _ hx1) hx2
  have again : ∀ ls0, sectionLines fuel o false k.mf k.mt p s.cur = .ok (ls0, k) → (∀ q ∈ s.recs.dropLast, q.kind ≠ .send) →
      ∀ lines2, StandsAt lines2 0 ls0 → ∃ s2, readSection { c with lines := lines2 } false p = .ok s2 ∧ s2.cur = s.cur := by
    intro ls0 h0 he lines2 hst
    obtain ⟨s2, b1, b2, -⟩ := C88_partial c p k s fuel o false k.mf k.mt ls0 k hs hr hf.wf hf.tidy hf.ctrl hf.ctrls hf.mat
      hf.unshadowed hf.unused hf.foreseen hf.plain hpre hw hcw hf.stays he h0 lines2 hst
    exact ⟨s2, b1, b2⟩
  have mk : ∀ lss0, w.out.mapM (renderRec o false) = .ok lss0 → sectionLines fuel o false k.mf k.mt p s.cur = .ok (lss0.flatten, k) := by
    intro lss0 h0
    unfold sectionLines
    simp only [h1, h0, h3, bind, Except.bind, pure, Except.pure]
  have hfr := hf.framed
  unfold Framed at hfr
  by_cases hz : k.mf = 0
  · rw [if_pos hz] at hfr
    obtain ⟨r, hrr, hrk⟩ := hfr
    have hns : ∀ q ∈ s.recs, q.kind ≠ .send := by
      intro q hq
      rw [hrr, List.mem_singleton] at hq
      rw [hq, hrk]; simp
    obtain ⟨g1, g2, g3⟩ := lines_written hw hcw hfrom hf.stays hrec hpl hns
      (fun q hq => by have := hf.ctrl q hq; rwa [if_neg (hns q hq)] at this) h2
    have hone : ∃ l, lss.flatten = [l] := by
      rw [hrr] at hrec
      clear hpl g1 mk h1 h3
      generalize w.out = out at hrec h2
      cases hrec with
      | @cons _ q' _ qs' hqq hn =>
        cases hn
        simp only [List.mapM_cons, List.mapM_nil, bind_ok, pure_ok] at h2
        obtain ⟨ls1, h5, lss', rfl, rfl⟩ := h2
        obtain ⟨l, rfl⟩ := renderRec_text (by rw [← hqq.kind, hrk]) h5
        exact ⟨l, rfl⟩
    refine ⟨lss.flatten, [], by simp, g2 (by rw [hrr]; simp), fun l hl => hline l (g3 l hl).1 (g3 l hl).2, fun _ => ⟨hone, rfl⟩,
      fun h => absurd hz h, ?_⟩
    intro ls2 snd hc2 hsnd
    refine again _ (mk _ g1) (fun q hq => hns q (List.mem_of_mem_dropLast hq)) _ ?_
    exact (StandsAt.append (stands_cols hc2 snd)).1
  · rw [if_neg hz] at hfr
    obtain ⟨bs, e, hrr, hbne, hbs, hek⟩ := hfr
    rw [hrr] at hrec
    obtain ⟨us, vs, r1, r2, r3⟩ := forall₂_append_left hrec
    cases r2 with
    | @cons _ e' _ _ hee hn =>
      cases hn
      have hbr : ∀ q ∈ bs, q ∈ s.recs := fun q hq => by rw [hrr]; simp [hq]
      rw [r3, mapM_append_ok] at h2
      obtain ⟨lsb, h5, lse, h6, rfl⟩ := h2
      obtain ⟨g1, g2, g3⟩ := lines_written hw hcw (fun q hq => hfrom q (hbr q hq)) (fun q hq => hf.stays q (hbr q hq)) r1
        (fun q hq => hpl q (by rw [r3]; simp [hq])) hbs
        (fun q hq => by have := hf.ctrl q (hbr q hq); rwa [if_neg (hbs q hq)] at this) h5
      simp only [List.mapM_cons, List.mapM_nil, bind_ok, pure_ok] at h6
      obtain ⟨ls1, h7, lss', rfl, rfl⟩ := h6
      have hek' : e'.kind = .send := by rw [← hee.kind, hek]
      have hec : e'.ctrl = { k with mt := 0 } := by
        rw [← hee.ctrl, hf.ctrl e (by rw [hrr]; simp), if_pos hek]
      have hren : ∀ z, renderRec o z e' = writeSend o z k := by
        intro z
        unfold renderRec
        rw [hek', hec]
        exact writeSend_zero k
      rw [hren] at h7
      obtain ⟨send, hs1, -⟩ := writtenEnd hcw (by omega) zab k.mat k.mf k.mt hfit (writeSend o zab k) ⟨k.mat, k.mf, 0⟩ (by simp)
      rw [hs1] at h7
      cases h7
      refine ⟨lsb.flatten, [send], by simp, g2 hbne, fun l hl => hline l (g3 l hl).1 (g3 l hl).2, fun h => absurd h hz,
        fun _ => ⟨send, rfl, hs1⟩, ?_⟩
      intro ls2 snd hc2 hsnd
      have hall : w.out.mapM (renderRec o false) = .ok (lsb ++ [snd]) := by
        rw [r3, mapM_append_ok]
        refine ⟨lsb, g1, [snd], ?_, rfl⟩
        simp only [List.mapM_cons, List.mapM_nil, bind_ok, pure_ok]
        exact ⟨snd, by rw [hren, hsnd], [], rfl, rfl⟩
      refine again _ (mk _ hall) ?_ _ ?_
      · intro q hq
        rw [hrr, List.dropLast_concat] at hq
        exact hbs q hq
      · rw [List.flatten_append]
        simpa using stands_cols hc2 snd

/-! ### the sections of a file -/

/-- dictionaries with the same keys in the same order, and related values -/
def Along {α β : Type} (R : Int → α → β → Prop) (d : Dict Int α) (r : Dict Int β) : Prop :=
  List.Forall₂ (fun p q => p.1 = q.1 ∧ R p.1 p.2 q.2) d r

theorem Along.keys {α β : Type} {R : Int → α → β → Prop} {d : Dict Int α} {r : Dict Int β} (h : Along R d r) : dKeys r = dKeys d := by
  unfold Along at h
  unfold dKeys
  induction h with
  | nil => rfl
  | cons h _ ih => rw [List.map_cons, List.map_cons, ih, h.1]

theorem Along.get {α β : Type} {R : Int → α → β → Prop} {d : Dict Int α} {r : Dict Int β} (h : Along R d r) (k : Int) :
    (dGet k d = none ∧ dGet k r = none) ∨ ∃ a b, dGet k d = some a ∧ dGet k r = some b ∧ R k a b := by
  unfold Along at h
  induction h with
  | nil => exact .inl ⟨rfl, rfl⟩
  | @cons p q d r h _ ih =>
    obtain ⟨k1, a⟩ := p
    obtain ⟨k2, b⟩ := q
    obtain ⟨e, h⟩ := h
    dsimp only at e h
    subst e
    by_cases hk : k1 = k
    · subst hk
      exact .inr ⟨a, b, by simp [dGet], by simp [dGet], h⟩
    · simp only [dGet, if_neg hk]
      exact ih

theorem parseMts_along {x : PCtx} {a : PArgs} (ha : a.nofail = false) {mf : Int} {d : Dict Int (List Str)} {o o' : PObj}
    {r : Dict Int (SecVal DDic)} (h : parseMts x a mf o d = (o', .ok r)) :
    Along (fun mt ls v => parseSec x a o mf mt ls = (o, .ok v)) d r := by
  induction d generalizing r with
  | nil => cases h; exact .nil
  | cons q d ih =>
    obtain ⟨mt, ls⟩ := q
    rw [parseMts] at h
    split at h
    · cases h
    · rename_i o1 v h1
      have e := parseSec_keep_ok ha h1
      subst e
      split at h
      · cases h
      · rename_i o2 d2 h2
        cases h
        exact .cons ⟨rfl, h1⟩ (ih h2)

theorem parseMfs_along {x : PCtx} {a : PArgs} (ha : a.nofail = false) {d : MfDic} {o o' : PObj}
    {r : Dict Int (Dict Int (SecVal DDic))} (h : parseMfs x a o d = (o', .ok r)) :
    Along (fun mf m q => Along (fun mt ls v => parseSec x a o mf mt ls = (o, .ok v)) m q) d r := by
  induction d generalizing r with
  | nil => cases h; exact .nil
  | cons q d ih =>
    obtain ⟨mf, m⟩ := q
    rw [parseMfs] at h
    split at h
    · cases h
    · rename_i o1 v h1
      have e := parseMts_keep_ok ha h1
      subst e
      split at h
      · cases h
      · rename_i o2 d2 h2
        cases h
        exact .cons ⟨rfl, parseMts_along ha h1⟩ (ih h2)

theorem parseMts_run {x : PCtx} {a : PArgs} {mf : Int} {o : PObj} {d : Dict Int (List Str)}
    (h : ∀ q ∈ d, ∃ v, parseSec x a o mf q.1 q.2 = (o, .ok v)) : ∃ r, parseMts x a mf o d = (o, .ok r) := by
  induction d with
  | nil => exact ⟨[], rfl⟩
  | cons q d ih =>
    obtain ⟨mt, ls⟩ := q
    obtain ⟨v, h1⟩ := h (mt, ls) (by simp)
    obtain ⟨r, h2⟩ := ih (fun q hq => h q (List.mem_cons_of_mem _ hq))
    dsimp only at h1
    exact ⟨(mt, v) :: r, by rw [parseMts, h1]; dsimp only; rw [h2]⟩

theorem parseMfs_run {x : PCtx} {a : PArgs} {o : PObj} {d : MfDic}
    (h : ∀ q ∈ d, ∀ s ∈ q.2, ∃ v, parseSec x a o q.1 s.1 s.2 = (o, .ok v)) : ∃ r, parseMfs x a o d = (o, .ok r) := by
  induction d with
  | nil => exact ⟨[], rfl⟩
  | cons q d ih =>
    obtain ⟨mf, m⟩ := q
    obtain ⟨v, h1⟩ := parseMts_run (h (mf, m) (by simp))
    obtain ⟨r, h2⟩ := ih (fun q hq => h q (List.mem_cons_of_mem _ hq))
    dsimp only at h1
    exact ⟨(mf, v) :: r, by rw [parseMfs, h1]; dsimp only; rw [h2]⟩

/-- what the parser makes of a section -/
def Made (x : PCtx) (a : PArgs) (ia : Bool) (mf mt : Int) (ls : List Str) (k : Ctrl) : SecVal DDic → Prop
  | .verb ls' => ls' = ls ∧ (responsible x.trees mf mt = none ∨ shouldSkip mf mt a.excl a.incl = true)
  | .data d => ∃ p snd s, responsible x.trees mf mt = some p ∧ shouldSkip mf mt a.excl a.incl = false ∧
      writeSend x.wo false k = .ok snd ∧ readSection ⟨ls ++ snd, x.split.fields, x.po, x.fuel⟩ ia p = .ok s ∧ d = s.cur

theorem parseSec_made {x : PCtx} {a : PArgs} (ha : a.nofail = false) {o o' : PObj} {mf mt : Int} {ls : List Str} {v : SecVal DDic}
    (h : parseSec x a o mf mt ls = (o', .ok v)) :
    ∃ k, (lineAt ls 0 >>= readCtrl x.split.fields.width) = .ok k ∧ Made x a o.ignoreAll mf mt ls k v := by
  unfold parseSec at h
  split at h
  · cases h
  rename_i k hk
  refine ⟨k, hk, ?_⟩
  split at h
  · rename_i hp
    cases h
    exact ⟨rfl, .inl hp⟩
  rename_i p hp
  split at h
  · rename_i hsk
    cases h
    exact ⟨rfl, .inr hsk⟩
  rename_i hsk
  split at h
  · cases h
  rename_i snd hsnd
  dsimp only at h
  split at h
  · rename_i s hs
    cases h
    exact ⟨p, snd, s, hp, by simpa using hsk, hsnd, hs, rfl⟩
  · rw [ha, Bool.and_false] at h
    cases h

theorem made_parseSec {x : PCtx} {a : PArgs} {o : PObj} {mf mt : Int} {ls : List Str} {v : SecVal DDic} {k : Ctrl}
    (hk : (lineAt ls 0 >>= readCtrl x.split.fields.width) = .ok k) (h : Made x a o.ignoreAll mf mt ls k v) :
    ∃ o', parseSec x a o mf mt ls = (o', .ok v) := by
  unfold parseSec
  rw [hk]
  dsimp only
  cases v with
  | verb ls' =>
    obtain ⟨rfl, h⟩ := h
    cases hp : responsible x.trees mf mt with
    | none => exact ⟨o, rfl⟩
    | some p =>
      rw [hp] at h
      rcases h with h | h
      · cases h
      · exact ⟨o, by dsimp only; rw [if_pos h]⟩
  | data d =>
    obtain ⟨p, snd, s, hp, hsk, hsnd, hs, rfl⟩ := h
    exact ⟨⟨s.ignoreAll⟩, by rw [hp]; dsimp only; rw [hsk, hsnd]; simp only [Bool.false_eq_true, if_false, hs]⟩

/-- if a file can be written, every section can -/
theorem writeMts_each {α : Type} {e : WriteEnv α} {mf : Int} {l : List (Int × SecVal α)} {c : Option Ctrl} {y : List Str × Option Ctrl}
    (h : writeMts e mf l c = .ok y) : ∀ p ∈ l, shouldSkip mf p.1 e.excl e.incl = false → ∃ z, writeSec e mf p.1 p.2 = .ok z := by
  induction l generalizing c y with
  | nil => simp
  | cons q l ih =>
    obtain ⟨mt, v⟩ := q
    rw [writeMts] at h
    intro p hp hsk
    split at h
    · rename_i hs
      rcases List.mem_cons.1 hp with rfl | hp
      · rw [hs] at hsk; cases hsk
      · exact ih h p hp hsk
    · simp only [bind_ok] at h
      obtain ⟨z, h1, z2, h2, h3⟩ := h
      rcases List.mem_cons.1 hp with rfl | hp
      · exact ⟨z, h1⟩
      · exact ih h2 p hp hsk

theorem writeMfs_each {α : Type} {e : WriteEnv α} {l : List (Int × Dict Int (SecVal α))} {y : List Str}
    (h : writeMfs e l = .ok y) : ∀ q ∈ l, ∀ p ∈ q.2, shouldSkip q.1 p.1 e.excl e.incl = false → ∃ z, writeSec e q.1 p.1 p.2 = .ok z := by
  induction l generalizing y with
  | nil => simp
  | cons q l ih =>
    obtain ⟨mf, m⟩ := q
    rw [writeMfs] at h
    simp only [bind_ok] at h
    obtain ⟨z, h1, h⟩ := h
    have h2 : ∃ y', writeMfs e l = .ok y' := by
      split at h
      · split at h
        · simp only [bind_ok] at h
          obtain ⟨_, _, y', h2, _⟩ := h
          exact ⟨y', h2⟩
        · simp only [bind_ok] at h
          obtain ⟨_, _, y', h2, _⟩ := h
          exact ⟨y', h2⟩
      · simp only [bind_ok] at h
        obtain ⟨_, _, y', h2, _⟩ := h
        exact ⟨y', h2⟩
    obtain ⟨y', h2⟩ := h2
    intro q hq p hp hsk
    rcases List.mem_cons.1 hq with rfl | hq
    · exact writeMts_each h1 p ((dSort_perm _).mem_iff.2 hp) hsk
    · exact ih h2 q hq p hp hsk

theorem writeTape_each {α : Type} {e : WriteEnv α} {dic : Dict Int (Dict Int (SecVal α))} {out : List Str}
    (h : writeTape e dic = .ok out) {mf mt : Int} {v : SecVal α} (hv : valOf dic mf mt = some v)
    (hsk : shouldSkip mf mt e.excl e.incl = false) : ∃ z, writeSec e mf mt v = .ok z := by
  unfold writeTape at h
  simp only [bind_ok] at h
  obtain ⟨body, h1, _⟩ := h
  unfold valOf at hv
  cases hm : dGet mf dic with
  | none => rw [hm] at hv; cases hv
  | some m =>
    rw [hm] at hv
    exact writeMfs_each h1 (mf, m) ((dSort_perm _).mem_iff.2 (dGet_mem hm)) (mt, v) (dGet_mem hv) hsk

/-- the sections of a file of one material -/
theorem split_data {r : ROpts} {lines : List Str} {d : MfDic} (h : splitSections { fields := r } lines = .ok d) {mat : Int}
    (hmat : ∀ l ∈ lines, ∀ a b c, (theReader r).IsData a b c l → a = mat ∧ 0 < b) {mf mt : Int} {ls : List Str} (hmf : mf ≠ 0)
    (hs : secOf d mf mt = some ls) : mt ≠ 0 ∧ 0 < mf ∧ ls ≠ [] ∧ ∀ l ∈ ls, (theReader r).IsData mat mf mt l := by
  have hmt : mt ≠ 0 := by
    intro hz
    rcases C22_head _ _ _ h mf mt (Or.inr hz) with hn | ⟨hz', _⟩
    · rw [hs] at hn; cases hn
    · exact hmf hz'
  rw [C22_sections _ _ _ h mf mt hmf hmt] at hs
  unfold entry at hs
  split at hs
  · cases hs
  · rename_i hne
    have hs' := Option.some.inj hs
    rw [hs'] at hne
    have key : ∀ l ∈ ls, (theReader r).IsData mat mf mt l ∧ 0 < mf := by
      intro l hl
      rw [← hs'] at hl
      obtain ⟨h1, h2⟩ := List.mem_filter.1 hl
      obtain ⟨a, ha⟩ := (carries_iff r mf mt l).1 h2
      obtain ⟨e1, e2⟩ := hmat l h1 a mf mt ha
      subst e1
      exact ⟨ha, e2⟩
    obtain ⟨l, ls', hll⟩ := List.exists_cons_of_ne_nil hne
    exact ⟨hmt, (key l (by rw [hll]; simp)).2, hne, fun l hl => (key l hl).1⟩

/-- the tape head -/
theorem split_head {r : ROpts} {lines : List Str} {d : MfDic} (h : splitSections { fields := r } lines = .ok d) :
    ∃ l m0, dGet 0 d = some [(0, [l])] ∧ strip l ≠ [] ∧ readCtrl r.width l = .ok ⟨m0, 0, 0⟩ := by
  obtain ⟨t, ht, ⟨hb, m0, hc⟩, ht1, _, _⟩ := (C21_structure r lines).1 ⟨d, h⟩
  have hlines : lines = t.tpid :: lines.tail := by rw [← ht]; rfl
  refine ⟨t.tpid, m0, ?_, hb, theReader_ctrl.1 hc⟩
  obtain ⟨pre, y, rest', c', st, e1, e2, e3, e4, e5, e6, e7⟩ := splitSections_ok h
  have hpre : pre = [] := by
    cases pre with
    | nil => rfl
    | cons z zs =>
      rw [hlines] at e1
      simp only [List.cons_append, List.cons.injEq] at e1
      exact absurd (e2 z (by simp)) (by rw [← e1.1]; exact hb)
  subst hpre
  rcases e7 with ⟨_, h2, _⟩ | ⟨_, _, e8⟩
  · cases h2
  · have hh : lines.headD [] = t.tpid := by rw [hlines]; rfl
    rw [← e5]
    have key : ∀ (ls : List Str) (s s' : SplitState), splitLoop { fields := r } s ls = .ok s' → dGet 0 s'.dic = dGet 0 s.dic := by
      intro ls
      induction ls with
      | nil => intro s s' hs; rw [splitLoop] at hs; cases hs; rfl
      | cons x xs ih =>
        intro s s' hs
        obtain ⟨s1, h1, h2⟩ := (splitLoop_cons _ _ _ _ _).1 hs
        rw [ih s1 s' h2]
        rcases splitStep_dic h1 with ⟨c, _, _, _, a2, _, e⟩ | ⟨_, e⟩
        · rw [e]; unfold addLine; dsimp only; rw [dGet_dSet_ne a2]
        · rw [e]
    rw [key _ _ _ e8, hh]
    simp [addLine, dSet, dGet]

theorem split_nonempty {r : ROpts} {lines : List Str} {d : MfDic} (h : splitSections { fields := r } lines = .ok d) (mf : Int) :
    dGet mf d ≠ some [] := by
  obtain ⟨pre, l, rest, c, st, _, _, _, _, rfl, _, hcase⟩ := splitSections_ok h
  rcases hcase with ⟨_, h2, hs⟩ | ⟨_, _, hs⟩
  · cases h2
  · refine splitLoop_nonempty _ _ _ hs ?_ mf
    intro mf'
    simp [addLine, dSet, dGet]

theorem parse_val {x : PCtx} {a : PArgs} (ha : a.nofail = false) {d : MfDic} {o o' : PObj}
    {r : Dict Int (Dict Int (SecVal DDic))} (h : parseMfs x a o d = (o', .ok r)) (mf mt : Int) :
    (secOf d mf mt = none ∧ valOf r mf mt = none) ∨
      ∃ ls v, secOf d mf mt = some ls ∧ valOf r mf mt = some v ∧ parseSec x a o mf mt ls = (o, .ok v) := by
  unfold secOf valOf
  rcases (parseMfs_along ha h).get mf with ⟨h1, h2⟩ | ⟨m, q, h1, h2, h3⟩
  · rw [h1, h2]
    exact .inl ⟨rfl, rfl⟩
  · rw [h1, h2]
    rcases h3.get mt with ⟨g1, g2⟩ | ⟨ls, v, g1, g2, g3⟩
    · exact .inl ⟨g1, g2⟩
    · exact .inr ⟨ls, v, g1, g2, g3⟩

theorem ctrl_cols {w : Nat} {ls1 ls2 : List Str} (h : cols w ls2 = cols w ls1) (hne : ls1 ≠ []) {k : Ctrl}
    (hl : ∀ l ∈ ls1, 6 * w + 9 ≤ l.length ∧ readCtrl w l = .ok k) : (lineAt ls2 0 >>= readCtrl w) = .ok k := by
  obtain ⟨l1, t1, rfl⟩ := List.exists_cons_of_ne_nil hne
  obtain ⟨g1, g2⟩ := hl l1 (by simp)
  cases ls2 with
  | nil => simp [cols] at h
  | cons l2 t2 =>
    simp only [cols, List.map_cons, List.cons.injEq] at h
    show readCtrl w l2 = .ok k
    rw [← g2, ← readCtrl_take w l1 (l2.drop (6 * w + 9)) g1, ← h.1, List.take_append_drop]

theorem cols_full {w : Nat} {ls : List Str} (h : ∀ l ∈ ls, l.length = 6 * w + 9) : cols w ls = ls := by
  unfold cols
  conv_rhs => rw [← List.map_id ls]
  apply List.map_congr_left
  intro l hl
  exact List.take_of_length_le (le_of_eq (h l hl))

/-- a parsed section that is written and parsed again -/
theorem again_data {x : PCtx} {zab : Bool} {a : PArgs} (hw : 11 ≤ x.wo.width) (hcw : x.split.fields.width = x.wo.width)
    (hpre : x.split.fields.preserve = false) (hst : Strict x.po) {k : Ctrl} (hfit : FitsCtrl k.mat k.mf k.mt) {ls : List Str} {d : DDic}
    (hm : Made x a false k.mf k.mt ls k (.data d))
    (hf : ∀ p snd s, responsible x.trees k.mf k.mt = some p → writeSend x.wo false k = .ok snd →
      readSection ⟨ls ++ snd, x.split.fields, x.po, x.fuel⟩ false p = .ok s → Faithful ⟨ls ++ snd, x.split.fields, x.po, x.fuel⟩ x.wo p k s)
    {y : List Str × Ctrl} (hy : (x.writer zab).render k.mf k.mt d = some (.ok y)) :
    ∃ body, secText (x.writer zab) k.mf k.mt (.data d) = body ∧ body ≠ [] ∧
      (∀ l ∈ body, l.length = 6 * x.wo.width + 9 ∧ readCtrl x.wo.width l = .ok k ∧ strip l ≠ []) ∧
      (k.mf ≠ 0 → ∃ send, (x.writer zab).render k.mf k.mt d = some (.ok (body ++ [send], k)) ∧ writeSend x.wo zab k = .ok [send]) ∧
      (k.mf = 0 → ∃ l, body = [l] ∧ (x.writer zab).render k.mf k.mt d = some (.ok ([l], k))) ∧
      ∀ ls2 a2, a2.excl = a.excl → a2.incl = a.incl → cols x.wo.width ls2 = body → Made x a2 false k.mf k.mt ls2 k (.data d) := by
  obtain ⟨p, snd, s, hp, hsk, hsnd, hrd, rfl⟩ := hm
  have hfa := hf p snd s hp hsnd hrd
  have hren : (x.writer zab).render k.mf k.mt s.cur = some (sectionLines x.fuel x.wo zab k.mf k.mt p s.cur) := by
    unfold PCtx.writer
    dsimp only
    rw [hp]
    rfl
  obtain ⟨ls0, k0⟩ := y
  have hsl : sectionLines x.fuel x.wo zab k.mf k.mt p s.cur = .ok (ls0, k0) := by
    rw [hren] at hy
    exact Option.some.inj hy
  obtain ⟨rfl, body, tail, rfl, b1, b2, b3, b4, b5⟩ := section_written (c := ⟨ls ++ snd, x.split.fields, x.po, x.fuel⟩) hst hpre hw hcw hrd hfa hfit hsl
  rw [hsl] at hren
  refine ⟨body, ?_, b1, b2, ?_, ?_, ?_⟩
  · unfold secText
    dsimp only
    rw [hren]
    dsimp only
    by_cases hz : k0.mf = 0
    · rw [if_neg (by simpa using hz), (b3 hz).2, List.append_nil]
    · obtain ⟨send, e, _⟩ := b4 hz
      rw [if_pos hz, e, List.dropLast_concat]
  · intro hz
    obtain ⟨send, rfl, e⟩ := b4 hz
    exact ⟨send, hren, e⟩
  · intro hz
    obtain ⟨⟨l, rfl⟩, rfl⟩ := b3 hz
    exact ⟨l, rfl, by rw [hren, List.append_nil]⟩
  · intro ls2 a2 e1 e2 hc
    obtain ⟨s2, g1, g2⟩ := b5 ls2 snd hc hsnd
    exact ⟨p, snd, s2, hp, by rw [e1, e2]; exact hsk, hsnd, g1, g2.symm⟩

/-- a file whose parsed sections can be written -/
theorem cycle_each (x : PCtx) (zab : Bool) (a : PArgs) (ha : a.nofail = false) (hsp : x.split = { fields := x.split.fields })
    (hw : 11 ≤ x.wo.width) (hcw : x.split.fields.width = x.wo.width) (hpre : x.split.fields.preserve = false)
    (hst : Strict x.po) (hig : x.po.ignoreAll = false)
    (d : MfDic) (hd : splitSections x.split a.lines = .ok d)
    (o' : PObj) (res : Dict Int (Dict Int (SecVal DDic))) (h : parse x x.fresh a = (o', .ok res)) (mat : Int)
    (hmat : ∀ l ∈ a.lines, ∀ m f t, (theReader x.split.fields).IsData m f t l → m = mat ∧ 0 < f)
    (hsome : ∃ l ∈ a.lines, ∃ m f t, (theReader x.split.fields).IsData m f t l)
    (hverb : ∀ mf mt ls, valOf res mf mt = some (.verb ls) → ∀ l ∈ ls, 6 * x.wo.width + 9 ≤ l.length)
    (hhead : ∀ l, valOf res 0 0 = some (.verb [l]) → strip (l.take (6 * x.wo.width + 9)) ≠ [])
    (hsec : ∀ mf mt ls k p snd s, secOf d mf mt = some ls → (lineAt ls 0 >>= readCtrl x.wo.width) = .ok k →
      responsible x.trees mf mt = some p → shouldSkip mf mt a.excl a.incl = false → writeSend x.wo false k = .ok snd →
      readSection ⟨ls ++ snd, x.split.fields, x.po, x.fuel⟩ false p = .ok s →
      Faithful ⟨ls ++ snd, x.split.fields, x.po, x.fuel⟩ x.wo p k s)
    (heach : ∀ mf mt dd, valOf res mf mt = some (.data dd) → ∃ y, (x.writer zab).render mf mt dd = some (.ok y)) :
    ∃ out, writeTape (x.writer zab) res = .ok out ∧ ∃ res2, parse x x.fresh { a with lines := out } = (x.fresh, .ok res2) ∧
      ∀ mf mt, SameSec x.wo.width (valOf res mf mt) (valOf res2 mf mt) := by
  have hd' : splitSections { fields := x.split.fields } a.lines = .ok d := by rw [← hsp]; exact hd
  have hnd := splitSections_nodup hd
  have hia : x.fresh.ignoreAll = false := hig
  have hw9 : 9 ≤ x.wo.width := by omega
  unfold parse at h
  rw [hd] at h
  dsimp only at h
  have hval := parse_val ha h
  have hskip : ∀ mf mt, shouldSkip mf mt (x.writer zab).excl (x.writer zab).incl = false := fun _ _ => rfl
  -- the sections of the material
  have hdata : ∀ mf mt v, mf ≠ 0 → valOf res mf mt = some v →
      FitsCtrl mat mf mt ∧ SecOk (x.writer zab) mat mf mt v ∧ 0 < mf ∧
      ∀ ls2 a2, a2.excl = a.excl → a2.incl = a.incl → cols x.wo.width ls2 = cols x.wo.width (secText (x.writer zab) mf mt v) →
        ∃ k v2, (lineAt ls2 0 >>= readCtrl x.split.fields.width) = .ok k ∧ Made x a2 false mf mt ls2 k v2 ∧
          SameSec x.wo.width (some v) (some v2) := by
    intro mf mt v hmf hv
    rcases hval mf mt with ⟨_, h2⟩ | ⟨ls, v', h1, h2, h3⟩
    · rw [hv] at h2; cases h2
    rw [hv] at h2
    cases h2
    obtain ⟨hmt, hpos, hne, hdat⟩ := split_data hd' hmat hmf h1
    have hfit : FitsCtrl mat mf mt := by
      obtain ⟨l, ls', hll⟩ := List.exists_cons_of_ne_nil hne
      exact readCtrl_fits (theReader_ctrl.1 (hdat l (by rw [hll]; simp)).2.1)
    have hmat0 : mat ≠ 0 := by
      obtain ⟨l, ls', hll⟩ := List.exists_cons_of_ne_nil hne
      exact (hdat l (by rw [hll]; simp)).2.2.1
    obtain ⟨k, hk, hmd⟩ := parseSec_made ha h3
    have hkk : k = ⟨mat, mf, mt⟩ := by
      obtain ⟨l, ls', rfl⟩ := List.exists_cons_of_ne_nil hne
      have := theReader_ctrl.1 (hdat l (by simp)).2.1
      have hk : readCtrl x.split.fields.width l = .ok k := hk
      rw [this] at hk
      cases hk
      rfl
    rw [hia] at hmd
    cases v with
    | verb ls' =>
      obtain ⟨rfl, hno⟩ := hmd
      refine ⟨hfit, ⟨hne, fun l hl => ⟨hverb mf mt _ hv l hl, hdat l hl⟩, trivial⟩, hpos, ?_⟩
      intro ls2 a2 e1 e2 hc
      refine ⟨k, .verb ls2, ?_, ⟨rfl, by rw [e1, e2]; exact hno⟩, .verb hc.symm⟩
      rw [hcw]
      refine ctrl_cols hc hne (fun l hl => ⟨hverb mf mt _ hv l hl, ?_⟩)
      rw [hkk, ← hcw]
      exact theReader_ctrl.1 (hdat l hl).2.1
    | data dd =>
      subst hkk
      obtain ⟨z, hz⟩ := heach mf mt dd hv
      have hsk : shouldSkip mf mt a.excl a.incl = false := by
        obtain ⟨p, snd, s, _, hsk, _⟩ := hmd
        exact hsk
      obtain ⟨body, b1, b2, b3, b4, _, b6⟩ := again_data (k := ⟨mat, mf, mt⟩) hw hcw hpre hst hfit hmd
        (fun p snd s g1 g2 g3 => hsec mf mt ls ⟨mat, mf, mt⟩ p snd s h1 (by rw [← hcw]; exact hk) g1 hsk g2 g3) hz
      dsimp only at b1 b4 b6
      have hbd : ∀ l ∈ body, (theReader x.split.fields).IsData mat mf mt l := by
        intro l hl
        obtain ⟨_, c2, c3⟩ := b3 l hl
        exact ⟨c3, theReader_ctrl.2 (by rw [hcw]; exact c2), hmat0, hmf, hmt⟩
      refine ⟨hfit, ⟨by rw [b1]; exact b2, ?_, ?_⟩, hpos, ?_⟩
      · rw [b1]
        exact fun l hl => ⟨le_of_eq (b3 l hl).1.symm, hbd l hl⟩
      · obtain ⟨send, c1, c2⟩ := b4 hmf
        obtain ⟨send', c3, c4⟩ := writtenEnd hcw hw9 zab mat mf mt hfit (writeSend x.wo zab ⟨mat, mf, mt⟩) ⟨mat, mf, 0⟩ (by simp)
        rw [c2] at c3
        cases c3
        exact ⟨body, send, c1, c4⟩
      · intro ls2 a2 e1 e2 hc
        rw [b1] at hc
        refine ⟨⟨mat, mf, mt⟩, .data dd, ?_, b6 ls2 a2 e1 e2 (by rw [hc]; exact cols_full (fun l hl => (b3 l hl).1)), .data dd⟩
        rw [hcw]
        exact ctrl_cols hc b2 (fun l hl => ⟨le_of_eq (b3 l hl).1.symm, (b3 l hl).2.1⟩)
  -- the tape head
  obtain ⟨l0, m0, hl0, hl0b, hl0c⟩ := split_head hd'
  have hs00 : secOf d 0 0 = some [l0] := by unfold secOf; rw [hl0]; rfl
  have hal := parseMfs_along ha h
  obtain ⟨v0, hv0, hp0⟩ : ∃ v0, dGet 0 res = some [(0, v0)] ∧ parseSec x a x.fresh 0 0 [l0] = (x.fresh, .ok v0) := by
    rcases hal.get 0 with ⟨g1, _⟩ | ⟨m, q, g1, g2, g3⟩
    · rw [hl0] at g1; cases g1
    · rw [hl0] at g1
      cases g1
      unfold Along at g3
      cases g3 with
      | @cons _ b _ _ g4 g5 =>
        cases g5
        obtain ⟨b1, b2⟩ := b
        obtain ⟨e, g4⟩ := g4
        dsimp only at e g4
        subst e
        exact ⟨b2, g2, g4⟩
  have hv00 : valOf res 0 0 = some v0 := by unfold valOf; rw [hv0]; rfl
  have hhd : ∃ l, HeadOk (x.writer zab) l v0 ∧
      ∀ ls2 a2, a2.excl = a.excl → a2.incl = a.incl → cols x.wo.width ls2 = [l.take (6 * x.wo.width + 9)] →
        ∃ k v2, (lineAt ls2 0 >>= readCtrl x.split.fields.width) = .ok k ∧ Made x a2 false 0 0 ls2 k v2 ∧
          SameSec x.wo.width (some v0) (some v2) := by
    obtain ⟨k, hk, hmd⟩ := parseSec_made ha hp0
    have hkk : k = ⟨m0, 0, 0⟩ := by
      have hk : readCtrl x.split.fields.width l0 = .ok k := hk
      rw [hl0c] at hk
      cases hk
      rfl
    rw [hia] at hmd
    subst hkk
    cases v0 with
    | verb ls' =>
      obtain ⟨rfl, hno⟩ := hmd
      have hlen := hverb 0 0 _ hv00 l0 (by simp)
      refine ⟨l0, ⟨hlen, hhead l0 hv00, ⟨m0, ?_⟩, rfl⟩, ?_⟩
      · show readCtrl x.wo.width l0 = _
        rw [← hcw]; exact hl0c
      · intro ls2 a2 e1 e2 hc
        refine ⟨⟨m0, 0, 0⟩, .verb ls2, ?_, ⟨rfl, by rw [e1, e2]; exact hno⟩, .verb hc.symm⟩
        rw [hcw]
        refine ctrl_cols (ls1 := [l0]) hc (by simp) (fun l hl => ?_)
        rw [List.mem_singleton] at hl
        subst hl
        exact ⟨hlen, by rw [← hcw]; exact hl0c⟩
    | data dd =>
      obtain ⟨z, hz⟩ := heach 0 0 dd hv00
      have hsk : shouldSkip 0 0 a.excl a.incl = false := by
        obtain ⟨p, snd, s, _, hsk, _⟩ := hmd
        exact hsk
      obtain ⟨body, b1, b2, b3, _, b5, b6⟩ := again_data (k := ⟨m0, 0, 0⟩) hw hcw hpre hst (readCtrl_fits hl0c) hmd
        (fun p snd s g1 g2 g3 => hsec 0 0 [l0] ⟨m0, 0, 0⟩ p snd s hs00 (by rw [← hcw]; exact hk) g1 hsk g2 g3) hz
      obtain ⟨l, rfl, b7⟩ := b5 rfl
      obtain ⟨c1, c2, c3⟩ := b3 l (by simp)
      have htake : l.take (6 * x.wo.width + 9) = l := List.take_of_length_le (le_of_eq c1)
      refine ⟨l, ⟨le_of_eq c1.symm, ?_, ⟨m0, c2⟩, ⟨_, b7⟩⟩, ?_⟩
      · show strip (l.take (6 * x.wo.width + 9)) ≠ []
        rw [htake]; exact c3
      · intro ls2 a2 e1 e2 hc
        refine ⟨⟨m0, 0, 0⟩, .data dd, ?_, b6 ls2 a2 e1 e2 (by rw [hc, htake]), .data dd⟩
        rw [hcw]
        refine ctrl_cols (ls1 := [l]) hc (by simp) (fun l' hl' => ?_)
        rw [List.mem_singleton] at hl'
        subst hl'
        exact ⟨le_of_eq c1.symm, c2⟩
  obtain ⟨lh, hok, hagain⟩ := hhd
  -- the written file
  have hfiles : FilesOk (x.writer zab) mat res := by
    refine ⟨?_, ?_, ?_, ?_, ?_⟩
    · have := hnd.1
      unfold DNodup at *
      rw [hal.keys]
      exact this
    · intro mf q hq
      rcases hal.get mf with ⟨_, g2⟩ | ⟨m, q', g1, g2, g3⟩
      · rw [hq] at g2; cases g2
      · rw [hq] at g2
        cases g2
        have := hnd.2 mf m g1
        unfold DNodup at *
        rw [g3.keys]
        exact this
    · intro mf q hq
      by_cases hz : mf = 0
      · omega
      · cases q with
        | nil =>
          exfalso
          rcases hal.get mf with ⟨_, g2⟩ | ⟨m, q', g1, g2, g3⟩
          · rw [hq] at g2; cases g2
          · rw [hq] at g2
            cases g2
            cases g3
            exact split_nonempty hd' mf g1
        | cons y q =>
          obtain ⟨mt, v⟩ := y
          exact le_of_lt (hdata mf mt v hz (by unfold valOf; rw [hq]; simp [dGet])).2.2.1
    · intro mf q mt v hq hv hmf _
      obtain ⟨g1, g2, _⟩ := hdata mf mt v hmf (by unfold valOf; rw [hq]; exact hv)
      exact ⟨g1, g2⟩
    · obtain ⟨l, hl, m, f, t, hdl⟩ := hsome
      have h1 : secOf d f t ≠ none := by
        rw [C22_sections _ _ _ hd' f t hdl.2.2.2.1 hdl.2.2.2.2]
        unfold entry
        rw [if_neg]
        · simp
        · intro hn
          have : l ∈ a.lines.filter (carries x.split.fields.width f t) := List.mem_filter.2 ⟨hl, (carries_iff x.split.fields f t l).2 ⟨m, hdl⟩⟩
          dsimp only at hn
          rw [hn] at this
          cases this
      rcases hval f t with ⟨g1, _⟩ | ⟨ls, v, _, g2, _⟩
      · exact absurd g1 h1
      · unfold valOf at g2
        cases hq : dGet f res with
        | none => rw [hq] at g2; cases g2
        | some q =>
          rw [hq] at g2
          exact ⟨f, q, t, v, hq, g2, hdl.2.2.2.1, rfl⟩
  obtain ⟨out, d2, w1, w2, _, w4, w5⟩ := C25_written_partial (x.writer zab) hcw hw9 mat res hfiles lh v0 hv0 hok rfl
  have w2' : splitSections x.split out = .ok d2 := by rw [hsp]; exact w2
  have hnd2 := splitSections_nodup w2'
  -- every section of the written file
  have hboth : ∀ mf mt, (secOf d2 mf mt = none ∧ valOf res mf mt = none) ∨
      ∃ ls2 v k v2, secOf d2 mf mt = some ls2 ∧ valOf res mf mt = some v ∧ (lineAt ls2 0 >>= readCtrl x.split.fields.width) = .ok k ∧
        Made x { a with lines := out } false mf mt ls2 k v2 ∧ SameSec x.wo.width (some v) (some v2) := by
    intro mf mt
    by_cases hz : mf = 0 ∨ mt = 0
    · by_cases h00 : mf = 0 ∧ mt = 0
      · obtain ⟨rfl, rfl⟩ := h00
        right
        cases hs2 : secOf d2 0 0 with
        | none => rw [hs2] at w5; cases w5
        | some ls2 =>
          rw [hs2] at w5
          have w5 := Option.some.inj w5
          obtain ⟨k, v2, g1, g2, g3⟩ := hagain ls2 { a with lines := out } rfl rfl w5
          exact ⟨ls2, v0, k, v2, rfl, hv00, g1, g2, g3⟩
      · left
        constructor
        · rcases C22_head _ _ _ w2 mf mt hz with h2 | ⟨h2, h2', _⟩
          · exact h2
          · exact absurd ⟨h2, h2'⟩ h00
        · rcases hval mf mt with ⟨_, g⟩ | ⟨ls, v, g1, _⟩
          · exact g
          · rcases C22_head _ _ _ hd' mf mt hz with h2 | ⟨h2, h2', _⟩
            · rw [g1] at h2; cases h2
            · exact absurd ⟨h2, h2'⟩ h00
    · push Not at hz
      have hh := w4 mf mt hz.1 hz.2
      cases hv : valOf res mf mt with
      | none =>
        rw [hv] at hh
        left
        cases hs2 : secOf d2 mf mt with
        | none => exact ⟨rfl, rfl⟩
        | some _ => rw [hs2] at hh; cases hh
      | some v =>
        rw [hv] at hh
        simp only [hskip, Bool.false_eq_true, if_false] at hh
        right
        cases hs2 : secOf d2 mf mt with
        | none => rw [hs2] at hh; cases hh
        | some ls2 =>
          rw [hs2] at hh
          have hh := Option.some.inj hh
          obtain ⟨_, _, _, g⟩ := hdata mf mt v hz.1 hv
          obtain ⟨k, v2, g1, g2, g3⟩ := g ls2 { a with lines := out } rfl rfl hh
          exact ⟨ls2, v, k, v2, rfl, rfl, g1, g2, g3⟩
  have hmade : ∀ mf mt ls2, secOf d2 mf mt = some ls2 → ∃ v v2, valOf res mf mt = some v ∧ SameSec x.wo.width (some v) (some v2) ∧
      parseSec x { a with lines := out } x.fresh mf mt ls2 = (x.fresh, .ok v2) := by
    intro mf mt ls2 hs
    rcases hboth mf mt with ⟨g, _⟩ | ⟨ls', v, k, v2, g1, g2, g3, g4, g5⟩
    · rw [hs] at g; cases g
    · rw [hs] at g1
      cases g1
      rw [← hia] at g4
      obtain ⟨o2, g6⟩ := made_parseSec g3 g4
      have := parseSec_keep_ok (a := { a with lines := out }) ha g6
      subst this
      exact ⟨v, v2, g2, g5, g6⟩
  obtain ⟨res2, hr2⟩ : ∃ res2, parseMfs x { a with lines := out } x.fresh d2 = (x.fresh, .ok res2) := by
    apply parseMfs_run
    rintro ⟨mf, m⟩ hq ⟨mt, ls2⟩ hs
    have g1 := dGet_of_mem hnd2.1 hq
    have g2 := dGet_of_mem (hnd2.2 mf m g1) hs
    obtain ⟨_, v2, _, _, g⟩ := hmade mf mt ls2 (by unfold secOf; rw [g1]; exact g2)
    exact ⟨v2, g⟩
  refine ⟨out, w1, res2, ?_, ?_⟩
  · unfold parse
    dsimp only
    rw [w2']
    exact hr2
  · intro mf mt
    rcases parse_val (a := { a with lines := out }) ha hr2 mf mt with ⟨g1, g2⟩ | ⟨ls2, v', g1, g2, g3⟩
    · rw [g2]
      rcases hboth mf mt with ⟨_, g⟩ | ⟨_, _, _, _, g, _⟩
      · rw [g]; exact .none
      · rw [g1] at g; cases g
    · obtain ⟨v, v2, e1, e2, e3⟩ := hmade mf mt ls2 g1
      rw [e3] at g3
      cases g3
      rw [e1, g2]
      exact e2

/-- C89 (partial): a file of one material that has been parsed is written, and the written lines are parsed again with the
same options.  The second parsing succeeds, and gives the same sections: the same dictionaries for the sections that are
parsed, and the same columns up to MT for the others.  Conditions: strict options; the lines of the sections that are not
parsed have at least the columns up to MT, and the tape head is not blank; and for each section that is parsed the conditions
of `C88_partial`.  Missing in comparison to the full claim: these conditions (`C88_fails`, `C26_fails`, …), files with several
materials, and tolerant parsing options. -/
theorem C89_partial (x : PCtx) (zab : Bool) (a : PArgs) (ha : a.nofail = false) (hsp : x.split = { fields := x.split.fields })
    (hw : 11 ≤ x.wo.width) (hcw : x.split.fields.width = x.wo.width) (hpre : x.split.fields.preserve = false)
    (hst : Strict x.po) (hig : x.po.ignoreAll = false)
    (d : MfDic) (hd : splitSections x.split a.lines = .ok d)
    (o' : PObj) (res : Dict Int (Dict Int (SecVal DDic))) (h : parse x x.fresh a = (o', .ok res)) (mat : Int)
    (hmat : ∀ l ∈ a.lines, ∀ m f t, (theReader x.split.fields).IsData m f t l → m = mat ∧ 0 < f)
    (hsome : ∃ l ∈ a.lines, ∃ m f t, (theReader x.split.fields).IsData m f t l)
    (hverb : ∀ mf mt ls, valOf res mf mt = some (.verb ls) → ∀ l ∈ ls, 6 * x.wo.width + 9 ≤ l.length)
    (hhead : ∀ l, valOf res 0 0 = some (.verb [l]) → strip (l.take (6 * x.wo.width + 9)) ≠ [])
    (hsec : ∀ mf mt ls k p snd s, secOf d mf mt = some ls → (lineAt ls 0 >>= readCtrl x.wo.width) = .ok k →
      responsible x.trees mf mt = some p → shouldSkip mf mt a.excl a.incl = false → writeSend x.wo false k = .ok snd →
      readSection ⟨ls ++ snd, x.split.fields, x.po, x.fuel⟩ false p = .ok s →
      Faithful ⟨ls ++ snd, x.split.fields, x.po, x.fuel⟩ x.wo p k s)
    (out : List Str) (hout : writeTape (x.writer zab) res = .ok out) :
    ∃ res2, parse x x.fresh { a with lines := out } = (x.fresh, .ok res2) ∧
      ∀ mf mt, SameSec x.wo.width (valOf res mf mt) (valOf res2 mf mt) := by
  obtain ⟨out', h1, h2⟩ := cycle_each x zab a ha hsp hw hcw hpre hst hig d hd o' res h mat hmat hsome hverb hhead hsec (by
    intro mf mt dd hv
    obtain ⟨z, hz⟩ := writeTape_each hout hv rfl
    unfold writeSec at hz
    dsimp only at hz
    split at hz
    · cases hz
    · rename_i r hr
      simp only [bind_ok] at hz
      obtain ⟨y, hy, _⟩ := hz
      exact ⟨y, by rw [hr, hy]⟩)
  rw [hout] at h1
  cases h1
  exact h2

/-- what `C88_success_partial` demands of a section that has been read, in addition to `Faithful` -/
structure Writable (c : RCtx) (p : Prog) (k : Ctrl) (s : RSt) (fuel : Nat) : Prop where
  whole : Whole c p { cur := initWork [] }
  loops : Unused (loopVars p) s.cur
  full : ∀ q ∈ s.recs, FullRec q
  ints : ∀ w, writeSection fuel k.mf k.mt p s.cur = .ok w → ∀ r ∈ w.out, IntsRec r

theorem Framed.only {mf : Int} {recs : List ARec} (h : Framed mf recs) : ∀ q ∈ recs.dropLast, q.kind ≠ .send := by
  unfold Framed at h
  split at h
  · obtain ⟨r, rfl, _⟩ := h
    simp
  · obtain ⟨bs, e, rfl, _, h, _⟩ := h
    rw [List.dropLast_concat]
    exact h

/-- C89 (partial, with success): a file of one material that has been parsed can be written, and the written lines can be parsed
again, with the same sections.  In addition to the conditions of `C89_partial` without the one that writing succeeds: the
conditions of `C88_success_partial` for each section that is parsed (`Writable`), and `strict_datatypes` off. -/
theorem C89_success_partial (x : PCtx) (zab : Bool) (a : PArgs) (ha : a.nofail = false) (hsp : x.split = { fields := x.split.fields })
    (hw : 11 ≤ x.wo.width) (hcw : x.split.fields.width = x.wo.width) (hpre : x.split.fields.preserve = false)
    (hst : Strict x.po) (hig : x.po.ignoreAll = false)
    (d : MfDic) (hd : splitSections x.split a.lines = .ok d)
    (o' : PObj) (res : Dict Int (Dict Int (SecVal DDic))) (h : parse x x.fresh a = (o', .ok res)) (mat : Int)
    (hmat : ∀ l ∈ a.lines, ∀ m f t, (theReader x.split.fields).IsData m f t l → m = mat ∧ 0 < f)
    (hsome : ∃ l ∈ a.lines, ∃ m f t, (theReader x.split.fields).IsData m f t l)
    (hverb : ∀ mf mt ls, valOf res mf mt = some (.verb ls) → ∀ l ∈ ls, 6 * x.wo.width + 9 ≤ l.length)
    (hhead : ∀ l, valOf res 0 0 = some (.verb [l]) → strip (l.take (6 * x.wo.width + 9)) ≠ [])
    (hsec : ∀ mf mt ls k p snd s, secOf d mf mt = some ls → (lineAt ls 0 >>= readCtrl x.wo.width) = .ok k →
      responsible x.trees mf mt = some p → shouldSkip mf mt a.excl a.incl = false → writeSend x.wo false k = .ok snd →
      readSection ⟨ls ++ snd, x.split.fields, x.po, x.fuel⟩ false p = .ok s →
      Faithful ⟨ls ++ snd, x.split.fields, x.po, x.fuel⟩ x.wo p k s ∧ Writable ⟨ls ++ snd, x.split.fields, x.po, x.fuel⟩ p k s x.fuel)
    (ho : x.wo.strictDatatypes = false) :
    ∃ out, writeTape (x.writer zab) res = .ok out ∧ ∃ res2, parse x x.fresh { a with lines := out } = (x.fresh, .ok res2) ∧
      ∀ mf mt, SameSec x.wo.width (valOf res mf mt) (valOf res2 mf mt) := by
  refine cycle_each x zab a ha hsp hw hcw hpre hst hig d hd o' res h mat hmat hsome hverb hhead
    (fun mf mt ls k p snd s g1 g2 g3 g4 g5 g6 => (hsec mf mt ls k p snd s g1 g2 g3 g4 g5 g6).1) ?_
  intro mf mt dd hv
  have hd' : splitSections { fields := x.split.fields } a.lines = .ok d := by rw [← hsp]; exact hd
  unfold parse at h
  rw [hd] at h
  dsimp only at h
  rcases parse_val ha h mf mt with ⟨_, h2⟩ | ⟨ls, v, h1, h2, h3⟩
  · rw [hv] at h2; cases h2
  rw [hv] at h2
  cases h2
  obtain ⟨k, hk, p, snd, s, hp, hsk, hsnd, hr, rfl⟩ := parseSec_made ha h3
  have hia : x.fresh.ignoreAll = false := hig
  rw [hia] at hr
  have hkk : k.mf = mf ∧ k.mt = mt := by
    by_cases hmf : mf = 0
    · subst hmf
      obtain ⟨l0, m0, hl0, _, hl0c⟩ := split_head hd'
      unfold secOf at h1
      rw [hl0] at h1
      simp only [dGet, Option.bind_some] at h1
      split at h1
      · rename_i e
        cases h1
        have hk : readCtrl x.split.fields.width l0 = .ok k := hk
        rw [hl0c] at hk
        cases hk
        exact ⟨rfl, e⟩
      · cases h1
    · obtain ⟨_, _, hne, hdat⟩ := split_data hd' hmat hmf h1
      obtain ⟨l, ls', rfl⟩ := List.exists_cons_of_ne_nil hne
      have := theReader_ctrl.1 (hdat l (by simp)).2.1
      have hk : readCtrl x.split.fields.width l = .ok k := hk
      rw [this] at hk
      cases hk
      exact ⟨rfl, rfl⟩
  obtain ⟨rfl, rfl⟩ := hkk
  obtain ⟨f, w⟩ := hsec k.mf k.mt ls k p snd s h1 (by rw [← hcw]; exact hk) hp hsk hsnd hr
  obtain ⟨ls0, hl, _⟩ := C88_success_partial ⟨ls ++ snd, x.split.fields, x.po, x.fuel⟩ p k s x.fuel x.wo zab hst hr f.wf f.tidy w.whole
    f.ctrl f.ctrls f.mat f.unshadowed f.unused w.loops (le_refl _) f.foreseen f.plain hpre hw hcw ho f.stays w.full w.ints f.framed.only
  refine ⟨(ls0, k), ?_⟩
  unfold PCtx.writer
  dsimp only
  rw [hp, Option.map_some, hl]

namespace CycleExample
open RoundtripExample ReparseEx

/-- `Framed` decided -/
def framedB (mf : Int) (recs : List ARec) : Bool :=
  if mf = 0 then match recs with
    | [r] => decide (r.kind = .text)
    | _ => false
  else decide (recs.dropLast ≠ []) && recs.dropLast.all (fun b => decide (b.kind ≠ .send)) &&
    match recs.getLast? with
    | some e => decide (e.kind = .send)
    | none => false

theorem framedB_ok {mf : Int} {recs : List ARec} (h : framedB mf recs = true) : Framed mf recs := by
  unfold framedB at h
  unfold Framed
  split at h
  · rename_i hz
    rw [if_pos hz]
    split at h
    · exact ⟨_, rfl, of_decide_eq_true h⟩
    · cases h
  · rename_i hz
    rw [if_neg hz]
    simp only [Bool.and_eq_true, decide_eq_true_eq, List.all_eq_true] at h
    obtain ⟨⟨h1, h2⟩, h3⟩ := h
    split at h3
    · rename_i e he
      rw [decide_eq_true_eq] at h3
      exact ⟨recs.dropLast, e, (List.dropLast_append_getLast? e he).symm, h1, h2, h3⟩
    · cases h3

/-- `Faithful` decided, apart from `WF` -/
def faithfulB (c : RCtx) (o : WOpts) (p : Prog) (k : Ctrl) (s : RSt) : Bool :=
  p.plain && tidyB c p { cur := initWork [] } && aheadB c s.recs p { cur := initWork [] } &&
  s.recs.all (fun r => decide (r.ctrl = if r.kind = .send then { k with mt := 0 } else k)) &&
  ctrlAllB k s.cur && dHas (.var "MAT") s.cur && unshadowedB (looked p) s.cur && unusedB (abbrs p) s.cur &&
  s.recs.all (staysB o c.ro) && framedB k.mf s.recs

theorem faithfulB_ok {c : RCtx} {o : WOpts} {p : Prog} {k : Ctrl} {s : RSt} (hwf : WF p) (h : faithfulB c o p k s = true) :
    Faithful c o p k s := by
  unfold faithfulB at h
  simp only [Bool.and_eq_true, List.all_eq_true, decide_eq_true_eq] at h
  obtain ⟨⟨⟨⟨⟨⟨⟨⟨⟨h1, h2⟩, h3⟩, h4⟩, h5⟩, h6⟩, h7⟩, h8⟩, h9⟩, h10⟩ := h
  exact ⟨hwf, h1, tidyB_ok h2, aheadB_ok h3, h4, ctrlAllB_ok h5, h6, unshadowedB_ok h7, unusedB_ok h8,
    fun q hq => staysB_ok (h9 q hq), framedB_ok h10⟩

/-- all conditions of `C89_partial` on the sections, in one computation -/
def secsB (x : PCtx) (a : PArgs) (d : MfDic) : Bool :=
  d.all fun q => q.2.all fun e =>
    match lineAt e.2 0 >>= readCtrl x.wo.width, responsible x.trees q.1 e.1 with
    | .ok k, some p => match writeSend x.wo false k with
      | .ok snd => match readSection ⟨e.2 ++ snd, x.split.fields, x.po, x.fuel⟩ false p with
        | .ok s => shouldSkip q.1 e.1 a.excl a.incl || faithfulB ⟨e.2 ++ snd, x.split.fields, x.po, x.fuel⟩ x.wo p k s
        | .err _ _ => true
      | .error _ => true
    | _, _ => true

theorem secsB_ok {x : PCtx} {a : PArgs} {d : MfDic} (hwf : ∀ mf mt p, responsible x.trees mf mt = some p → WF p)
    (h : secsB x a d = true) :
    ∀ mf mt ls k p snd s, secOf d mf mt = some ls → (lineAt ls 0 >>= readCtrl x.wo.width) = .ok k →
      responsible x.trees mf mt = some p → shouldSkip mf mt a.excl a.incl = false → writeSend x.wo false k = .ok snd →
      readSection ⟨ls ++ snd, x.split.fields, x.po, x.fuel⟩ false p = .ok s →
      Faithful ⟨ls ++ snd, x.split.fields, x.po, x.fuel⟩ x.wo p k s := by
  intro mf mt ls k p snd s hs hk hp hsk hsnd hr
  unfold secOf at hs
  cases hm : dGet mf d with
  | none => rw [hm] at hs; cases hs
  | some m =>
    rw [hm] at hs
    unfold secsB at h
    have := List.all_eq_true.1 (List.all_eq_true.1 h (mf, m) (dGet_mem hm)) (mt, ls) (dGet_mem hs)
    dsimp only at this
    rw [hk, hp] at this
    dsimp only at this
    rw [hsnd] at this
    dsimp only at this
    rw [hr] at this
    dsimp only at this
    rw [hsk, Bool.false_or] at this
    exact faithfulB_ok (hwf _ _ _ hp) this

/-- the lines carry one material -/
def oneMatB (w : Nat) (mat : Int) (lines : List Str) : Bool :=
  lines.all fun l => match readCtrl w l with
    | .ok c => decide (c.mat = 0 ∨ c.mf = 0 ∨ c.mt = 0) || (decide (c.mat = mat) && decide (0 < c.mf))
    | .error _ => true

theorem oneMatB_ok {r : ROpts} {mat : Int} {lines : List Str} (h : oneMatB r.width mat lines = true) :
    ∀ l ∈ lines, ∀ m f t, (theReader r).IsData m f t l → m = mat ∧ 0 < f := by
  intro l hl m f t hd
  have := List.all_eq_true.1 h l hl
  obtain ⟨_, h2, h3, h4, h5⟩ := hd
  rw [theReader_ctrl.1 h2] at this
  simp only [h3, h4, h5, or_self, decide_false, Bool.false_or, Bool.and_eq_true, decide_eq_true_eq] at this
  exact this

/-- the sections kept as lines have full lines -/
def verbB (w : Nat) (res : Dict Int (Dict Int (SecVal DDic))) : Bool :=
  res.all fun q => q.2.all fun e => match e.2 with
    | .verb ls => ls.all fun l => decide (6 * w + 9 ≤ l.length) && decide (strip (l.take (6 * w + 9)) ≠ [])
    | .data _ => true

theorem verbB_ok {w : Nat} {res : Dict Int (Dict Int (SecVal DDic))} (h : verbB w res = true) {mf mt : Int} {ls : List Str}
    (hv : valOf res mf mt = some (.verb ls)) : ∀ l ∈ ls, 6 * w + 9 ≤ l.length ∧ strip (l.take (6 * w + 9)) ≠ [] := by
  unfold valOf at hv
  cases hm : dGet mf res with
  | none => rw [hm] at hv; cases hv
  | some m =>
    rw [hm] at hv
    have := List.all_eq_true.1 (List.all_eq_true.1 h (mf, m) (dGet_mem hm)) (mt, _) (dGet_mem hv)
    dsimp only at this
    intro l hl
    have := List.all_eq_true.1 this l hl
    rw [Bool.and_eq_true, decide_eq_true_eq, decide_eq_true_eq] at this
    exact this

/-- the shipped recipe of the tape head (endf_recipes/endf6/endf_recipe_mf0_mt0.py:12-15) and the recipe of `RoundtripExample` -/
def headRecipe : Prog := .act (.text {} [⟨some ⟨"TAPEDESCR", []⟩, none⟩])

def ctx89 : PCtx := { po := strict, trees := [(0, .byMt [(0, headRecipe)]), (3, .byMt [(1, recipe)])] }

def tape : List Str :=
  [Example.tpid, " some lines of a section without recipe                            125 1451".toList,
    "        0.0        0.0          0          0          0          0 125 1  0".toList,
    "        0.0        0.0          0          0          0          0 125 0  0".toList,
    head, list, vals, tab, tabn, tabx, send, Example.fend, Example.mend, Example.tend]

/-- everything `C89_partial` demands -/
def holds89 (x : PCtx) (a : PArgs) (zab : Bool) (mat : Int) : Bool :=
  match splitSections x.split a.lines, (parse x x.fresh a).2 with
  | .ok d, .ok res => oneMatB x.split.fields.width mat a.lines && a.lines.any (carries x.split.fields.width 3 1) &&
      verbB x.wo.width res && secsB x a d && resOk (writeTape (x.writer zab) res)
  | _, _ => false

theorem holds89_ok {x : PCtx} {a : PArgs} {zab : Bool} {mat : Int} (ha : a.nofail = false) (hsp : x.split = { fields := x.split.fields })
    (hw : 11 ≤ x.wo.width) (hcw : x.split.fields.width = x.wo.width) (hpre : x.split.fields.preserve = false)
    (hst : Strict x.po) (hig : x.po.ignoreAll = false) (hwf : ∀ mf mt p, responsible x.trees mf mt = some p → WF p)
    (h : holds89 x a zab mat = true) : ∃ o' res out res2, parse x x.fresh a = (o', .ok res) ∧ writeTape (x.writer zab) res = .ok out ∧
      parse x x.fresh { a with lines := out } = (x.fresh, .ok res2) ∧
      ∀ mf mt, SameSec x.wo.width (valOf res mf mt) (valOf res2 mf mt) := by
  unfold holds89 at h
  split at h
  · rename_i d res hd hres
    simp only [Bool.and_eq_true] at h
    obtain ⟨⟨⟨⟨h1, h2⟩, h3⟩, h4⟩, h5⟩ := h
    obtain ⟨out, hout⟩ := resOk_ok h5
    obtain ⟨l, hl, hc⟩ := List.any_eq_true.1 h2
    obtain ⟨m, hm⟩ := (carries_iff x.split.fields 3 1 l).1 hc
    have hparse : parse x x.fresh a = ((parse x x.fresh a).1, .ok res) := by rw [← hres]
    obtain ⟨res2, g1, g2⟩ := C89_partial x zab a ha hsp hw hcw hpre hst hig d hd _ res hparse mat (oneMatB_ok h1) ⟨l, hl, m, 3, 1, hm⟩
      (fun mf mt ls hv l hl => (verbB_ok h3 hv l hl).1) (fun l hv => (verbB_ok h3 hv l (by simp)).2) (secsB_ok hwf h4) out hout
    exact ⟨_, res, out, res2, hparse, hout, g1, g2⟩
  · cases h

theorem ctx89_wf : ∀ mf mt p, responsible ctx89.trees mf mt = some p → WF p := by
  intro mf mt p hp
  have hp' : p = headRecipe ∨ p = recipe := by
    unfold responsible ctx89 at hp
    simp only [dGet] at hp
    split at hp
    · cases hp
    · rename_i e
      split at e
      · cases e
      · split at e <;> cases e
    · rename_i dd e
      split at e
      · cases e
        simp only [dGet] at hp
        split at hp
        · rename_i e1
          split at e1
          · cases e1; cases hp; exact .inl rfl
          · cases e1
        · split at hp
          · cases hp; exact .inl rfl
          · cases hp
      · split at e
        · cases e
          simp only [dGet] at hp
          split at hp
          · rename_i e1
            split at e1
            · cases e1; cases hp; exact .inr rfl
            · cases e1
          · split at hp
            · cases hp; exact .inr rfl
            · cases hp
        · cases e
  rcases hp' with rfl | rfl
  · simp [headRecipe, WF, ActWF]
  · simp [recipe, WF, ActWF]

/-- a tape with a tape head that is parsed, a section that is not, and one with HEAD, LIST in a section, TAB1 decided by
lookahead and SEND: parsed, written with line numbers, and parsed again -/
example : ∃ o' res out res2, parse ctx89 ctx89.fresh { lines := tape } = (o', .ok res) ∧
    writeTape (ctx89.writer true) res = .ok out ∧ parse ctx89 ctx89.fresh { lines := out } = (ctx89.fresh, .ok res2) ∧
    ∀ mf mt, SameSec 11 (valOf res mf mt) (valOf res2 mf mt) := by
  refine holds89_ok (x := ctx89) (a := { lines := tape }) (mat := 125) rfl rfl (by decide) rfl rfl ⟨rfl, rfl, rfl, rfl⟩ rfl ctx89_wf (by decide +kernel)

/-- `Writable` decided -/
def writableB (c : RCtx) (p : Prog) (k : Ctrl) (s : RSt) (fuel : Nat) : Bool :=
  wholeB c p { cur := initWork [] } && unusedB (loopVars p) s.cur && s.recs.all fullRecB &&
  match writeSection fuel k.mf k.mt p s.cur with
  | .ok w => w.out.all intsRecB
  | .error _ => true

theorem writableB_ok {c : RCtx} {p : Prog} {k : Ctrl} {s : RSt} {fuel : Nat} (h : writableB c p k s fuel = true) :
    Writable c p k s fuel := by
  unfold writableB at h
  simp only [Bool.and_eq_true, List.all_eq_true] at h
  obtain ⟨⟨⟨h1, h2⟩, h3⟩, h4⟩ := h
  refine ⟨wholeB_ok h1, unusedB_ok h2, fun q hq => fullRecB_ok (h3 q hq), ?_⟩
  intro w hw r hr
  rw [hw] at h4
  exact intsRecB_ok (List.all_eq_true.1 h4 r hr)

/-- the sections that are parsed meet `Writable` -/
def secsRunB (x : PCtx) (a : PArgs) (d : MfDic) : Bool :=
  d.all fun q => q.2.all fun e =>
    match lineAt e.2 0 >>= readCtrl x.wo.width, responsible x.trees q.1 e.1 with
    | .ok k, some p => match writeSend x.wo false k with
      | .ok snd => match readSection ⟨e.2 ++ snd, x.split.fields, x.po, x.fuel⟩ false p with
        | .ok s => shouldSkip q.1 e.1 a.excl a.incl || writableB ⟨e.2 ++ snd, x.split.fields, x.po, x.fuel⟩ p k s x.fuel
        | .err _ _ => true
      | .error _ => true
    | _, _ => true

theorem secsRunB_ok {x : PCtx} {a : PArgs} {d : MfDic} (h : secsRunB x a d = true) :
    ∀ mf mt ls k p snd s, secOf d mf mt = some ls → (lineAt ls 0 >>= readCtrl x.wo.width) = .ok k →
      responsible x.trees mf mt = some p → shouldSkip mf mt a.excl a.incl = false → writeSend x.wo false k = .ok snd →
      readSection ⟨ls ++ snd, x.split.fields, x.po, x.fuel⟩ false p = .ok s →
      Writable ⟨ls ++ snd, x.split.fields, x.po, x.fuel⟩ p k s x.fuel := by
  intro mf mt ls k p snd s hs hk hp hsk hsnd hr
  unfold secOf at hs
  cases hm : dGet mf d with
  | none => rw [hm] at hs; cases hs
  | some m =>
    rw [hm] at hs
    unfold secsRunB at h
    have := List.all_eq_true.1 (List.all_eq_true.1 h (mf, m) (dGet_mem hm)) (mt, ls) (dGet_mem hs)
    dsimp only at this
    rw [hk, hp] at this
    dsimp only at this
    rw [hsnd] at this
    dsimp only at this
    rw [hr] at this
    dsimp only at this
    rw [hsk, Bool.false_or] at this
    exact writableB_ok this

/-- everything `C89_success_partial` demands -/
def holdsRun89 (x : PCtx) (a : PArgs) (mat : Int) : Bool :=
  match splitSections x.split a.lines, (parse x x.fresh a).2 with
  | .ok d, .ok res => oneMatB x.split.fields.width mat a.lines && a.lines.any (carries x.split.fields.width 3 1) &&
      verbB x.wo.width res && secsB x a d && secsRunB x a d
  | _, _ => false

theorem holdsRun89_ok {x : PCtx} {a : PArgs} {zab : Bool} {mat : Int} (ha : a.nofail = false) (hsp : x.split = { fields := x.split.fields })
    (hw : 11 ≤ x.wo.width) (hcw : x.split.fields.width = x.wo.width) (hpre : x.split.fields.preserve = false)
    (hst : Strict x.po) (hig : x.po.ignoreAll = false) (ho : x.wo.strictDatatypes = false)
    (hwf : ∀ mf mt p, responsible x.trees mf mt = some p → WF p)
    (h : holdsRun89 x a mat = true) : ∃ o' res out res2, parse x x.fresh a = (o', .ok res) ∧ writeTape (x.writer zab) res = .ok out ∧
      parse x x.fresh { a with lines := out } = (x.fresh, .ok res2) ∧
      ∀ mf mt, SameSec x.wo.width (valOf res mf mt) (valOf res2 mf mt) := by
  unfold holdsRun89 at h
  split at h
  · rename_i d res hd hres
    simp only [Bool.and_eq_true] at h
    obtain ⟨⟨⟨⟨h1, h2⟩, h3⟩, h4⟩, h5⟩ := h
    obtain ⟨l, hl, hc⟩ := List.any_eq_true.1 h2
    obtain ⟨m, hm⟩ := (carries_iff x.split.fields 3 1 l).1 hc
    have hparse : parse x x.fresh a = ((parse x x.fresh a).1, .ok res) := by rw [← hres]
    obtain ⟨out, g0, res2, g1, g2⟩ := C89_success_partial x zab a ha hsp hw hcw hpre hst hig d hd _ res hparse mat (oneMatB_ok h1)
      ⟨l, hl, m, 3, 1, hm⟩ (fun mf mt ls hv l hl => (verbB_ok h3 hv l hl).1) (fun l hv => (verbB_ok h3 hv l (by simp)).2)
      (fun mf mt ls k p snd s e1 e2 e3 e4 e5 e6 => ⟨secsB_ok hwf h4 mf mt ls k p snd s e1 e2 e3 e4 e5 e6,
        secsRunB_ok h5 mf mt ls k p snd s e1 e2 e3 e4 e5 e6⟩) ho
    exact ⟨_, res, out, res2, hparse, g0, g1, g2⟩
  · cases h

def ctx89d : PCtx := { ctx89 with wo := { strictDatatypes := false } }

/-- the same tape; that it can be written is not computed but concluded -/
example : ∃ o' res out res2, parse ctx89d ctx89d.fresh { lines := tape } = (o', .ok res) ∧
    writeTape (ctx89d.writer true) res = .ok out ∧ parse ctx89d ctx89d.fresh { lines := out } = (ctx89d.fresh, .ok res2) ∧
    ∀ mf mt, SameSec 11 (valOf res mf mt) (valOf res2 mf mt) :=
  holdsRun89_ok (x := ctx89d) (a := { lines := tape }) (mat := 125) rfl rfl (by decide) rfl rfl ⟨rfl, rfl, rfl, rfl⟩ rfl rfl ctx89_wf
    (by decide +kernel)

/-- two materials, each with one section MF=1, MT=451 -/
def twoMats : List Str :=
  [Example.tpid, " description of the first material                                 125 1451".toList,
    "        0.0        0.0          0          0          0          0 125 1  0".toList,
    "        0.0        0.0          0          0          0          0 125 0  0".toList, Example.mend,
    " description of the second material                                128 1451".toList,
    "        0.0        0.0          0          0          0          0 128 1  0".toList,
    "        0.0        0.0          0          0          0          0 128 0  0".toList, Example.mend, Example.tend]

def noRecipes : PCtx := { trees := [] }

end CycleExample

open CycleExample in
/-- C89 fails for files with several materials: the tape is accepted and can be written, but sections of the same MF and MT
are merged whatever their material, and the written lines are refused. -/
theorem C89_materials_fails : ∃ o' res out e, parse noRecipes noRecipes.fresh { lines := twoMats } = (o', .ok res) ∧
    writeTape (noRecipes.writer false) res = .ok out ∧ (parse noRecipes noRecipes.fresh { lines := out }).2 = .error e := by
  have h : (match parse noRecipes noRecipes.fresh { lines := twoMats } with
      | (_, .error _) => false
      | (_, .ok res) => match writeTape (noRecipes.writer false) res with
        | .error _ => false
        | .ok out => match (parse noRecipes noRecipes.fresh { lines := out }).2 with
          | .error _ => true
          | .ok _ => false) = true := by decide +kernel
  split at h
  · cases h
  · rename_i o' res h1
    split at h
    · cases h
    · rename_i out h2
      split at h
      · rename_i e h3
        exact ⟨o', res, out, e, h1, h2, h3⟩
      · cases h

end Verif
