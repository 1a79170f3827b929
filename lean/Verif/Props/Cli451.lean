import Verif.Model.CliStatus
import Verif.Props.Cli
import Verif.Props.Cycle
import Verif.Props.Plumbing
import Verif.Props.Recipe451

/-! C100: `endf-cli update-directory` and `endf-cli insert-text`. -/

namespace Verif

open Spec

/-! ## dictionaries -/

theorem dGet_dDel_ne {κ α : Type} [DecidableEq κ] {k k' : κ} (h : k' ≠ k) (d : Dict κ α) : dGet k (dDel k' d) = dGet k d := by
  induction d with
  | nil => rfl
  | cons p d ih =>
    obtain ⟨a, v⟩ := p
    by_cases ha : a = k'
    · subst ha
      simp [dDel, dGet, h]
    · by_cases hk : a = k
      · subst hk
        simp [dDel, dGet, ha]
      · simp [dDel, dGet, ha, hk, ih]

/-- entries that differ only under the key that is set -/
theorem dSet_along {α : Type} {k : Int} (v : α) {d r : Dict Int α} (hn : DNodup d) (h : Verif.Along (fun a x y => a ≠ k → x = y) d r) :
    dSet k v r = dSet k v d := by
  unfold Verif.Along at h
  induction h with
  | nil => rfl
  | @cons p q d r h ht ih =>
    obtain ⟨a, x⟩ := p
    obtain ⟨b, y⟩ := q
    obtain ⟨rfl, h⟩ := h
    unfold DNodup dKeys at hn ih
    rw [List.map_cons, List.nodup_cons] at hn
    dsimp only at h hn
    by_cases hk : a = k
    · subst hk
      have : r = d := by
        have hall : ∀ p ∈ d, p.1 ≠ a := fun p hp he => hn.1 (he ▸ List.mem_map_of_mem hp)
        clear ih hn
        induction ht with
        | nil => rfl
        | @cons p q d r h _ ih =>
          rw [ih (fun p hp => hall p (by simp [hp]))]
          obtain ⟨a, x⟩ := p
          obtain ⟨b, y⟩ := q
          obtain ⟨rfl, h⟩ := h
          have hxy : x = y := h (hall (a, x) (by simp))
          rw [hxy]
      simp [dSet, this]
    · rw [h hk]
      simp [dSet, hk, ih hn.2]

/-! ## the lines of MF1/MT451 -/

/-- programs of single records and loops, none of them SEND -/
def flatB : Prog → Bool
  | .skip => true
  | .seq a b => flatB a && flatB b
  | .act a => oneAct a && !(match a with | .send => true | _ => false)
  | .loop _ _ _ p => flatB p
  | _ => false

/-- the control numbers that are written -/
def HasCtrl (k : Ctrl) (d : DDic) : Prop :=
  dGet (.var "MAT") d = some (.num (.int k.mat)) ∧ dGet (.var "MF") d = some (.num (.int k.mf)) ∧ dGet (.var "MT") d = some (.num (.int k.mt))

theorem HasCtrl.get {k : Ctrl} {s : WSt} (h : HasCtrl k s.cur) : getCtrl s = .ok k := by
  have hs : matScope s.cur s.outer = s.cur := by
    cases s.outer with
    | nil => rfl
    | cons u us => rw [matScope]; simp [dHas, h.1]
  unfold getCtrl
  rw [hs]
  simp only [ctrlNum, h.1, h.2.1, h.2.2, bind, Except.bind, pure, Except.pure]

theorem flat_act {k : Ctrl} {fuel : Nat} {s : WSt} (hk : HasCtrl k s.cur) {a : Act} (ha : flatB (.act a) = true) {r : ARec}
    (h : writeAct fuel s a = .ok r) : r.ctrl = k ∧ r.kind ≠ .send := by
  have hc := hk.get
  rcases a with _ | ⟨b, _, _⟩ | _ | _ | _ | _ | _ | _ | _ <;> simp only [flatB, oneAct, Bool.false_eq_true, Bool.false_and, Bool.not_true, Bool.and_false] at ha
  · simp only [writeAct, bind_ok, pure_ok, hc] at h
    obtain ⟨_, e, _, _, _, _, rfl⟩ := h
    cases e
    exact ⟨rfl, by simp⟩
  · simp only [writeAct, bind_ok, pure_ok, hc] at h
    obtain ⟨_, e, _, _, _, _, rfl⟩ := h
    cases e
    cases b <;> exact ⟨rfl, by simp⟩
  · simp only [writeAct, bind_ok, pure_ok, hc] at h
    obtain ⟨_, e, _, _, _, _, rfl⟩ := h
    cases e
    exact ⟨rfl, by simp⟩

theorem flat_iter {k : Ctrl} {f : WSt → Res WSt} {v : Name}
    (hf : ∀ {s s' : WSt}, HasCtrl k s.cur → f s = .ok s' → s'.cur = s.cur ∧ ∃ rs, s'.out = s.out ++ rs ∧ ∀ r ∈ rs, r.ctrl = k ∧ r.kind ≠ .send) :
    ∀ (is : List Int) {s s' : WSt}, HasCtrl k s.cur → iterateW (WSt.setVar v) f is s = .ok s' →
      s'.cur = s.cur ∧ ∃ rs, s'.out = s.out ++ rs ∧ ∀ r ∈ rs, r.ctrl = k ∧ r.kind ≠ .send
  | [], s, s', _, h => by cases h; exact ⟨rfl, [], by simp, by simp⟩
  | i :: is, s, s', hk, h => by
    simp only [iterateW, bind_ok] at h
    obtain ⟨s1, h1, h2⟩ := h
    obtain ⟨c1, rs, o1, g1⟩ := hf (s := s.setVar v i) hk h1
    have c1' : s1.cur = s.cur := c1
    obtain ⟨c2, rs', o2, g2⟩ := flat_iter hf is (by rw [c1']; exact hk) h2
    refine ⟨c2.trans c1', rs ++ rs', ?_, ?_⟩
    · rw [o2, o1, List.append_assoc]; rfl
    · intro r hr
      rcases List.mem_append.1 hr with hr | hr
      · exact g1 r hr
      · exact g2 r hr

theorem flat_prog {k : Ctrl} {fuel : Nat} : ∀ {p : Prog}, flatB p = true → ∀ {s s' : WSt}, HasCtrl k s.cur → writeProg fuel p s = .ok s' →
    s'.cur = s.cur ∧ ∃ rs, s'.out = s.out ++ rs ∧ ∀ r ∈ rs, r.ctrl = k ∧ r.kind ≠ .send := by
  intro p
  induction p with
  | skip => intro _ s s' _ h; cases h; exact ⟨rfl, [], by simp, by simp⟩
  | seq a b iha ihb =>
    intro hp s s' hk h
    simp only [flatB, Bool.and_eq_true] at hp
    obtain ⟨s1, h1, h2⟩ := seq_ok h
    obtain ⟨c1, rs, o1, g1⟩ := iha hp.1 hk h1
    obtain ⟨c2, rs', o2, g2⟩ := ihb hp.2 (by rw [c1]; exact hk) h2
    refine ⟨c2.trans c1, rs ++ rs', by rw [o2, o1, List.append_assoc], ?_⟩
    intro r hr
    rcases List.mem_append.1 hr with hr | hr
    · exact g1 r hr
    · exact g2 r hr
  | act a =>
    intro hp s s' hk h
    simp only [writeProg, bind_ok, pure_ok] at h
    obtain ⟨r, hr, rfl⟩ := h
    refine ⟨rfl, [r], rfl, ?_⟩
    intro r' hr'
    rw [List.mem_singleton] at hr'
    subst hr'
    exact flat_act hk hp hr
  | loop v a b body ih =>
    intro hp s s' hk h
    simp only [writeProg, bind_ok, pure_ok] at h
    obtain ⟨⟨m, n⟩, _, s1, h1, h2⟩ := h
    obtain ⟨c1, rs, o1, g1⟩ := flat_iter (fun hk h => ih hp hk h) _ hk h1
    subst h2
    refine ⟨?_, rs, ?_, g1⟩
    · split <;> exact c1
    · split <;> exact o1
  | sect => intro hp; cases hp
  | ite => intro hp; cases hp
  | abbr => intro hp; cases hp

theorem mapM_mem {α β : Type} {f : α → Res β} : ∀ {l : List α} {r : List β}, l.mapM f = .ok r → ∀ y ∈ r, ∃ x ∈ l, f x = .ok y
  | [], r, h, y, hy => by cases h; cases hy
  | a :: l, r, h, y, hy => by
    simp only [List.mapM_cons, bind_ok, pure_ok] at h
    obtain ⟨b, hb, bs, hbs, rfl⟩ := h
    rcases List.mem_cons.1 hy with rfl | hy
    · exact ⟨a, by simp, hb⟩
    · obtain ⟨x, hx, e⟩ := mapM_mem hbs y hy
      exact ⟨x, by simp [hx], e⟩

/-- MF1/MT451 written with its recipe: if the lines have the full width and nothing more, it is a section of the material -/
theorem secOk451 {x : PCtx} (hr : x.split.fields.width = x.wo.width) (hw : 9 ≤ x.wo.width) (hp : responsible x.trees 1 451 = some recipe451)
    {mat : Int} (hm0 : mat ≠ 0) (hfit : FitsCtrl mat 1 451) {u : DDic} (hmat : dGet (.var "MAT") u = some (.num (.int mat)))
    {ls : List Str} {c : Ctrl} (h : sectionLines x.fuel x.wo false 1 451 recipe451 u = .ok (ls, c))
    (hfull : ∀ l ∈ ls.dropLast, l.length = 6 * x.wo.width + 9) : SecOk (x.penned false) mat 1 451 (.data u) := by
  have hren : (x.penned false).render 1 451 u = some (.ok (ls, c)) := by
    unfold PCtx.penned
    dsimp only
    rw [hp, Option.map_some, h]
  obtain ⟨body, send, rfl, rfl, hne, hb, hs⟩ : ∃ body send, ls = body ++ [send] ∧ c = ⟨mat, 1, 451⟩ ∧ body ≠ [] ∧
      (∀ l ∈ body, ∃ a, l = a ++ writeCtrl ⟨mat, 1, 451⟩) ∧ writeSend x.wo false ⟨mat, 1, 451⟩ = .ok [send] := by
    simp only [sectionLines, bind_ok, pure_ok] at h
    obtain ⟨w, hw1, lss, hl, c', hc, he⟩ := h
    cases he
    -- the dictionary while writing
    obtain ⟨d1, s1, hcd, h1, hrm, hout⟩ : ∃ d1 s1, HasCtrl ⟨mat, 1, 451⟩ d1 ∧ writeProg x.fuel recipe451 { cur := initWork d1 } = .ok s1 ∧
        removeWork s1.cur = .ok w.cur ∧ w.out = s1.out := by
      have hd : ∀ (m : Name) (v : Val) (d0 : DDic), m ≠ "MAT" → dGet (.var "MAT") d0 = some (.num (.int mat)) →
          dGet (.var "MAT") (if dHas (.var m) d0 then d0 else dSet (.var m) v d0) = some (.num (.int mat)) := by
        intro m v d0 hm h0
        split
        · exact h0
        · rw [dGet_dSet_ne (by simpa using hm), h0]
      simp only [writeSection, bind_ok] at hw1
      obtain ⟨i1, e1, hw1⟩ := hw1
      split at hw1
      · cases hw1
      rename_i hi1
      obtain ⟨i2, e2, hw1⟩ := bind_ok.mp hw1
      split at hw1
      · cases hw1
      rename_i hi2
      simp only [bind_ok, pure_ok] at hw1
      obtain ⟨s1, h1, cur, h2, rfl⟩ := hw1
      refine ⟨_, s1, ⟨hd _ _ _ (by decide) (hd _ _ _ (by decide) hmat), ?_, ?_⟩, h1, h2, rfl⟩
      · have e1' := ctrlNum_ok e1
        rw [not_not] at hi1
        subst hi1
        have h2 : ∀ (v : Val) (d0 : DDic), dGet (.var "MF") d0 = some (.num (.int 1)) →
            dGet (.var "MF") (if dHas (.var "MT") d0 then d0 else dSet (.var "MT") v d0) = some (.num (.int 1)) := by
          intro v d0 h0
          split
          · exact h0
          · rw [dGet_dSet_ne (by simp), h0]
        exact h2 _ _ e1'
      · rw [not_not] at hi2
        subst hi2
        exact ctrlNum_ok e2
    have hci : HasCtrl ⟨mat, 1, 451⟩ (initWork d1) := by
      unfold HasCtrl
      rw [dGet_initWork, dGet_initWork, dGet_initWork]
      exact hcd
    -- the program
    obtain ⟨s4, a, h1⟩ := seq_ok h1
    obtain ⟨s5, b, h1⟩ := seq_ok h1
    obtain ⟨s6, c, h1⟩ := seq_ok h1
    obtain ⟨s7, d, e⟩ := seq_ok h1
    have hflat : ∃ rs, s7.cur = initWork d1 ∧ s7.out = rs ∧ rs ≠ [] ∧ ∀ r ∈ rs, r.ctrl = ⟨mat, 1, 451⟩ ∧ r.kind ≠ .send := by
      have hnil : s4.out ≠ [] := by
        obtain ⟨t, a1, a2⟩ := seq_ok a
        obtain ⟨_, _, o1, _⟩ := flat_prog (p := .seq _ (.seq _ _)) rfl (by rw [(flat_prog rfl hci a1).1]; exact hci) a2
        simp only [writeProg, bind_ok, pure_ok] at a1
        obtain ⟨r, _, rfl⟩ := a1
        rw [o1]
        simp
      obtain ⟨c1, r1, o1, g1⟩ := flat_prog (p := head451) rfl hci a
      obtain ⟨c2, r2, o2, g2⟩ := flat_prog (p := text451) rfl (by rw [c1]; exact hci) b
      obtain ⟨c3, r3, o3, g3⟩ := flat_prog (p := descr451) rfl (by rw [c2, c1]; exact hci) c
      obtain ⟨c4, r4, o4, g4⟩ := flat_prog (p := dir451) rfl (by rw [c3, c2, c1]; exact hci) d
      refine ⟨s7.out, by rw [c4, c3, c2, c1], rfl, ?_, ?_⟩
      · rw [o4, o3, o2]; simp [hnil]
      · rw [o4, o3, o2, o1]
        simp only [List.nil_append, List.mem_append]
        rintro r (((hr | hr) | hr) | hr)
        · exact g1 r hr
        · exact g2 r hr
        · exact g3 r hr
        · exact g4 r hr
    obtain ⟨rs, hc7, ho7, hne, hrs⟩ := hflat
    simp only [writeProg, bind_ok, pure_ok] at e
    obtain ⟨r, hrec, rfl⟩ := e
    have hr' : r = ⟨.send, [], [], ⟨mat, 1, 0⟩⟩ := by
      have := HasCtrl.get (k := ⟨mat, 1, 451⟩) (s := s7) (by rw [hc7]; exact hci)
      simp only [writeAct, this, bind_ok, pure_ok] at hrec
      obtain ⟨_, e, rfl⟩ := hrec
      cases e
      rfl
    subst hr'
    dsimp only at hout hrm
    rw [hout, ho7] at hl
    obtain ⟨l1, hl1, l2, hl2, rfl⟩ := mapM_append_ok.1 hl
    simp only [List.mapM_cons, List.mapM_nil, bind_ok, pure_ok] at hl2
    obtain ⟨sl, hsl, _, rfl, rfl⟩ := hl2
    have hsl' : writeSend x.wo false ⟨mat, 1, 451⟩ = .ok sl := hsl
    obtain ⟨send, c3, _⟩ := writtenEnd hr hw false mat 1 451 hfit (writeSend x.wo false ⟨mat, 1, 451⟩) ⟨mat, 1, 0⟩ (by simp)
    rw [hsl'] at c3
    cases c3
    refine ⟨l1.flatten, send, by simp, ?_, ?_, ?_, hsl'⟩
    · have hcw : HasCtrl ⟨mat, 1, 451⟩ w.cur := by
        rw [hc7] at hrm
        unfold removeWork at hrm
        have ha : dGet Key.abbrevs (initWork d1) = some (.names []) := by
          unfold initWork
          rw [dGet_dSet_ne (by simp), dGet_dSet_self]
        rw [ha] at hrm
        simp only [List.foldlM_nil, bind_ok, pure_ok] at hrm
        obtain ⟨_, rfl, hrm⟩ := hrm
        rw [← hrm]
        unfold HasCtrl
        rw [dGet_dDel_ne (by simp), dGet_dDel_ne (by simp), dGet_dDel_ne (by simp), dGet_dDel_ne (by simp), dGet_dDel_ne (by simp), dGet_dDel_ne (by simp)]
        exact hci
      have := hcw.get
      rw [hc] at this
      cases this
      rfl
    · obtain ⟨r0, rs', rfl⟩ := List.exists_cons_of_ne_nil hne
      simp only [List.mapM_cons, bind_ok, pure_ok] at hl1
      obtain ⟨l0, hl0, _, _, rfl⟩ := hl1
      have := (renderRec_ends (hrs r0 (by simp)).2 hl0).1
      simp [this]
    · intro l hl
      obtain ⟨y, hy, hly⟩ := List.mem_flatten.1 hl
      obtain ⟨r0, hr0, hyr⟩ := mapM_mem hl1 y hy
      obtain ⟨a, ha⟩ := (renderRec_ends (hrs r0 hr0).2 hyr).2 l hly
      exact ⟨a, by rw [ha, (hrs r0 hr0).1]⟩
  have htext : secText (x.penned false) 1 451 (.data u) = body := by
    unfold secText
    dsimp only
    rw [hren]
    dsimp only
    rw [if_pos (by decide), List.dropLast_concat]
  refine ⟨by rw [htext]; exact hne, ?_, ?_⟩
  · rw [htext]
    intro l hl
    have hlen := hfull l (by simp [hl])
    obtain ⟨a, rfl⟩ := hb l hl
    have h9 := (writeCtrl_length_iff ⟨mat, 1, 451⟩).2 hfit
    refine ⟨le_of_eq hlen.symm, ?_, ?_, hm0, by decide, by decide⟩
    · obtain ⟨z, hz1, hz2⟩ := writeCtrl_mem ⟨mat, 1, 451⟩
      exact strip_ne_of_mem (List.mem_append_right _ hz1) hz2
    · refine theReader_ctrl.2 ?_
      rw [List.length_append, h9] at hlen
      show readCtrl x.split.fields.width _ = _
      rw [hr]
      simpa using readCtrl_writeCtrl x.wo.width a (by omega) ⟨mat, 1, 451⟩ hfit []
  · obtain ⟨send', c3, c4⟩ := writtenEnd hr hw false mat 1 451 hfit (writeSend x.wo false ⟨mat, 1, 451⟩) ⟨mat, 1, 0⟩ (by simp)
    rw [hs] at c3
    cases c3
    exact ⟨body, send, hren, c4⟩

/-- all lines written for the section, except SEND, end in the last column of MT -/
def Fits451 (x : PCtx) (u : DDic) : Prop :=
  ∀ ls c, sectionLines x.fuel x.wo false 1 451 recipe451 u = .ok (ls, c) → ∀ l ∈ ls.dropLast, l.length = 6 * x.wo.width + 9

/-! ## the file with a new section MF1/MT451 -/

/-- the file as read, with new data for MF1/MT451 -/
def with451 (d : MfDic) (g : Dict Int (List Str)) (u : DDic) : Dict Int (Dict Int (SecVal DDic)) :=
  dSet 1 (dSet 451 (.data u) (linesFile g)) (linesDic d)

theorem skip451 (a b : Int) : shouldSkip a b none (some (determineInclude 1 (some 451))) = !decide (a = 1 ∧ b = 451) := by
  by_cases h1 : a = 1 <;> by_cases h2 : b = 451 <;> simp [shouldSkip, determineInclude, Sel.norm, h1, h2]

theorem read451 {x : PCtx} (hsp : x.split = { fields := x.split.fields }) {mat : Int} {lines : List Str} {d : MfDic}
    (h : Orderly x.split.fields mat lines d) {o' : PObj} {res : Dict Int (Dict Int (SecVal DDic))}
    (hp : parse x x.fresh { lines := lines, incl := some (determineInclude 1 (some 451)) } = (o', .ok res))
    {f1 : Dict Int (SecVal DDic)} (hf1 : dGet 1 res = some f1) :
    ∃ g, dGet 1 d = some g ∧ ∀ u, dSet 1 (dSet 451 (.data u) f1) res = with451 d g u := by
  unfold Verif.parse at hp
  dsimp only at hp
  rw [hsp, h.read] at hp
  dsimp only at hp
  have hal := parseMfs_along rfl hp
  have hnd := splitSections_nodup h.read
  have hsec : ∀ {a b : Int} {ls : List Str} {v : SecVal DDic}, ¬ (a = 1 ∧ b = 451) →
      parseSec x { lines := lines, incl := some (determineInclude 1 (some 451)) } x.fresh a b ls = (x.fresh, .ok v) → .verb ls = v := by
    intro a b ls v hne hv
    obtain ⟨k, _, hm⟩ := parseSec_made rfl hv
    cases v with
    | verb ls' => rw [hm.1]
    | data u =>
      obtain ⟨p, _, _, _, hs, _⟩ := hm
      dsimp only at hs
      rw [skip451, decide_eq_false hne] at hs
      cases hs
  have hfile : ∀ {a : Int} {m : Dict Int (List Str)} {q : Dict Int (SecVal DDic)}, Verif.Along (fun b ls v =>
      parseSec x { lines := lines, incl := some (determineInclude 1 (some 451)) } x.fresh a b ls = (x.fresh, .ok v)) m q →
      Verif.Along (fun b v w => ¬ (a = 1 ∧ b = 451) → v = w) (linesFile m) q := by
    intro a m q hmq
    unfold Verif.Along linesFile at *
    rw [List.forall₂_map_left_iff]
    exact hmq.imp fun _ _ hh => ⟨hh.1, fun hne => hsec hne hh.2⟩
  rcases hal.get 1 with ⟨_, g2⟩ | ⟨g, q, g1, g2, g3⟩
  · rw [hf1] at g2; cases g2
  rw [hf1] at g2
  cases g2
  refine ⟨g, g1, fun u => ?_⟩
  have e1 : dSet 451 (.data u) f1 = dSet 451 (.data u) (linesFile g) :=
    dSet_along _ (linesFile_nodup (hnd.2 1 g g1)) (by
      have := hfile g3
      unfold Verif.Along at this ⊢
      exact this.imp fun _ _ hh => ⟨hh.1, fun hne => hh.2 fun hc => hne hc.2⟩)
  rw [e1]
  refine dSet_along _ ?_ ?_
  · have h1 := hnd.1
    unfold DNodup linesDic at *
    rw [dKeys_mapv linesFile]
    exact h1
  · unfold Verif.Along linesDic at *
    rw [List.forall₂_map_left_iff]
    refine hal.imp fun p q hh => ⟨hh.1, fun hne => ?_⟩
    have := hfile hh.2
    unfold Verif.Along at this
    have h2 : List.Forall₂ (fun p q => p = q) (linesFile p.2) q.2 := this.imp fun p q h3 => Prod.ext h3.1 (h3.2 fun hc => hne hc.1)
    exact List.forall₂_eq_eq_eq ▸ h2

theorem sec451_ne {x : PCtx} (hsp : x.split = { fields := x.split.fields }) {mat : Int} {lines : List Str} {d : MfDic}
    (h : Orderly x.split.fields mat lines d) {o' : PObj} {res : Dict Int (Dict Int (SecVal DDic))}
    (hp : parse x x.fresh { lines := lines, incl := some (determineInclude 1 (some 451)) } = (o', .ok res))
    {f1 : Dict Int (SecVal DDic)} (hf1 : dGet 1 res = some f1) {v : SecVal DDic} (hv : dGet 451 f1 = some v) : secOf d 1 451 ≠ none := by
  unfold Verif.parse at hp
  dsimp only at hp
  rw [hsp, h.read] at hp
  rcases parse_val rfl hp 1 451 with ⟨_, h2⟩ | ⟨ls, _, h1, _⟩
  · unfold valOf at h2
    rw [hf1, Option.bind_some, hv] at h2
    cases h2
  · rw [h1]; simp

theorem valOf_with451 {d : MfDic} {g : Dict Int (List Str)} (hg : dGet 1 d = some g) (u : DDic) (a b : Int) :
    valOf (with451 d g u) a b = if a = 1 ∧ b = 451 then some (.data u) else (secOf d a b).map SecVal.verb := by
  unfold valOf with451
  by_cases ha : a = 1
  · subst ha
    rw [dGet_dSet_self, Option.bind_some]
    by_cases hb : b = 451
    · subst hb
      rw [dGet_dSet_self, if_pos ⟨rfl, rfl⟩]
    · rw [dGet_dSet_ne (Ne.symm hb), if_neg (fun h => hb h.2), dGet_linesFile]
      unfold secOf
      rw [hg]; rfl
  · rw [dGet_dSet_ne (Ne.symm ha), if_neg (fun h => ha h.1), ← valOf_linesDic]
    rfl

theorem writes451 {x : PCtx} (hp : responsible x.trees 1 451 = some recipe451) {r : Dict Int (Dict Int (SecVal DDic))} {out : List Str}
    (hout : writeTape (x.penned false) r = .ok out) {u : DDic} (hu : valOf r 1 451 = some (.data u)) :
    ∃ ls c, sectionLines x.fuel x.wo false 1 451 recipe451 u = .ok (ls, c) ∧ (x.penned false).render 1 451 u = some (.ok (ls, c)) := by
  obtain ⟨z, hz⟩ := writeTape_each hout hu rfl
  have hren : (x.penned false).render 1 451 u = some (sectionLines x.fuel x.wo false 1 451 recipe451 u) := by
    show (responsible x.trees 1 451).map _ = _
    rw [hp]; rfl
  unfold writeSec at hz
  dsimp only at hz
  rw [hren] at hz
  simp only [bind_ok] at hz
  obtain ⟨⟨ls, c⟩, hy, _⟩ := hz
  exact ⟨ls, c, hy, by rw [hren, hy]⟩

theorem files451 {x : PCtx} (hr : x.split.fields.width = x.wo.width) (hw : 9 ≤ x.wo.width)
    (hp : responsible x.trees 1 451 = some recipe451) {mat : Int} {lines : List Str} {d : MfDic}
    (h : Orderly x.split.fields mat lines d) {g : Dict Int (List Str)} (hg : dGet 1 d = some g) (h451 : secOf d 1 451 ≠ none)
    {u : DDic} (hmat : dGet (.var "MAT") u = some (.num (.int mat))) (hfit : Fits451 x u) {out : List Str}
    (hout : writeTape (x.penned false) (with451 d g u) = .ok out) : FilesOk (x.penned false) mat (with451 d g u) := by
  have her : (x.penned false).r.width = (x.penned false).o.width := hr
  have hval := valOf_with451 hg u
  obtain ⟨ls, c, hl, _⟩ := writes451 hp hout (by rw [hval, if_pos ⟨rfl, rfl⟩])
  obtain ⟨l0, hl0⟩ := Option.ne_none_iff_exists'.1 h451
  obtain ⟨hf, _⟩ := h.secOk (x.penned false) rfl her (by decide) hl0
  obtain ⟨_, hne, hdat⟩ := h.sec (by decide) hl0
  obtain ⟨y, ys, rfl⟩ := List.exists_cons_of_ne_nil hne
  have hm0 : mat ≠ 0 := (hdat y (by simp)).2.2.2.1
  have hsec := secOk451 hr hw hp hm0 hf hmat hl (hfit ls c hl)
  refine (h.files (x.penned false) rfl her ⟨rfl, rfl⟩).replace ⟨rfl, rfl⟩ (by decide) (dSet_nodup (linesFile_nodup ((splitSections_nodup h.read).2 1 g hg)))
    ⟨451, .data u, dGet_dSet_self ..⟩ fun mt v hv => ?_
  by_cases hb : mt = 451
  · subst hb
    rw [dGet_dSet_self] at hv
    cases hv
    exact ⟨hf, hsec⟩
  · rw [dGet_dSet_ne (Ne.symm hb), dGet_linesFile] at hv
    have hs : secOf d 1 mt = dGet mt g := by unfold secOf; rw [hg]; rfl
    cases hq : dGet mt g with
    | none => rw [hq] at hv; cases hv
    | some l =>
      rw [hq] at hv
      cases hv
      exact h.secOk (x.penned false) rfl her (by decide) (hs.trans hq)

/-- what the file looks like after its section MF1/MT451 was replaced by `u` -/
structure Renewed (x : PCtx) (d d1 : MfDic) (u : DDic) : Prop where
  text : ∃ ls c, sectionLines x.fuel x.wo false 1 451 recipe451 u = .ok (ls, c) ∧
    (secOf d1 1 451).map (cols x.wo.width) = some (cols x.wo.width ls.dropLast)
  rest : ∀ a b, ¬ (a = 1 ∧ b = 451) → (secOf d1 a b).map (cols x.wo.width) = (secOf d a b).map (cols x.wo.width)
  rows : ∀ i, (dirRow (sec451 u) i).isSome ↔ 1 ≤ i ∧ i ≤ intOf "NXC" u
  once : ∀ i j r r', dirRow (sec451 u) i = some r → dirRow (sec451 u) j = some r' → r.mf = r'.mf → r.mt = r'.mt → i = j
  dir : ∀ mf mt nc, (∃ i m, dirRow (sec451 u) i = some ⟨mf, mt, nc, m⟩) ↔
    mf ≠ 0 ∧ mt ≠ 0 ∧ ∃ ls, secOf d1 mf mt = some ls ∧ nc = (ls.length : Int)

theorem renew451 (x : PCtx) (hsp : x.split = { fields := x.split.fields }) (hr : x.split.fields.width = x.wo.width) (hw : 9 ≤ x.wo.width)
    (hp : responsible x.trees 1 451 = some recipe451) (mat : Int) (lines : List Str) (d : MfDic)
    (h : Orderly x.split.fields mat lines d) (g : Dict Int (List Str)) (hg : dGet 1 d = some g) (h451 : secOf d 1 451 ≠ none)
    (v : DDic) (hmat : dGet (.var "MAT") v = some (.num (.int mat))) (nwd : Int) (hnwd : dGet (.var "NWD") v = some (.num (.int nwd))) (h5 : 5 ≤ nwd)
    (hfit : Fits451 x v) (r1 : Dict Int (Dict Int (SecVal DDic))) (hup : updateDic x (with451 d g v) = .ok r1)
    (hfit1 : ∀ v1, valOf r1 1 451 = some (.data v1) → Fits451 x v1) (out : List Str) (hout : writeTape (x.penned false) r1 = .ok out) :
    ∃ d1 v1, splitSections { fields := x.split.fields } out = .ok d1 ∧ Renewed x d d1 v1 ∧
      ∀ n, n ∉ ["NXC", "MFx", "MTx", "NCx", "MOD"] → dGet (.var n) v1 = dGet (.var n) v := by
  set e := x.penned false with he
  have her : e.r.width = e.o.width := hr
  have hval := valOf_with451 hg v
  have hget1 : dGet 1 (with451 d g v) = some (dSet 451 (.data v) (linesFile g)) := dGet_dSet_self ..
  have hgetv : dGet 451 (dSet 451 (SecVal.data v) (linesFile g)) = some (.data v) := dGet_dSet_self ..
  unfold updateDic at hup
  rw [bind_ok] at hup
  obtain ⟨out0, ho0, hup⟩ := hup
  rw [hget1] at hup
  dsimp only at hup
  rw [hgetv] at hup
  simp only [bind_ok, pure_ok] at hup
  obtain ⟨s1, hs1, hr1⟩ := hup
  have hr1' : r1 = with451 d g (put451 s1 v) := by
    rw [← hr1]
    unfold with451
    rw [dSet_dSet, dSet_dSet]
  have hval1 := valOf_with451 hg (put451 s1 v)
  rw [← hr1'] at hval1
  have hv1 : valOf r1 1 451 = some (.data (put451 s1 v)) := by rw [hval1, if_pos ⟨rfl, rfl⟩]
  have hmat1 : dGet (.var "MAT") (put451 s1 v) = some (.num (.int mat)) := by
    unfold put451
    simp [dGet_dSet, hmat]
  have hok := files451 hr hw hp h hg h451 hmat hfit ho0
  have hok1 : FilesOk e mat r1 := by
    rw [hr1'] at hout ⊢
    exact files451 hr hw hp h hg h451 hmat1 (hfit1 _ hv1) hout
  obtain ⟨t, m0, ht1, ht2, ht3⟩ := h.tpid
  have hh : HeadOk e t (.verb [t]) := by
    have hmem : t ∈ lines := List.mem_of_mem_head? (by rw [ht1]; rfl)
    have hwid : e.o.width = x.split.fields.width := hr.symm
    refine ⟨?_, ?_, ⟨m0, ?_⟩, rfl⟩
    · rw [hwid]; exact (h.full t hmem).2
    · rw [hwid]; exact h.head t ht1
    · rw [hwid]; exact ht2
  have h0 : ∀ u, dGet 0 (with451 d g u) = some [(0, .verb [t])] := by
    intro u
    unfold with451
    rw [dGet_dSet_ne (by decide), dGet_linesDic, ht3]; rfl
  obtain ⟨out1, d1, a1, a2, _, a4, a5⟩ := C25_written_partial e her hw mat r1 hok1 t (.verb [t]) (by rw [hr1']; exact h0 _) hh rfl
  rw [hout] at a1
  cases a1
  obtain ⟨out2, d2, b1, b2, b3, b4, b5, _⟩ := C52_recipe e her hw ⟨rfl, rfl⟩ x.fuel (by
      intro u
      show (responsible x.trees 1 451).map _ = _
      rw [hp]; rfl) mat (with451 d g v) _ v hget1 hgetv hok (.inr ⟨t, .verb [t], h0 v, hh⟩) nwd hnwd h5 out0 ho0 s1
    (by rw [show ({ fields := e.r } : SplitOpts) = x.split from hsp.symm]; exact hs1) r1 hr1.symm hok1
  rw [hout] at b1
  cases b1
  have := splitSections_noTpid a2
  rw [b2] at this
  cases this
  have hs : s1.nwd = nwd ∧ s1.descr = (sec451 v).descr ∧ s1.mfx = some (s1.mfx.getD []) := by
    simp only [updateDirectory, updateDirWith, bind_ok, pure_ok] at hs1
    obtain ⟨_, _, _, _, _, _, rfl⟩ := hs1
    refine ⟨?_, rfl, rfl⟩
    simp [sec451, intOf, hnwd]
  have heq : sec451 (put451 s1 v) = s1 := by
    rw [sec451_put451]
    have h1 : intOf "NWD" v = s1.nwd := by rw [hs.1]; simp [intOf, hnwd]
    rw [h1, ← hs.2.1, ← hs.2.2]
  have hnx : intOf "NXC" (put451 s1 v) = s1.nxc := by rw [← congrArg Sec451.nxc heq]; rfl
  refine ⟨d1, put451 s1 v, a2, ⟨?_, ?_, ?_, ?_, ?_⟩, ?_⟩
  · obtain ⟨ls, c, hl, hren⟩ := writes451 hp hout hv1
    refine ⟨ls, c, hl, ?_⟩
    refine (a4 1 451 (by decide) (by decide)).trans ?_
    rw [hv1]
    dsimp only
    rw [if_neg (by simp [he, shouldSkip, PCtx.penned])]
    have : secText e 1 451 (.data (put451 s1 v)) = ls.dropLast := by
      unfold secText
      dsimp only
      rw [hren]
      dsimp only
      rw [if_pos (by decide)]
    rw [this]
    rfl
  · intro a b hab
    have hnone : ∀ {l d} {a b : Int}, splitSections { fields := x.split.fields } l = .ok d → (a = 0 ∨ b = 0) → ¬ (a = 0 ∧ b = 0) → secOf d a b = none := by
      intro l d a b h hz h0
      rcases C22_head _ _ _ h a b hz with h1 | ⟨h1, h2, _⟩
      · exact h1
      · exact absurd ⟨h1, h2⟩ h0
    by_cases hz : a = 0 ∨ b = 0
    · by_cases h00 : a = 0 ∧ b = 0
      · obtain ⟨rfl, rfl⟩ := h00
        refine a5.trans ?_
        have : secOf d 0 0 = some [t] := by unfold secOf; rw [ht3]; rfl
        rw [this]; rfl
      · rw [hnone a2 hz h00, hnone h.read hz h00]
    · push Not at hz
      refine (a4 a b hz.1 hz.2).trans ?_
      rw [hval1, if_neg hab]
      cases secOf d a b with
      | none => rfl
      | some ls => rfl
  · rw [heq, hnx]; exact b3
  · rw [heq]; exact b4
  · rw [heq]; exact b5
  · intro n hn
    simp only [List.mem_cons, List.not_mem_nil, or_false, not_or] at hn
    obtain ⟨n1, n2, n3, n4, n5⟩ := hn
    unfold put451
    rw [dGet_dSet_ne (by simpa using Ne.symm n1), dGet_dSet_ne (by simpa using Ne.symm n5), dGet_dSet_ne (by simpa using Ne.symm n4),
      dGet_dSet_ne (by simpa using Ne.symm n3), dGet_dSet_ne (by simpa using Ne.symm n2)]

/-! ## the commands -/

/-- **C100** `endf-cli update-directory` on an orderly file whose section MF1/MT451 was read, with its material number and `NWD ≥ 5`, if the
lines of the old and the new section fit in their columns and all could be written: the new file is read by the strict splitter, every other
section has the same text in the columns up to MT, the new section has the lines 1 to NXC of its directory, which list exactly the sections of
the new file, each once, with the number of lines it has there, and all other variables of the section keep their values.  Missing: that the
writing succeeds. -/
theorem C100_update_partial (x : PCtx) (hsp : x.split = { fields := x.split.fields }) (hr : x.split.fields.width = x.wo.width) (hw : 9 ≤ x.wo.width)
    (hp : responsible x.trees 1 451 = some recipe451) (mat : Int) (lines : List Str) (d : MfDic) (h : Orderly x.split.fields mat lines d)
    (o' : PObj) (res : Dict Int (Dict Int (SecVal DDic)))
    (hparse : parse x x.fresh { lines := lines, incl := some (.many [.tup [1, 451]]) } = (o', .ok res))
    (v : DDic) (hv : valOf res 1 451 = some (.data v)) (hmat : dGet (.var "MAT") v = some (.num (.int mat)))
    (nwd : Int) (hnwd : dGet (.var "NWD") v = some (.num (.int nwd))) (h5 : 5 ≤ nwd) (hfit : Fits451 x v)
    (hfit1 : ∀ r1 v1, updateDic x res = .ok r1 → valOf r1 1 451 = some (.data v1) → Fits451 x v1)
    (out : List Str) (hout : updateDirLines x lines = .ok out) :
    ∃ d1 v1, splitSections { fields := x.split.fields } out = .ok d1 ∧ Renewed x d d1 v1 ∧
      ∀ n, n ∉ ["NXC", "MFx", "MTx", "NCx", "MOD"] → dGet (.var n) v1 = dGet (.var n) v := by
  have hparse' : parse x x.fresh { lines := lines, incl := some (determineInclude 1 (some 451)) } = (o', .ok res) := hparse
  unfold updateDirLines at hout
  rw [hparse'] at hout
  simp only [bind_ok] at hout
  obtain ⟨r1, hup, hout⟩ := hout
  unfold valOf at hv
  cases hf1 : dGet 1 res with
  | none => rw [hf1] at hv; cases hv
  | some f1 =>
    rw [hf1, Option.bind_some] at hv
    obtain ⟨g, hg, hgu⟩ := read451 hsp h hparse' hf1
    have hres : with451 d g v = res := by rw [← hgu, dSet_same hv, dSet_same hf1]
    have h451 : secOf d 1 451 ≠ none := sec451_ne hsp h hparse' hf1 hv
    rw [← hres] at hup hfit1
    exact renew451 x hsp hr hw hp mat lines d h g hg h451 v hmat nwd hnwd h5 hfit r1 hup (fun v1 => hfit1 r1 v1 hup) out hout

theorem txtArr_txtVal (a : Dict Int Str) : txtArr (txtVal a) = a := by
  unfold txtVal txtArr
  induction a with
  | nil => rfl
  | cons p a ih => simp only [List.map_cons, List.filterMap_cons]; simp [ih]

/-- **C100** `endf-cli insert-text` on such a file, whose description has the non-empty lines `old`: the lines of the text are inserted after line
`n` of the description (counted from the end if negative), all lines blank-padded to 66 columns, NWD counts them together with the five fixed lines,
the directory fits the new file as for `update-directory`, and nothing else is changed.  A text with a blank last line put at the end is left out,
see C53. -/
theorem C100_insert_partial (x : PCtx) (hsp : x.split = { fields := x.split.fields }) (hr : x.split.fields.width = x.wo.width) (hw : 9 ≤ x.wo.width)
    (hp : responsible x.trees 1 451 = some recipe451) (mat : Int) (lines : List Str) (d : MfDic) (h : Orderly x.split.fields mat lines d)
    (o' : PObj) (res : Dict Int (Dict Int (SecVal DDic)))
    (hparse : parse x x.fresh { lines := lines, incl := some (.many [.tup [1, 451]]) } = (o', .ok res))
    (v : DDic) (hv : valOf res 1 451 = some (.data v)) (hmat : dGet (.var "MAT") v = some (.num (.int mat)))
    (text : Str) (after : Int) (old new : List Str) (n : Nat)
    (hn : n = if 0 ≤ after then after.toNat else (old.length + after).toNat) (hd : (sec451 v).descr = some (numberFrom 1 old))
    (hold : ∀ l ∈ old, IsLine l ∧ l ≠ []) (hnew : ∀ l ∈ new, IsLine l) (htext : splitlines text = new)
    (hlast : n < old.length ∨ new.getLast? ≠ some [])
    (hfit : ∀ r0 v0, insertDic res text after = .ok r0 → valOf r0 1 451 = some (.data v0) → Fits451 x v0)
    (hfit1 : ∀ r0 r1 v1, insertDic res text after = .ok r0 → updateDic x r0 = .ok r1 → valOf r1 1 451 = some (.data v1) → Fits451 x v1)
    (out : List Str) (hout : insertTextLines x text after lines = .ok out) :
    ∃ d1 v1, splitSections { fields := x.split.fields } out = .ok d1 ∧ Renewed x d d1 v1 ∧
      (sec451 v1).descr = some (numberFrom 1 ((old.take n ++ new ++ old.drop n).map (ljust · 66))) ∧
      dGet (.var "NWD") v1 = some (.num (.int (old.length + new.length + 5))) ∧
      ∀ m, m ∉ ["NXC", "MFx", "MTx", "NCx", "MOD", "NWD", "DESCRIPTION"] → dGet (.var m) v1 = dGet (.var m) v := by
  have hparse' : parse x x.fresh { lines := lines, incl := some (determineInclude 1 (some 451)) } = (o', .ok res) := hparse
  obtain ⟨s', hs, hs1, hs2⟩ := C53_insert_partial (sec451 v) old new after n hn hd hold hnew text htext hlast
  unfold insertTextLines at hout
  rw [hparse'] at hout
  simp only [bind_ok] at hout
  obtain ⟨r0, hr0, r1, hup, hout⟩ := hout
  unfold valOf at hv
  cases hf1 : dGet 1 res with
  | none => rw [hf1] at hv; cases hv
  | some f1 =>
    rw [hf1, Option.bind_some] at hv
    obtain ⟨g, hg, hgu⟩ := read451 hsp h hparse' hf1
    have h451 : secOf d 1 451 ≠ none := sec451_ne hsp h hparse' hf1 hv
    have hr0' : r0 = with451 d g (putDescr s' v) := by
      have h1 := hr0
      unfold insertDic at h1
      rw [hf1] at h1
      dsimp only at h1
      rw [hv] at h1
      dsimp only at h1
      rw [hs] at h1
      cases h1
      exact hgu _
    have hput : ∀ m, m ∉ ["NWD", "DESCRIPTION"] → dGet (.var m) (putDescr s' v) = dGet (.var m) v := by
      intro m hm
      simp only [List.mem_cons, List.not_mem_nil, or_false, not_or] at hm
      unfold putDescr
      rw [dGet_dSet_ne (by simpa using Ne.symm hm.2), dGet_dSet_ne (by simpa using Ne.symm hm.1)]
    have hnwd : dGet (.var "NWD") (putDescr s' v) = some (.num (.int s'.nwd)) := by
      unfold putDescr
      rw [dGet_dSet_ne (by simp), dGet_dSet_self]
    have hdes : dGet (.var "DESCRIPTION") (putDescr s' v) = some (txtVal (s'.descr.getD [])) := dGet_dSet_self ..
    have hfit0 : Fits451 x (putDescr s' v) := hfit r0 _ hr0 (by rw [hr0', valOf_with451 hg, if_pos ⟨rfl, rfl⟩])
    have hfit1' := fun v1 => hfit1 r0 r1 v1 hr0 hup
    subst hr0'
    obtain ⟨d1, v1, c1, c2, c3⟩ := renew451 x hsp hr hw hp mat lines d h g hg h451 (putDescr s' v) (by rw [hput _ (by decide)]; exact hmat)
      s'.nwd hnwd (by rw [hs2]; omega) hfit0 r1 hup hfit1' out hout
    refine ⟨d1, v1, c1, c2, ?_, ?_, fun m hm => ?_⟩
    · unfold sec451
      dsimp only
      rw [c3 _ (by decide), hdes, Option.map_some, txtArr_txtVal, hs1]
      rfl
    · rw [c3 _ (by decide), hnwd, hs2]
    · simp only [List.mem_cons, List.not_mem_nil, or_false, not_or] at hm
      rw [c3 m (by simp; tauto), hput m (by simp; tauto)]

namespace Cli451Ex

def ctx : PCtx := { trees := [(1, .byMt [(451, recipe451)])] }

/-- a file with MF1/MT451, without a directory, and a section of two lines -/
def file : List Str :=
  match writeTape (ctx.penned false) ([(0, [(0, .verb [exLine "tape" 1 0 0])]), (1, [(451, .data (Example.sec 6))]),
    (3, [(102, .verb [exLine "a" 125 3 102, exLine "b" 125 3 102])])]) with
  | .ok out => out
  | .error _ => []

def fitsB (u : DDic) : Bool :=
  match sectionLines ctx.fuel ctx.wo false 1 451 recipe451 u with
  | .ok (ls, _) => ls.dropLast.all fun l => decide (l.length = 75)
  | .error _ => true

def dataOf (r : Dict Int (Dict Int (SecVal DDic))) : DDic :=
  match valOf r 1 451 with
  | some (.data v) => v
  | _ => []

/-- material number, NWD, description and directory of a section -/
structure View where
  mat : Int
  nwd : Int
  descr : List (Int × Str)
  dir : List (Option (Int × Int × Int))
  deriving DecidableEq

def view (v : DDic) : View :=
  ⟨intOf "MAT" v, intOf "NWD" v, (sec451 v).descr.getD [], [1, 2, 3].map fun i => (dirRow (sec451 v) i).map fun r => (r.mf, r.mt, r.nc)⟩

def readB (lines : List Str) : Option View :=
  match parse ctx ctx.fresh { lines := lines, incl := some (.many [.tup [1, 451]]) } with
  | (_, .ok res) => some (view (dataOf res))
  | (_, .error _) => none

def blank66 (t : String) : Str := ljust t.toList 66

/-- `updateDirLines`, and the sections in between: all lines fit -/
def updateB : Option (List Str) :=
  match parse ctx ctx.fresh { lines := file, incl := some (.many [.tup [1, 451]]) } with
  | (_, .error _) => none
  | (_, .ok res) =>
    match updateDic ctx res with
    | .error _ => none
    | .ok r1 => if fitsB (dataOf res) && fitsB (dataOf r1) then (updateDirLines ctx file).toOption else none

def insertB (text : String) (after : Int) : Option (List Str) :=
  match parse ctx ctx.fresh { lines := file, incl := some (.many [.tup [1, 451]]) } with
  | (_, .error _) => none
  | (_, .ok res) =>
    match insertDic res text.toList after with
    | .error _ => none
    | .ok r0 =>
      match updateDic ctx r0 with
      | .error _ => none
      | .ok r1 => if fitsB (dataOf r0) && fitsB (dataOf r1) then (insertTextLines ctx text.toList after file).toOption else none

/-- the hypotheses of the two theorems are met by this file: it is orderly, the section is read with material number 125, six text lines and one
line of description; no directory yet -/
example : CliEx.orderlyB {} 125 file = true ∧ readB file = some ⟨125, 6, [(1, blank66 "about this")], [none, none, none]⟩ := by decide +kernel

/-- the new file has a directory of two lines; MF1/MT451 has twelve lines -/
example : updateB.bind readB = some ⟨125, 6, [(1, blank66 "about this")], [some (1, 451, 12), some (3, 102, 2), none]⟩ := by decide +kernel

/-- two lines of text before the line of the description -/
example : (insertB "one\ntwo" 0).bind readB = some ⟨125, 8, [(1, blank66 "one"), (2, blank66 "two"), (3, blank66 "about this")],
    [some (1, 451, 14), some (3, 102, 2), none]⟩ := by decide +kernel

end Cli451Ex

end Verif
