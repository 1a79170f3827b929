import Verif.Lemmas.SimProg
import Verif.Spec.Whole
/-
What can be written from a dictionary can be written from one that contains more.
-/
namespace Verif
open Spec

variable [Lit]

theorem Ext.num_lit (hL : Lit.on = true) {x : PyNum} {v : Val} (h : Ext (.num x) v) : v = .num x := by
  cases h with
  | refl => rfl
  | num hb _ => rw [hL] at hb; cases hb

/-- the same linear form, the constant possibly being a larger dictionary -/
structure LinExt (v v' : Lin) : Prop where
  k : v'.k = v.k
  x : v'.x = v.x
  c : Ext v.c v'.c

theorem LinExt.eq (hL : Lit.on = true) {v v' : Lin} (h : LinExt v v') {a : PyNum} (ha : v.c.scalar = .ok a) : v' = v := by
  have h1 := scalar_ok ha
  have h2 := h.c
  rw [h1] at h2
  have h3 := h2.num_lit hL
  cases v; cases v'
  obtain ⟨k, x, c⟩ := h
  simp only at *
  subst k x h3 h1
  rfl

theorem evalWith_lit (hL : Lit.on = true) {env env' : Env} {o : EvalOpts} {rec rec' : Expr → Res Lin} {P : VarRef → Prop}
    (ha : o.acceptMissing = false)
    (H : ∀ r v, P r → getVarval env o.lookUp r = .ok v → ∃ v', getVarval env' o.lookUp r = .ok v' ∧ Ext v v')
    (hrec : ∀ e v, (∀ r, Occ (bindOf env o.lookUp) r e → P r) → rec e = .ok v → ∃ v', rec' e = .ok v' ∧ LinExt v v')
    (e : Expr) (hP : ∀ r, Occ (bindOf env o.lookUp) r e → P r) {v : Lin} (h : evalWith env o rec e = .ok v) :
    ∃ v', evalWith env' o rec' e = .ok v' ∧ LinExt v v' := by
  have hvar : ∀ (r : VarRef) (e : Expr), r ∈ e.refs → (∀ r, Occ (bindOf env o.lookUp) r e → P r) → ∀ v : Lin,
      evalVar env o rec r = .ok v → ∃ v', evalVar env' o rec' r = .ok v' ∧ LinExt v v' := by
    intro r e0 hre hP v h
    rcases evalVar_cases h with ⟨e, hg, hr⟩ | ⟨u, hg, hn, rfl⟩ | ⟨ha', _⟩
    · obtain ⟨u', hu', he⟩ := H r _ (hP r (.direct hre)) hg
      have : u' = .abb e := (he.abb_iff e).1 rfl
      subst this
      obtain ⟨v', hv', hx⟩ := hrec e v (fun r' ho => hP r' (.via hre (bindOf_abb hg) ho)) hr
      exact ⟨v', by unfold evalVar; rw [hu']; simp only [hv'], hx⟩
    · obtain ⟨u', hu', he⟩ := H r _ (hP r (.direct hre)) hg
      refine ⟨⟨u', .int 0, none⟩, ?_, rfl, rfl, he⟩
      have hn' : ∀ e, u' ≠ .abb e := fun e h => hn e ((he.abb_iff e).2 h)
      unfold evalVar
      rw [hu']
      cases u' <;> first | rfl | exact absurd rfl (hn' _)
    · rw [ha] at ha'; cases ha'
  have hsame : ∀ v : Lin, LinExt v v := fun v => ⟨rfl, rfl, .refl _⟩
  induction e generalizing v with
  | num x => exact ⟨v, h, hsame v⟩
  | desired x => exact ⟨v, h, hsame v⟩
  | var r => exact hvar r (.var r) (by simp [Expr.refs]) hP v h
  | incons r => exact hvar r (.incons r) (by simp [Expr.refs]) hP v h
  | neg e ih =>
    simp only [evalWith, bind_ok] at h
    obtain ⟨v1, h1, h⟩ := h
    obtain ⟨v1', g1, x1⟩ := ih (fun r ho => hP r (ho.mono (fun _ h => h))) h1
    have hc := h
    unfold linNeg at hc
    simp only [bind_ok] at hc
    obtain ⟨a, ha, _⟩ := hc
    rw [x1.eq hL ha] at g1
    exact ⟨v, by simp only [evalWith, g1, bind, Except.bind]; exact h, hsame v⟩
  | add a b i1 i2 =>
    simp only [evalWith, bind_ok] at h
    obtain ⟨v1, h1, v2, h2, h⟩ := h
    obtain ⟨v1', g1, x1⟩ := i1 (fun r ho => hP r (ho.mono (fun _ h => List.mem_append_left _ h))) h1
    obtain ⟨v2', g2, x2⟩ := i2 (fun r ho => hP r (ho.mono (fun _ h => List.mem_append_right _ h))) h2
    have hc := h
    unfold linAddSub at hc
    split at hc
    · cases hc
    simp only [bind_ok] at hc
    obtain ⟨a, ha, b, hb, _⟩ := hc
    rw [x1.eq hL ha] at g1
    rw [x2.eq hL hb] at g2
    exact ⟨v, by simp only [evalWith, g1, g2, bind, Except.bind]; exact h, hsame v⟩
  | sub a b i1 i2 =>
    simp only [evalWith, bind_ok] at h
    obtain ⟨v1, h1, v2, h2, h⟩ := h
    obtain ⟨v1', g1, x1⟩ := i1 (fun r ho => hP r (ho.mono (fun _ h => List.mem_append_left _ h))) h1
    obtain ⟨v2', g2, x2⟩ := i2 (fun r ho => hP r (ho.mono (fun _ h => List.mem_append_right _ h))) h2
    have hc := h
    unfold linAddSub at hc
    split at hc
    · cases hc
    simp only [bind_ok] at hc
    obtain ⟨a, ha, b, hb, _⟩ := hc
    rw [x1.eq hL ha] at g1
    rw [x2.eq hL hb] at g2
    exact ⟨v, by simp only [evalWith, g1, g2, bind, Except.bind]; exact h, hsame v⟩
  | mul a b i1 i2 =>
    simp only [evalWith, bind_ok] at h
    obtain ⟨v1, h1, v2, h2, h⟩ := h
    obtain ⟨v1', g1, x1⟩ := i1 (fun r ho => hP r (ho.mono (fun _ h => List.mem_append_left _ h))) h1
    obtain ⟨v2', g2, x2⟩ := i2 (fun r ho => hP r (ho.mono (fun _ h => List.mem_append_right _ h))) h2
    have hc : (∃ a, v1.c.scalar = .ok a) ∧ ∃ b, v2.c.scalar = .ok b := by
      have hc := h
      unfold linMul at hc
      split at hc
      · cases hc
      split at hc
      · simp only [bind_ok] at hc
        obtain ⟨a, ha, b, hb, _⟩ := hc
        exact ⟨⟨_, ha⟩, _, hb⟩
      · simp only [bind_ok] at hc
        obtain ⟨a, ha, b, hb, _⟩ := hc
        exact ⟨⟨_, ha⟩, _, hb⟩
    obtain ⟨⟨a, ha⟩, b, hb⟩ := hc
    rw [x1.eq hL ha] at g1
    rw [x2.eq hL hb] at g2
    exact ⟨v, by simp only [evalWith, g1, g2, bind, Except.bind]; exact h, hsame v⟩
  | div a b i1 i2 =>
    simp only [evalWith, bind_ok] at h
    obtain ⟨v1, h1, v2, h2, h⟩ := h
    obtain ⟨v1', g1, x1⟩ := i1 (fun r ho => hP r (ho.mono (fun _ h => List.mem_append_left _ h))) h1
    obtain ⟨v2', g2, x2⟩ := i2 (fun r ho => hP r (ho.mono (fun _ h => List.mem_append_right _ h))) h2
    have hc := h
    unfold linDiv at hc
    split at hc
    · cases hc
    simp only [bind_ok] at hc
    obtain ⟨a, ha, b, hb, _⟩ := hc
    rw [x1.eq hL ha] at g1
    rw [x2.eq hL hb] at g2
    exact ⟨v, by simp only [evalWith, g1, g2, bind, Except.bind]; exact h, hsame v⟩
  | mod a b i1 i2 =>
    simp only [evalWith, bind_ok] at h
    obtain ⟨v1, h1, v2, h2, h⟩ := h
    obtain ⟨v1', g1, x1⟩ := i1 (fun r ho => hP r (ho.mono (fun _ h => List.mem_append_left _ h))) h1
    obtain ⟨v2', g2, x2⟩ := i2 (fun r ho => hP r (ho.mono (fun _ h => List.mem_append_right _ h))) h2
    have hc := h
    unfold linMod at hc
    split at hc
    · cases hc
    simp only [bind_ok] at hc
    obtain ⟨a, ha, b, hb, _⟩ := hc
    rw [x1.eq hL ha] at g1
    rw [x2.eq hL hb] at g2
    exact ⟨v, by simp only [evalWith, g1, g2, bind, Except.bind]; exact h, hsame v⟩

theorem evalExpr_lit (hL : Lit.on = true) {fuel fuel' : Nat} (hf : fuel ≤ fuel') {env env' : Env} {o : EvalOpts} {P : VarRef → Prop}
    (ha : o.acceptMissing = false)
    (H : ∀ r v, P r → getVarval env o.lookUp r = .ok v → ∃ v', getVarval env' o.lookUp r = .ok v' ∧ Ext v v')
    (e : Expr) (hP : ∀ r, Occ (bindOf env o.lookUp) r e → P r) {v : Lin} (h : evalExpr fuel env o e = .ok v) :
    ∃ v', evalExpr fuel' env' o e = .ok v' ∧ LinExt v v' := by
  induction fuel generalizing fuel' e v with
  | zero =>
    have : ∀ rec', ∃ v', evalWith env' o rec' e = .ok v' ∧ LinExt v v' := fun rec' =>
      evalWith_lit hL (rec := fun _ => .error .recursion) (rec' := rec') ha H (fun _ _ _ h => by cases h) e hP h
    cases fuel' with
    | zero => exact this _
    | succ n => exact this _
  | succ n ih =>
    cases fuel' with
    | zero => omega
    | succ n' =>
      exact evalWith_lit hL (rec := evalExpr n env o) (rec' := evalExpr n' env' o) ha H
        (fun e v hP h => ih (by omega) e hP h) e hP h

/-! ## a writing state beside one with less in it -/

theorem Here.free {A N V : List Name} {top d w D : DDic} {L : List Level} (h : Here A N top d w D L) (hV : Unused V top)
    {n : Name} (hn : n ∈ V) (hd : dHas (.var n) d = false) : dHas (.var n) w = false := by
  by_contra hw
  rw [Bool.not_eq_false] at hw
  obtain ⟨v, hv⟩ := dHas_some.1 hw
  rcases h.lev.split n v hv with ⟨e, rfl⟩ | hD
  · rw [dHas_some.2 ⟨_, (h.lev.sync n e).2 hv⟩] at hd; cases hd
  · obtain ⟨ch, hch, _⟩ := h.out.nest
    have := hV ch D hch n hn
    rw [dHas_some.2 ⟨_, hD⟩] at this; cases this

theorem Here.get {A N V : List Name} {top d w D : DDic} {L : List Level} (h : Here A N top d w D L) (hV : Unused V top)
    {lv : Dict Name Int} (hlv : ∀ n, dHas n lv = true → n ∈ V) {look : Bool} {r : VarRef} (hr : look = true → r.name ∈ N) {v : Val}
    (h1 : getVarval ⟨d, L.map Level.d, lv⟩ look r = .ok v) :
    ∃ v', getVarval ⟨w, L.map Level.w, lv⟩ look r = .ok v' ∧ Ext v v' := by
  have hno : dHas r.name lv = true → dHas (.var r.name) w = false := by
    intro hl
    refine h.free hV (hlv _ hl) ?_
    by_contra hd
    rw [Bool.not_eq_false] at hd
    unfold getVarval at h1
    rw [hd, hl] at h1
    simp at h1
  cases look with
  | true =>
    refine h.found_of (hr rfl) (fun hc => ?_) h1
    rw [Bool.and_eq_true] at hc
    rw [hno hc.2] at hc
    cases hc.1
  | false =>
    cases hl : dGet r.name lv with
    | none => exact (h.lev.cover h.hold).found hl h1
    | some i =>
      have h2 := hno (dHas_some.2 ⟨_, hl⟩)
      rw [getVarval_local] at h1 ⊢
      rw [h2]
      split at h1
      · cases h1
      simp only [hl, Except.ok.injEq] at h1
      simp only [hl, Bool.false_and, Bool.false_eq_true, if_false]
      exact ⟨_, rfl, h1 ▸ .refl _⟩

theorem Here.eval (hL : Lit.on = true) {A N V : List Name} {top d w D : DDic} {L : List Level} (h : Here A N top d w D L) (hV : Unused V top)
    {lv : Dict Name Int} (hlv : ∀ n, dHas n lv = true → n ∈ V) {look ci : Bool} {e : Expr} (he : look = true → ∀ n ∈ exprNames e, n ∈ N)
    {fuel fuel' : Nat} (hf : fuel ≤ fuel') {v : Val} (h1 : evalKnown fuel ⟨d, L.map Level.d, lv⟩ look ci e = .ok v) :
    ∃ v', evalKnown fuel' ⟨w, L.map Level.w, lv⟩ look ci e = .ok v' ∧ Ext v v' := by
  unfold evalKnown at h1 ⊢
  simp only [bind_ok, pure_ok] at h1
  obtain ⟨l, hl, rfl⟩ := h1
  obtain ⟨l', hl', hx⟩ := evalExpr_lit hL hf (o := ⟨look, ci, false⟩) (P := fun r => look = true → r.name ∈ N) rfl
    (fun r v hr hg => h.get hV hlv hr hg) e (fun r ho hlk => by
      subst hlk; exact h.closed (he rfl) ho) hl
  exact ⟨l'.c, by simp only [bind_ok, pure_ok]; exact ⟨l', hl', rfl⟩, hx.c⟩

theorem Here.loop (hL : Lit.on = true) {A N V : List Name} {top d w D : DDic} {L : List Level} (h : Here A N top d w D L) (hV : Unused V top)
    {lv : Dict Name Int} (hlv : ∀ n, dHas n lv = true → n ∈ V) {v : Name} {a b : Expr} (ha : ∀ n ∈ exprNames a, n ∈ N)
    (hb : ∀ n ∈ exprNames b, n ∈ N) {fuel fuel' : Nat} (hf : fuel ≤ fuel') {xy : Int × Int}
    (h1 : Verif.loopHead fuel ⟨d, L.map Level.d, lv⟩ v a b = .ok xy) : Verif.loopHead fuel' ⟨w, L.map Level.w, lv⟩ v a b = .ok xy := by
  unfold Verif.loopHead at h1 ⊢
  simp only [bind_ok] at h1 ⊢
  obtain ⟨v1, e1, v2, e2, i1, b1, i2, b2, h1⟩ := h1
  obtain ⟨p1, rfl, q1⟩ := loopBound_num b1
  obtain ⟨p2, rfl, q2⟩ := loopBound_num b2
  obtain ⟨v1', f1, x1⟩ := h.eval hL hV hlv (fun _ => ha) hf e1
  obtain ⟨v2', f2, x2⟩ := h.eval hL hV hlv (fun _ => hb) hf e2
  rw [x1.num_lit hL] at f1
  rw [x2.num_lit hL] at f2
  exact ⟨_, f1, _, f2, i1, b1, i2, b2, h1⟩

theorem Here.decide (hL : Lit.on = true) {A N V : List Name} {top d w D : DDic} {L : List Level} (h : Here A N top d w D L) (hV : Unused V top)
    {lv : Dict Name Int} (hlv : ∀ n, dHas n lv = true → n ∈ V) {q : Cond} (hq : ∀ n ∈ condNames q, n ∈ N)
    {fuel fuel' : Nat} (hf : fuel ≤ fuel') {t : Bool} (hd : Decided fuel ⟨d, L.map Level.d, lv⟩ q)
    (h1 : evalCond fuel ⟨d, L.map Level.d, lv⟩ q = .ok t) : evalCond fuel' ⟨w, L.map Level.w, lv⟩ q = .ok t := by
  induction q generalizing t with
  | cmp r a b =>
    have ha : ∀ n ∈ exprNames a, n ∈ N := fun n hn => hq n (List.mem_append_left _ hn)
    have hb : ∀ n ∈ exprNames b, n ∈ N := fun n hn => hq n (List.mem_append_right _ hn)
    obtain ⟨x, y, hx, hy⟩ := hd
    simp only [evalCond, hx, hy, bind, Except.bind, pure, Except.pure] at h1
    obtain ⟨p, q, rfl, rfl⟩ := relHolds_num h1
    obtain ⟨v1', f1, x1⟩ := h.eval hL hV hlv (fun _ => ha) hf hx
    obtain ⟨v2', f2, x2⟩ := h.eval hL hV hlv (fun _ => hb) hf hy
    rw [x1.num_lit hL] at f1
    rw [x2.num_lit hL] at f2
    simp only [evalCond, f1, f2, bind, Except.bind, pure, Except.pure]
    exact h1
  | and a b i1 i2 =>
    have ha : ∀ n ∈ condNames a, n ∈ N := fun n hn => hq n (List.mem_append_left _ hn)
    have hb : ∀ n ∈ condNames b, n ∈ N := fun n hn => hq n (List.mem_append_right _ hn)
    simp only [evalCond, bind_ok] at h1 ⊢
    obtain ⟨t1, e1, h1⟩ := h1
    refine ⟨t1, i1 ha hd.1 e1, ?_⟩
    cases t1 with
    | false => exact h1
    | true =>
      simp only [Bool.true_eq_false, if_false] at h1 ⊢
      exact i2 hb (hd.2 e1) h1
  | or a b i1 i2 =>
    have ha : ∀ n ∈ condNames a, n ∈ N := fun n hn => hq n (List.mem_append_left _ hn)
    have hb : ∀ n ∈ condNames b, n ∈ N := fun n hn => hq n (List.mem_append_right _ hn)
    simp only [evalCond, bind_ok] at h1 ⊢
    obtain ⟨t1, e1, h1⟩ := h1
    refine ⟨t1, i1 ha hd.1 e1, ?_⟩
    cases t1 with
    | true => exact h1
    | false =>
      simp only [Bool.false_eq_true, if_false] at h1 ⊢
      exact i2 hb (hd.2 e1) h1

/-- `s` has less than `w`; `V` are names of loop variables, which are not names of data -/
structure Less (A N : List Name) (top : DDic) (s w : WSt) (D : DDic) (L : List Level) : Prop where
  here : Here A N top s.cur w.cur D L
  so : s.outer = L.map Level.d
  wo : w.outer = L.map Level.w
  lv : w.lv = s.lv

/-! ## control numbers -/

theorem matScope_rel {A N : List Name} {m : Int} (L : List Level) {l : Level}
    (hrel : ∀ x ∈ l :: L, Lev A N x.d x.w x.D ∧ Hold x.d x.D)
    (h : dGet (.var "MAT") (matScope l.d (L.map Level.d)) = some (.num (.int m))) :
    ∃ z ∈ l :: L, matScope l.w (L.map Level.w) = z.w ∧ dHas (.var "MAT") z.D = true := by
  obtain ⟨hl, hh⟩ := hrel l (by simp)
  have key : dGet (.var "MAT") l.d = some (.num (.int m)) → dHas (.var "MAT") l.D = true := by
    intro h
    obtain ⟨v', hv', _⟩ := hh _ _ h (by simp)
    exact dHas_some.2 ⟨_, hv'⟩
  cases L with
  | nil =>
    simp only [List.map_nil, matScope] at h ⊢
    exact ⟨l, by simp, rfl, key h⟩
  | cons u L =>
    simp only [List.map_cons, matScope] at h ⊢
    by_cases hw : dHas (.var "MAT") l.w = true
    · refine ⟨l, by simp, by simp [hw], ?_⟩
      obtain ⟨v, hv⟩ := dHas_some.1 hw
      rcases hl.split _ _ hv with ⟨e, rfl⟩ | hD
      · have hd := (hl.sync _ _).2 hv
        have hd' : dHas (.var "MAT") l.d = true := dHas_some.2 ⟨_, hd⟩
        rw [hd'] at h
        simp only [Bool.not_true, Bool.false_and, Bool.false_eq_true, if_false] at h
        exact key h
      · exact dHas_some.2 ⟨_, hD⟩
    · have hd : ¬ dHas (.var "MAT") l.d = true := fun hd => hw (hl.has hh hd).1
      rw [Bool.not_eq_true] at hw hd
      rw [hd] at h
      rw [hw]
      by_cases hu : dHas .up l.d = true
      · have hu' := hu
        rw [hl.up] at hu'
        rw [hu] at h
        rw [hu']
        simp only [Bool.not_false, Bool.true_and, if_true] at h ⊢
        obtain ⟨z, hz, h1, h2⟩ := matScope_rel L (fun x hx => hrel x (List.mem_cons_of_mem _ hx)) h
        exact ⟨z, List.mem_cons_of_mem _ hz, h1, h2⟩
      · rw [Bool.not_eq_true] at hu
        rw [hu] at h
        simp only [Bool.and_false, Bool.false_eq_true, if_false] at h
        rw [dHas_none.1 hd] at h; cases h

theorem Less.ctrl (hL : Lit.on = true) {A N : List Name} {k c : Ctrl} {top D : DDic} {s w : WSt} {L : List Level}
    (h : Less A N top s w D L) (hC : CtrlAll k top) (hc : getCtrl s = .ok c) : c = k ∧ getCtrl w = .ok k := by
  unfold getCtrl at hc ⊢
  simp only [bind_ok, pure_ok] at hc
  obtain ⟨m1, h1, m2, h2, m3, h3, rfl⟩ := hc
  have e1 := ctrlNum_ok h1
  have e2 := ctrlNum_ok h2
  have e3 := ctrlNum_ok h3
  rw [h.so] at e1 e2 e3
  obtain ⟨z, hz, hz1, hz2⟩ := matScope_rel L (l := ⟨s.cur, w.cur, D⟩) h.here.rel e1
  constructor
  · have hm := matScope_mem s.cur (L.map Level.d)
    generalize matScope s.cur (L.map Level.d) = x at hm e1 e2 e3
    have : ∃ z ∈ (⟨s.cur, w.cur, D⟩ : Level) :: L, z.d = x := by
      have h2 : x ∈ ((⟨s.cur, w.cur, D⟩ : Level) :: L).map Level.d := hm
      rw [List.mem_map] at h2; exact h2
    obtain ⟨z, hz, rfl⟩ := this
    obtain ⟨_, g2⟩ := h.here.rel z hz
    obtain ⟨ch, hch⟩ := h.here.nested z hz
    obtain ⟨v1, f1, x1⟩ := g2 _ _ e1 (by simp)
    obtain ⟨v2, f2, x2⟩ := g2 _ _ e2 (by simp)
    obtain ⟨v3, f3, x3⟩ := g2 _ _ e3 (by simp)
    rw [x1.num_lit hL] at f1
    rw [x2.num_lit hL] at f2
    rw [x3.num_lit hL] at f3
    obtain ⟨k1, k2, k3⟩ := hC ch z.D hch (dHas_some.2 ⟨_, f1⟩)
    rw [k1] at f1; rw [k2] at f2; rw [k3] at f3
    cases f1; cases f2; cases f3; rfl
  · obtain ⟨g1, _⟩ := h.here.rel z hz
    obtain ⟨ch, hch⟩ := h.here.nested z hz
    obtain ⟨k1, k2, k3⟩ := hC ch z.D hch hz2
    rw [h.wo]
    simp only at hz1
    rw [hz1]
    simp only [ctrlNum, (g1.sub _ _ k1).1, (g1.sub _ _ k2).1, (g1.sub _ _ k3).1, bind, Except.bind, pure, Except.pure]

/-! ## records -/

theorem Less.fields (hL : Lit.on = true) {A N V : List Name} {top D : DDic} {s w : WSt} {L : List Level}
    (h : Less A N top s w D L) (hV : Unused V top) (hlv : ∀ n, dHas n s.lv = true → n ∈ V) {fuel fuel' : Nat} (hf : fuel ≤ fuel')
    {es : List Expr} {out : List Val} (h1 : mapWrite fuel s.env es = .ok out) : ∃ out', mapWrite fuel' w.env es = .ok out' := by
  unfold mapWrite at h1 ⊢
  induction es generalizing out with
  | nil => exact ⟨[], rfl⟩
  | cons e es ih =>
    simp only [List.mapM_cons, bind_ok, pure_ok] at h1 ⊢
    obtain ⟨v, hv, vs, hvs, rfl⟩ := h1
    rw [WSt.env, h.so] at hv
    obtain ⟨v', hv', _⟩ := h.here.eval hL hV hlv (by simp) hf hv
    obtain ⟨out', ho⟩ := ih hvs
    refine ⟨_, v', ?_, out', ho, rfl⟩
    rw [WSt.env, h.wo, h.lv]; exact hv'

theorem getArr_subDicW {v : Val} {is : List Int} {d : DDic} (h : getArr v is = .ok (.dic d)) : subDicW (some v) is = .ok d := by
  induction is generalizing v with
  | nil =>
    have : v = .dic d := by cases v <;> simp only [getArr, Except.ok.injEq] at h <;> exact h
    subst this; rfl
  | cons i is ih =>
    cases v with
    | dic d' =>
      simp only [getArr] at h
      simp only [subDicW]
      cases hg : dGet (Key.idx i) d' with
      | none => rw [hg] at h; cases h
      | some u => rw [hg] at h; exact ih h
    | _ => simp [getArr] at h

theorem Less.enter {A N : List Name} {top D : DDic} {s s1 w : WSt} {L : List Level} {a : Bool}
    (h : Less A N top s w D L) (hl : Lvl a s.cur) {r : VarRef} (h1 : openW s r = .ok s1) :
    ∃ w1 dW, openW w r = .ok w1 ∧ s1.lv = s.lv ∧ Less A N top s1 w1 dW (⟨s.cur, w.cur, D⟩ :: L) := by
  obtain ⟨is, d, hi, hd, rfl⟩ := openW_ok h1
  have hc : Clean (.dic d) := subDicW_clean (fun d' hd' => hl.dic_clean hd') hd
  cases hv : dGet (.var r.name) s.cur with
  | none => rw [hv] at hd; simp [subDicW] at hd
  | some v =>
    rw [hv] at hd
    have hg := subDicW_getArr hd
    have hna : ∀ e, v ≠ .abb e := by
      rintro e rfl
      cases is with
      | nil => simp [subDicW] at hd
      | cons => simp [subDicW] at hd
    obtain ⟨v', hv', hext⟩ := h.here.hold _ _ hv hna
    obtain ⟨y, hy, hye⟩ := hext.getArr hg
    obtain ⟨dW, rfl⟩ := hye.dic_inv
    obtain ⟨hwv, hvc⟩ := h.here.lev.sub _ _ hv'
    have hcW : Clean (.dic dW) := getArr_clean hvc hy
    refine ⟨{ w with cur := dSet .up .mark dW, ups := (w.cur, r.name, is) :: w.ups }, dW, ?_, rfl, ⟨h.here.all, ?_, Lev.fresh hc hcW, ?_⟩, ?_, ?_, h.lv⟩
    · unfold openW
      rw [dHas_some.2 ⟨_, hwv⟩, h.lv, hi, hwv]
      simp only [Bool.not_true, Bool.false_eq_true, if_false, bind, Except.bind, getArr_subDicW hy, pure, Except.pure]
    · obtain ⟨ch, n1, n2⟩ := h.here.out.nest
      obtain ⟨ch', n3, n4⟩ := Nested.into n1 hv' hy
      refine ⟨⟨ch', n3, ?_⟩, ?_, ?_, ?_⟩
      · intro x hx
        rcases List.mem_cons.1 hx with rfl | hx
        · exact n4 _ (by simp)
        · exact n4 _ (List.mem_cons_of_mem _ (n2 x hx))
      · intro x hx
        rcases List.mem_cons.1 hx with rfl | hx
        · exact ⟨ch, n1⟩
        · exact h.here.out.inner x hx
      · intro x hx
        rcases List.mem_cons.1 hx with rfl | hx
        · exact ⟨h.here.lev, h.here.hold⟩
        · exact h.here.out.rel x hx
      · exact List.Pairwise.cons (fun x hx n hn hd => h.here.out.push h.here.all n hn hd x hx) h.here.out.apart
    · intro n u hu _
      dsimp only at hu
      rw [dGet_dSet_ne (by simp)] at hu
      exact hye.get hu
    · show s.cur :: s.outer = _
      rw [h.so]; rfl
    · show w.cur :: w.outer = _
      rw [h.wo]; rfl

theorem Less.table (hL : Lit.on = true) {A N V : List Name} {top D : DDic} {s w : WSt} {L : List Level} {a : Bool}
    (h : Less A N top s w D L) (hl : Lvl a s.cur) (hV : Unused V top) (hlv : ∀ n, dHas n s.lv = true → n ∈ V) {fuel fuel' : Nat}
    (hf : fuel ≤ fuel') {es : List Expr} {name : Option VarRef} {out : List Val}
    (h1 : inTableW name s (fun s1 => mapWrite fuel s1.env es) = .ok out) :
    ∃ out', inTableW name w (fun s1 => mapWrite fuel' s1.env es) = .ok out' := by
  cases name with
  | none => exact h.fields hL hV hlv hf h1
  | some r =>
    simp only [inTableW, bind_ok] at h1 ⊢
    obtain ⟨s1, ho, h1⟩ := h1
    obtain ⟨w1, dW, hw, he, hi⟩ := h.enter hl ho
    obtain ⟨out', hout⟩ := hi.fields hL hV (by rw [he]; exact hlv) hf h1
    exact ⟨out', w1, hw, hout⟩

/-! ## list bodies -/

theorem dHas_dSet_lv {v n : Name} {i : Int} {lv : Dict Name Int} (h : dHas n (dSet v i lv) = true) : n = v ∨ dHas n lv = true := by
  by_cases hv : v = n
  · exact .inl hv.symm
  · right; unfold dHas at h ⊢; rwa [dGet_dSet_ne hv] at h

theorem dDel_get {κ α : Type} [DecidableEq κ] {k k' : κ} {v : α} {d : Dict κ α} (h : dGet k (dDel k' d) = some v) :
    ∃ v', dGet k d = some v' := by
  induction d with
  | nil => cases h
  | cons p d ih =>
    obtain ⟨a, b⟩ := p
    simp only [dDel] at h
    split at h
    · simp only [dGet]
      split
      · exact ⟨_, rfl⟩
      · exact ⟨_, h⟩
    · simp only [dGet] at h ⊢
      split
      · exact ⟨_, rfl⟩
      · rename_i hne
        rw [if_neg hne] at h
        exact ih h

theorem writeBody_lv {fuel : Nat} {s : WSt} {b : LBody} {l l' : WLSt} (h : writeBody fuel s b l = .ok l') (V : Name → Prop)
    (hv : ∀ n, dHas n l.lv = true → V n) (hb : ∀ n ∈ bodyLoops b, V n) : ∀ n, dHas n l'.lv = true → V n := by
  induction b generalizing l l' with
  | nil => cases h; exact hv
  | seq a b i1 i2 =>
    simp only [writeBody, bind_ok] at h
    obtain ⟨l1, h1, h2⟩ := h
    exact i2 h2 (i1 h1 hv (fun n hn => hb n (List.mem_append_left _ hn))) (fun n hn => hb n (List.mem_append_right _ hn))
  | expr e =>
    simp only [writeBody, bind_ok, pure_ok] at h
    obtain ⟨_, _, _, _, rfl⟩ := h
    exact hv
  | pad => simp only [writeBody, Except.ok.injEq] at h; subst h; exact hv
  | loop v a b body ih =>
    simp only [writeBody, bind_ok, pure_ok] at h
    obtain ⟨⟨x, y⟩, _, l1, h2, rfl⟩ := h
    have hbody : ∀ n ∈ bodyLoops body, V n := fun n hn => hb n (List.mem_cons_of_mem _ hn)
    have hvv : V v := hb v (by simp [bodyLoops])
    have : ∀ is (l l1 : WLSt), (∀ n, dHas n l.lv = true → V n) → iterateW (WLSt.setVar v) (writeBody fuel s body) is l = .ok l1 →
        ∀ n, dHas n l1.lv = true → V n := by
      intro is
      induction is with
      | nil => intro l l1 hl h; cases h; exact hl
      | cons i is ihi =>
        intro l l1 hl h
        rw [iterateW, bind_ok] at h
        obtain ⟨l2, h1, h2⟩ := h
        refine ihi _ _ (ih h1 ?_ hbody) h2
        intro n hn
        rcases dHas_dSet_lv hn with rfl | hn
        · exact hvv
        · exact hl n hn
    have h3 := this _ _ _ hv h2
    intro n hn
    split at hn
    · refine h3 n ?_
      obtain ⟨x, hx⟩ := dHas_some.1 hn
      obtain ⟨x', hx'⟩ := dDel_get hx
      exact dHas_some.2 ⟨_, hx'⟩
    · exact h3 n hn

theorem Less.body (hL : Lit.on = true) {A N V : List Name} {top D : DDic} {s w : WSt} {L : List Level}
    (h : Less A N top s w D L) (hV : Unused V top) {fuel fuel' : Nat} (hf : fuel ≤ fuel') {b : LBody}
    (hN : ∀ n ∈ bodyNames b, n ∈ N) (hb : ∀ n ∈ bodyLoops b, n ∈ V) {l l' : WLSt} (hlv : ∀ n, dHas n l.lv = true → n ∈ V)
    (h1 : writeBody fuel s b l = .ok l') : writeBody fuel' w b l = .ok l' := by
  induction b generalizing l l' with
  | nil => exact h1
  | seq a b i1 i2 =>
    simp only [writeBody, bind_ok] at h1 ⊢
    obtain ⟨l1, h1, h2⟩ := h1
    have ha : ∀ n ∈ bodyLoops a, n ∈ V := fun n hn => hb n (List.mem_append_left _ hn)
    exact ⟨l1, i1 (fun n hn => hN n (List.mem_append_left _ hn)) ha hlv h1,
      i2 (fun n hn => hN n (List.mem_append_right _ hn)) (fun n hn => hb n (List.mem_append_right _ hn))
        (writeBody_lv h1 (· ∈ V) hlv ha) h2⟩
  | expr e =>
    simp only [writeBody, bind_ok, pure_ok] at h1 ⊢
    obtain ⟨v, hv, x, hx, rfl⟩ := h1
    rw [h.so] at hv
    obtain ⟨v', hv', hext⟩ := h.here.eval hL hV hlv (by simp) hf hv
    rw [scalar_ok hx] at hext
    rw [hext.num_lit hL] at hv'
    exact ⟨_, by rw [h.wo]; exact hv', x, rfl, rfl⟩
  | pad => exact h1
  | loop v a b body ih =>
    simp only [writeBody, bind_ok, pure_ok] at h1 ⊢
    obtain ⟨⟨x, y⟩, hh, l1, h2, rfl⟩ := h1
    rw [h.so] at hh
    have hbody : ∀ n ∈ bodyLoops body, n ∈ V := fun n hn => hb n (List.mem_cons_of_mem _ hn)
    refine ⟨(x, y), ?_, l1, ?_, rfl⟩
    · rw [h.wo]
      exact h.here.loop hL hV hlv (fun n hn => hN n (by simp [bodyNames, hn])) (fun n hn => hN n (by simp [bodyNames, hn])) hf hh
    · clear hh
      revert h2
      generalize intRange x y = is
      intro h2
      induction is generalizing l with
      | nil => exact h2
      | cons i is ihi =>
        rw [iterateW, bind_ok] at h2 ⊢
        obtain ⟨l2, h1, h2⟩ := h2
        have hl' : ∀ n, dHas n (WLSt.setVar v i l).lv = true → n ∈ V := by
          intro n hn
          rcases dHas_dSet_lv hn with rfl | hn
          · exact hb n (by simp [bodyLoops])
          · exact hlv n hn
        exact ⟨l2, ih (fun n hn => hN n (by simp [bodyNames, hn])) hbody hl' h1,
          ihi (writeBody_lv h1 (· ∈ V) hl' hbody) h2⟩

/-! ## text -/

theorem getVarval_here {d : DDic} {ups : List DDic} {lv : Dict Name Int} {r : VarRef} (hd : dHas (.var r.name) d = true) :
    getVarval ⟨d, ups, lv⟩ true r = getVarval ⟨d, ups, lv⟩ false r := by
  have e : ∀ l, findScope l r.name d ups = some d := by
    intro l
    cases ups with
    | nil => rw [findScope, if_pos hd]
    | cons => rw [findScope, if_pos hd]
  unfold getVarval
  simp only [e]

theorem Less.text (hL : Lit.on = true) {A N V : List Name} {top D : DDic} {s w : WSt} {L : List Level}
    (h : Less A N top s w D L) (hV : Unused V top) (hlv : ∀ n, dHas n s.lv = true → n ∈ V) {fuel fuel' : Nat} (hf : fuel ≤ fuel')
    {fs : List TextField} (hfs : ∀ f ∈ fs, ∀ r, f.ref = some r → dHas (.var r.name) s.cur = true) {t : Str}
    (h1 : mapTextWrite fuel s.env fs = .ok t) : mapTextWrite fuel' w.env fs = .ok t := by
  induction fs generalizing t with
  | nil => exact h1
  | cons f fs ih =>
    simp only [mapTextWrite, bind_ok, pure_ok] at h1 ⊢
    obtain ⟨t1, h1, t2, h2, rfl⟩ := h1
    refine ⟨t1, ?_, t2, ih (fun f hf => hfs f (List.mem_cons_of_mem _ hf)) h2, rfl⟩
    unfold textPart at h1 ⊢
    cases hr : f.ref with
    | none => rw [hr] at h1; exact h1
    | some r =>
      rw [hr] at h1
      simp only [bind_ok] at h1 ⊢
      obtain ⟨v, hv, h1⟩ := h1
      have hd := hfs f (by simp) r hr
      have hdw := (h.here.lev.has h.here.hold hd).1
      have hsuff : ∃ v', getVarvalFull fuel' w.env true r = .ok v' ∧ Ext v v' := by
        unfold getVarvalFull at hv ⊢
        rw [WSt.env, getVarval_here hd, h.so, bind_ok] at hv
        obtain ⟨u, hu, hv⟩ := hv
        obtain ⟨u', hu', hx⟩ := h.here.get hV hlv (by simp) hu
        rw [WSt.env, getVarval_here hdw, h.wo, h.lv, hu']
        by_cases hab : ∃ e, u = .abb e
        · obtain ⟨e, rfl⟩ := hab
          have : u' = .abb e := (hx.abb_iff e).1 rfl
          subst this
          have hN : ∀ n ∈ exprNames e, n ∈ N := by
            have hg : dGet (.var r.name) w.cur = some (.abb e) := by
              rw [getVarval_local] at hu'
              split at hu'
              · cases hu'
              cases hl : dGet r.name s.lv with
              | some i => rw [hl] at hu'; cases hu'
              | none =>
                rw [hl] at hu'
                dsimp only at hu'
                cases hg : dGet (.var r.name) w.cur with
                | none => rw [hg] at hu'; cases hu'
                | some q =>
                  rw [hg] at hu'
                  simp only [bind_ok] at hu'
                  obtain ⟨is, _, hq⟩ := hu'
                  rcases h.here.lev.split _ _ hg with ⟨e', rfl⟩ | hD
                  · cases is with
                    | nil => simp only [getArr, Except.ok.injEq] at hq; rw [hq]
                    | cons => simp [getArr] at hq
                  · exact absurd rfl ((getArr_clean (h.here.lev.sub _ _ hD).2 hq).not_abb e)
            intro n hn
            obtain ⟨q, hq, rfl⟩ := List.mem_map.1 hn
            exact (h.here.lev.good _ _ hg).2 q hq
          obtain ⟨v', hv', hx'⟩ := h.here.eval hL hV hlv (fun _ => hN) hf hv
          exact ⟨v', by simpa only [bind, Except.bind] using hv', hx'⟩
        · have hn : ∀ e, u ≠ .abb e := fun e he => hab ⟨e, he⟩
          have hn' : ∀ e, u' ≠ .abb e := fun e he => hn e ((hx.abb_iff e).2 he)
          have : v = u := by
            cases u <;> first | (simp only [pure_ok] at hv; exact hv.symm) | exact absurd rfl (hn _)
          subst this
          refine ⟨u', ?_, hx⟩
          cases u' <;> first | rfl | exact absurd rfl (hn' _)
      obtain ⟨v', hv', hx⟩ := hsuff
      refine ⟨v', hv', ?_⟩
      cases v with
      | txt q => cases hx; exact h1
      | _ => simp only [reduceCtorEq] at h1

end Verif
