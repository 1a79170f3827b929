import Verif.Lemmas.AbbrEval
import Verif.Lemmas.CppPy
/-
Reading with abbreviations and with abbreviations written out: records.
-/
namespace Verif.CF
open Verif Spec

/-- the state without abbreviations -/
def bareSt (s : RSt) : RSt := { s with cur := bare s.cur, ups := s.ups.map fun x => (bare x.1, x.2) }

theorem bareSt_outer (s : RSt) : (bareSt s).outer = s.outer.map bare := by
  unfold RSt.outer bareSt; simp [List.map_map, Function.comp_def]

theorem bareSt_env (s : RSt) : (bareSt s).env = bareEnv s.env := by
  unfold RSt.env bareEnv; rw [bareSt_outer]; rfl

/-- A state: `N` are the possible abbreviations of the current section, `O` those of the sections around, `L` the loop variables,
`D` the abbreviations that are there. -/
structure StA (a : Bool) (N O L : List Name) (D : List (Name × Expr)) (u0 : List (DDic × Name × List Int)) (s : RSt) : Prop where
  cur : Bnd a N D s.cur
  upsEq : s.ups = u0
  ups : ∀ u ∈ u0, ∃ b, Bnd b O [] u.1
  lv : ∀ n i, dGet n s.lv = some i → n ∈ L
  dis : ∀ n ∈ L, n ∉ N

theorem StA.envA {a : Bool} {N O L : List Name} {D : List (Name × Expr)} {u0 : List (DDic × Name × List Int)} {s : RSt}
    (h : StA a N O L D u0 s) : EnvA s.env := by
  refine ⟨⟨a, N, D, h.cur⟩, fun u hu => ?_⟩
  simp only [RSt.env, RSt.outer, List.mem_map] at hu
  obtain ⟨x, hx, rfl⟩ := hu
  obtain ⟨b, hb⟩ := h.ups x (h.upsEq ▸ hx)
  exact ⟨b, O, [], hb⟩

theorem StA.abbEnv {a : Bool} {N O L : List Name} {D : List (Name × Expr)} {u0 : List (DDic × Name × List Int)} {s : RSt}
    (h : StA a N O L D u0 s) (M : List Name) (A : Abbs) : AbbEnv M A D s.env := by
  refine ⟨h.envA, fun n e he => ?_⟩
  obtain ⟨h1, h2⟩ := h.cur.defd n e he
  refine ⟨h2, ?_⟩
  cases hx : dGet n s.env.lv with
  | none => rfl
  | some i => exact absurd (h.cur.names n h1) (h.dis n (h.lv n i hx))

theorem StA.free {a : Bool} {N O L : List Name} {D : List (Name × Expr)} {u0 : List (DDic × Name × List Int)} {s : RSt}
    (h : StA a N O L D u0 s) {n : Name} (hn : n ∉ N ++ O) : FreeRef s.env true n := by
  rw [List.mem_append, not_or] at hn
  refine ⟨h.cur.not hn.1, fun _ u hu => ?_⟩
  simp only [RSt.env, RSt.outer, List.mem_map] at hu
  obtain ⟨x, hx, rfl⟩ := hu
  obtain ⟨b, hb⟩ := h.ups x (h.upsEq ▸ hx)
  exact hb.not hn.2

theorem StA.freeCur {a : Bool} {N O L : List Name} {D : List (Name × Expr)} {u0 : List (DDic × Name × List Int)} {s : RSt}
    (h : StA a N O L D u0 s) {n : Name} (hn : n ∉ N) : FreeRef s.env false n := ⟨h.cur.not hn, fun h => by cases h⟩

/-- where a run was left by an exception -/
def ErrA (N : List Name) (u0 : List (DDic × Name × List Int)) (s : RSt) : Prop :=
  ∃ a d, Bnd a N [] d ∧ ((s.ups = u0 ∧ s.cur = d) ∨ ∃ pre x, s.ups = pre ++ (d, x) :: u0)

theorem Bnd.lite {a : Bool} {N : List Name} {D : List (Name × Expr)} {d : DDic} (h : Bnd a N D d) : Bnd a N [] d :=
  h.wider (fun _ h => h) fun _ _ h => by cases h

theorem StA.err {a : Bool} {N O L : List Name} {D : List (Name × Expr)} {u0 : List (DDic × Name × List Int)} {s : RSt}
    (h : StA a N O L D u0 s) : ErrA N u0 s := ⟨a, s.cur, h.cur.lite, .inl ⟨h.upsEq, rfl⟩⟩

theorem ErrA.wider {N N' : List Name} {u0 : List (DDic × Name × List Int)} {s : RSt} (h : ErrA N u0 s) (hN : ∀ n ∈ N, n ∈ N') : ErrA N' u0 s := by
  obtain ⟨a, d, h1, h2⟩ := h
  exact ⟨a, d, h1.wider hN fun _ _ h => h, h2⟩

theorem ErrA.up {a : Bool} {M N : List Name} {D : List (Name × Expr)} {d : DDic} {x : Name × List Int} {u0 : List (DDic × Name × List Int)} {s : RSt}
    (h : ErrA M ((d, x) :: u0) s) (hd : Bnd a N D d) : ErrA N u0 s := by
  obtain ⟨b, d', _, ⟨h2, _⟩ | ⟨pre, y, h2⟩⟩ := h
  · exact ⟨a, d, hd.lite, .inr ⟨[], x, h2⟩⟩
  · exact ⟨a, d, hd.lite, .inr ⟨pre ++ [(d', y)], x, by rw [h2]; simp⟩⟩

/-- the outcome `o'` is the outcome `o` without abbreviations, unless `o` is the refusal of an abbreviation -/
def Sim {σ : Type} (F : σ → σ) (P E : σ → Prop) (o o' : Out σ) : Prop :=
  match o with
  | .ok s => o' = .ok (F s) ∧ P s
  | .err e s => e = .abbrevCollision ∨ (o' = .err e (F s) ∧ E s)

theorem Sim.mono {σ : Type} {F : σ → σ} {P Q E E' : σ → Prop} {o o' : Out σ} (h : Sim F P E o o') (hP : ∀ s, o = .ok s → P s → Q s)
    (hE : ∀ s, E s → E' s) : Sim F Q E' o o' := by
  cases o with
  | ok s => exact ⟨h.1, hP s rfl h.2⟩
  | err e s => exact h.imp_right fun h => ⟨h.1, hE s h.2⟩

theorem Sim.andThen {σ : Type} {F : σ → σ} {P Q E : σ → Prop} {o o' : Out σ} {f f' : σ → Out σ} (h : Sim F P E o o')
    (hf : ∀ s, o = .ok s → P s → Sim F Q E (f s) (f' (F s))) : Sim F Q E (o.andThen f) (o'.andThen f') := by
  cases o with
  | ok s => obtain ⟨h1, h2⟩ := h; subst h1; exact hf s rfl h2
  | err e s =>
    rcases h with h | ⟨h1, h2⟩
    · exact .inl h
    · subst h1; exact .inr ⟨rfl, h2⟩

theorem Sim.lift {σ α : Type} {F : σ → σ} {Q E : σ → Prop} {s : σ} {r r' : Res α} (g : α → α) (hr : r' = r.map g) {f f' : α → Out σ} (hE : E s)
    (hf : ∀ a, r = .ok a → Sim F Q E (f a) (f' (g a))) : Sim F Q E (Out.lift s r f) (Out.lift (F s) r' f') := by
  subst hr
  cases r with
  | ok a => exact hf a rfl
  | error e => exact .inr ⟨rfl, hE⟩

theorem map_id' {α : Type} (r : Res α) : r = r.map (fun x => x) := by cases r <;> rfl

theorem Sim.lift' {σ α : Type} {F : σ → σ} {Q E : σ → Prop} {s : σ} {r r' : Res α} (hr : r' = r) {f f' : α → Out σ} (hE : E s)
    (hf : ∀ a, r = .ok a → Sim F Q E (f a) (f' a)) : Sim F Q E (Out.lift s r f) (Out.lift (F s) r' f') :=
  Sim.lift (fun x => x) (hr.trans (map_id' r)) hE hf

/-! ### fields -/

theorem setVarval_bare {a : Bool} {N : List Name} {D : List (Name × Expr)} {d : DDic} (h : Bnd a N D d) {lv : Dict Name Int} {r : VarRef} (hr : r.name ∉ N)
    {v : Val} (hv : Clean v) : setVarval (bare d) lv r v = (setVarval d lv r v).map bare ∧ ∀ d', setVarval d lv r v = .ok d' → Bnd a N D d' := by
  unfold setVarval
  rw [bare_get (h.not hr)]
  cases r.idx.mapM (idxVal lv) with
  | error e => exact ⟨rfl, fun _ h => by cases h⟩
  | ok is =>
    cases hn : setArr (dGet (.var r.name) d) is v with
    | error e => simp [bind, Except.bind, hn, Except.map]
    | ok new =>
      simp only [bind, Except.bind, hn, pure, Except.pure, Except.map, bare_dSet (h.not hr)]
      refine ⟨trivial, fun d' hd => ?_⟩
      cases hd
      exact h.set hr (setArr_clean (fun d' hd' => h.lvl.dic_clean hd') hv hn)

theorem checkField_flags {po : POpts} {e e' : Expr} (h1 : e'.hasDesired = e.hasDesired) (h2 : e'.hasIncons = e.hasIncons) (src exp : Val) :
    checkField po e' src exp = checkField po e src exp := by
  unfold checkField; rw [h1, h2]

def mapPair (A : Abbs) (x : Expr × Val) : Expr × Val := (A.expr x.1, x.2)

theorem mapOnce_sim {a : Bool} {N : List Name} {A : Abbs} {D : List (Name × Expr)} {fuel : Nat} (h0 : 0 < fuel) {po : POpts} {ups : List DDic}
    (hups : ∀ u ∈ ups, ∃ a N D, Bnd a N D u) {lv : Dict Name Int} (hlv : ∀ n e, dGet n D = some e → dGet n lv = none)
    {fs : List (Expr × Val)} (hfs : ∀ x ∈ fs, exprA N A D x.1 = true ∧ Clean x.2) {d : DDic} (h : Bnd a N D d) (f : Bool) :
    mapOnce fuel po (ups.map bare) lv (fs.map (mapPair A)) (bare d) f = (mapOnce fuel po ups lv fs d f).map (fun x => (bare x.1, x.2)) ∧
      ∀ x, mapOnce fuel po ups lv fs d f = .ok x → Bnd a N D x.1 := by
  induction fs generalizing d f with
  | nil => exact ⟨rfl, fun x hx => by cases hx; exact h⟩
  | cons y fs ih =>
    obtain ⟨e, src⟩ := y
    have ih' := fun {d : DDic} (h : Bnd a N D d) (f : Bool) => ih (fun x hx => hfs x (List.mem_cons_of_mem _ hx)) h f
    obtain ⟨he, hsrc⟩ := hfs _ List.mem_cons_self
    have hA : EnvA ⟨d, ups, lv⟩ := ⟨⟨a, N, D, h⟩, hups⟩
    have hAb : AbbEnv N A D ⟨d, ups, lv⟩ := ⟨hA, fun n e he => ⟨(h.defd n e he).2, hlv n e he⟩⟩
    have hfree : ∀ n, n ∉ N → FreeRef ⟨d, ups, lv⟩ false n := fun n hn => ⟨h.not hn, fun h => by cases h⟩
    have hev : evalExpr fuel ⟨bare d, ups.map bare, lv⟩ ⟨false, !po.ignoreAll, true⟩ (A.expr e) =
        evalExpr fuel ⟨d, ups, lv⟩ ⟨false, !po.ignoreAll, true⟩ e := evalExpr_expand hAb hfree h0 he
    simp only [List.map_cons, mapPair, mapOnce]
    rw [hev]
    cases hv : evalExpr fuel ⟨d, ups, lv⟩ ⟨false, !po.ignoreAll, true⟩ e with
    | error err =>
      by_cases hs : err = .severalUnbound
      · subst hs; exact ih' h true
      · have hne : ∀ (X Y : Res (DDic × Bool)), (match (Except.error err : Res Lin) with
          | .error .severalUnbound => X
          | .error err => .error err
          | .ok v => Y) = .error err := by
          intro X Y; cases err <;> first | rfl | exact absurd rfl hs
        cases err <;> first | exact ⟨rfl, fun _ h => by cases h⟩ | exact absurd rfl hs
    | ok v =>
      simp only
      cases hx : v.x with
      | none =>
        simp only
        split
        · exact ⟨rfl, fun _ h => by cases h⟩
        · rw [checkField_flags (flags_expand he).1 (flags_expand he).2]
          cases checkField po e src v.c with
          | error err => exact ⟨rfl, fun _ h => by cases h⟩
          | ok _ => exact ih' h f
      | some r =>
        simp only
        have hmem : r ∈ (A.expr e).vars := by
          refine evalExpr_mem (fun q hq y hy => ?_) (hev.trans hv) hx
          have hq' := vars_expand he hq
          rw [show (⟨bare d, ups.map bare, lv⟩ : Env) = bareEnv ⟨d, ups, lv⟩ from rfl, getVarval_bare (hfree _ hq')] at hy
          exact clean_abb (getVarval_clean hA (hfree _ hq') hy)
        have hr := vars_expand he hmem
        cases hs : solveField (!po.ignoreAll) v src with
        | error err => exact ⟨rfl, fun _ h => by cases h⟩
        | ok w =>
          simp only
          obtain ⟨g1, g2⟩ := setVarval_bare h (lv := lv) hr (solveField_clean hsrc hs)
          rw [g1]
          cases hset : setVarval d lv r w with
          | error err => exact ⟨rfl, fun _ h => by cases h⟩
          | ok d' => exact ih' (g2 d' hset) f

theorem mapTries_sim {a : Bool} {N : List Name} {A : Abbs} {D : List (Name × Expr)} {fuel : Nat} (h0 : 0 < fuel) {po : POpts} {ups : List DDic}
    (hups : ∀ u ∈ ups, ∃ a N D, Bnd a N D u) {lv : Dict Name Int} (hlv : ∀ n e, dGet n D = some e → dGet n lv = none)
    {fs : List (Expr × Val)} (hfs : ∀ x ∈ fs, exprA N A D x.1 = true ∧ Clean x.2) (n : Nat) {d : DDic} (h : Bnd a N D d) :
    mapTries fuel po (ups.map bare) lv (fs.map (mapPair A)) n (bare d) = (mapTries fuel po ups lv fs n d).map bare ∧
      ∀ x, mapTries fuel po ups lv fs n d = .ok x → Bnd a N D x := by
  induction n generalizing d with
  | zero => exact ⟨rfl, fun _ h => by cases h⟩
  | succ n ih =>
    obtain ⟨g1, g2⟩ := mapOnce_sim h0 (po := po) hups hlv hfs h false
    simp only [mapTries]
    rw [g1]
    cases hm : mapOnce fuel po ups lv fs d false with
    | error e => exact ⟨rfl, fun _ h => by cases h⟩
    | ok x =>
      obtain ⟨d', b⟩ := x
      have := g2 _ hm
      cases b with
      | false => exact ⟨rfl, fun _ h => by cases h; exact this⟩
      | true => exact ih this

theorem StA.lvD {a : Bool} {N O L : List Name} {D : List (Name × Expr)} {u0 : List (DDic × Name × List Int)} {s : RSt}
    (h : StA a N O L D u0 s) (n : Name) (e : Expr) (he : dGet n D = some e) : dGet n s.lv = none := ((h.abbEnv [] none).defd n e he).2

theorem mapRead_sim {a : Bool} {N O L : List Name} {A : Abbs} {D : List (Name × Expr)} {u0 : List (DDic × Name × List Int)} {c : RCtx} (h0 : 0 < c.fuel)
    {s : RSt} (h : StA a N O L D u0 s) {es : List Expr} (hes : ∀ e ∈ es, exprA N A D e = true) {vals : List Val} (hv : ∀ v ∈ vals, Clean v) :
    mapRead c.fuel ((bareSt s).po c) (bareSt s).outer (bareSt s).lv (es.map A.expr) vals (bareSt s).cur =
      (mapRead c.fuel (s.po c) s.outer s.lv es vals s.cur).map bare ∧
      ∀ d, mapRead c.fuel (s.po c) s.outer s.lv es vals s.cur = .ok d → StA a N O L D u0 { s with cur := d } := by
  have := mapTries_sim h0 (po := s.po c) (ups := s.outer) h.envA.ups (lv := s.lv) h.lvD (fs := es.zip vals)
    (fun x hx => ⟨hes _ (List.of_mem_zip hx).1, hv _ (List.of_mem_zip hx).2⟩) 3 h.cur
  refine ⟨?_, fun d hd => ⟨this.2 d hd, h.upsEq, h.ups, h.lv, h.dis⟩⟩
  rw [bareSt_outer]
  unfold mapRead
  rw [← this.1, List.zip_map_left]
  rfl

theorem mapFields_sim {a : Bool} {N O L : List Name} {A : Abbs} {D : List (Name × Expr)} {u0 : List (DDic × Name × List Int)} {c : RCtx} (h0 : 0 < c.fuel)
    {s : RSt} (h : StA a N O L D u0 s) {es : List Expr} (hes : ∀ e ∈ es, exprA N A D e = true) {vals : List Val} (hv : ∀ v ∈ vals, Clean v) :
    Sim bareSt (StA a N O L D u0) (ErrA N u0) (mapFields c es vals s) (mapFields c (es.map A.expr) vals (bareSt s)) := by
  obtain ⟨h1, h2⟩ := mapRead_sim h0 h hes hv (A := A)
  unfold mapFields
  refine Sim.lift bare h1 h.err fun d hd => ⟨rfl, h2 d hd⟩

theorem expr_none_map (es : List Expr) : es.map (Abbs.expr none) = es := by
  rw [List.map_congr_left (g := id) fun e _ => expr_none e, List.map_id]

theorem mapTextRead_sim {a : Bool} {N : List Name} {D : List (Name × Expr)} {lv : Dict Name Int} {full : Str} {fs : List TextField}
    (hfs : ∀ f ∈ fs, ∀ r, f.ref = some r → r.name ∉ N) {pos : Nat} {d : DDic} (h : Bnd a N D d) :
    mapTextRead lv full fs pos (bare d) = (mapTextRead lv full fs pos d).map bare ∧ ∀ d', mapTextRead lv full fs pos d = .ok d' → Bnd a N D d' := by
  induction fs generalizing d pos with
  | nil => exact ⟨rfl, fun _ h => by cases h; assumption⟩
  | cons f fs ih =>
    have ih' := fun {pos : Nat} {d : DDic} (h : Bnd a N D d) => ih (fun f hf => hfs f (List.mem_cons_of_mem _ hf)) (pos := pos) h
    have key : ∀ upper : Nat, (if upper ≤ pos then Except.error Err.sizeMismatch
        else match f.ref with
          | none => mapTextRead lv full fs upper (bare d)
          | some r => match setVarval (bare d) lv r (.txt (slice full pos upper)) with
            | .error e => .error e
            | .ok cur' => mapTextRead lv full fs upper cur') = Except.map bare (if upper ≤ pos then Except.error Err.sizeMismatch
        else match f.ref with
          | none => mapTextRead lv full fs upper d
          | some r => match setVarval d lv r (.txt (slice full pos upper)) with
            | .error e => .error e
            | .ok cur' => mapTextRead lv full fs upper cur') ∧ ∀ d', (if upper ≤ pos then Except.error Err.sizeMismatch
        else match f.ref with
          | none => mapTextRead lv full fs upper d
          | some r => match setVarval d lv r (.txt (slice full pos upper)) with
            | .error e => .error e
            | .ok cur' => mapTextRead lv full fs upper cur') = .ok d' → Bnd a N D d' := by
      intro upper
      split
      · exact ⟨rfl, fun _ h => by cases h⟩
      · cases hr : f.ref with
        | none => exact ih' h
        | some r =>
          simp only
          obtain ⟨g1, g2⟩ := setVarval_bare h (lv := lv) (hfs f List.mem_cons_self r hr) (.txt (slice full pos upper))
          rw [g1]
          cases hset : setVarval d lv r (.txt (slice full pos upper)) with
          | error err => exact ⟨rfl, fun _ h => by cases h⟩
          | ok d' => exact ih' (g2 d' hset)
    exact key _

theorem setCtrl_sim {a : Bool} {N : List Name} {D : List (Name × Expr)} {d : DDic} (h : Bnd a N D d) (hc : ctlA N = true) (k : Ctrl) :
    bare (setCtrl k d) = setCtrl k (bare d) ∧ Bnd a N D (setCtrl k d) := by
  simp only [ctlA, ctlNames, List.all_cons, List.all_nil, Bool.and_true, Bool.and_eq_true, Bool.not_eq_true', List.contains_eq_mem,
    decide_eq_false_iff_not] at hc
  have h1 := h.set hc.1 (.num (.int k.mat))
  have h2 := h1.set hc.2.1 (.num (.int k.mf))
  have h3 := h2.set hc.2.2 (.num (.int k.mt))
  refine ⟨?_, h3⟩
  unfold setCtrl
  rw [bare_dSet (h2.not hc.2.2), bare_dSet (h1.not hc.2.1), bare_dSet (h.not hc.1)]

/-! ### inner dictionaries -/

theorem openR_sim {a : Bool} {N O L : List Name} {D : List (Name × Expr)} {u0 : List (DDic × Name × List Int)} {s : RSt} (h : StA a N O L D u0 s)
    {r : VarRef} (hr : r.name ∉ N) : openR (bareSt s) r = (openR s r).map bareSt ∧ ∀ s1, openR s r = .ok s1 → ∃ is d,
      s1 = { s with cur := dSet .up .mark d, ups := (s.cur, r.name, is) :: s.ups } ∧ Clean (.dic d) ∧
      StA false [] (N ++ O) L [] ((s.cur, r.name, is) :: u0) s1 := by
  have hlv : (bareSt s).lv = s.lv := rfl
  have hcur : (bareSt s).cur = bare s.cur := rfl
  constructor
  · unfold openR
    rw [hlv, hcur, bare_get (h.cur.not hr)]
    cases r.idx.mapM (idxVal s.lv) with
    | error e => rfl
    | ok is =>
      cases hd : subDic (dGet (.var r.name) s.cur) is with
      | error e => simp only [bind, Except.bind, hd]; rfl
      | ok d =>
        have hc : Clean (.dic d) := subDic_clean (fun d' hd' => h.cur.lvl.dic_clean hd') hd
        simp only [bind, Except.bind, hd, pure, Except.pure, Except.map]
        simp only [bareSt, (bare_clean hc).1, List.map_cons]
  · intro s1 h1
    obtain ⟨is, d, _, hd, rfl⟩ := openR_ok h1
    have hc : Clean (.dic d) := subDic_clean (fun d' hd' => h.cur.lvl.dic_clean hd') hd
    refine ⟨is, d, rfl, hc, (bare_clean hc).2, by simp [h.upsEq], ?_, h.lv, fun _ _ => by simp⟩
    intro u hu
    rcases List.mem_cons.1 hu with rfl | hu
    · exact ⟨a, h.cur.lite.wider (fun n hn => List.mem_append_left _ hn) fun _ _ h => h⟩
    · obtain ⟨b, hb⟩ := h.ups u hu
      exact ⟨b, hb.wider (fun n hn => List.mem_append_right _ hn) fun _ _ h => h⟩

theorem closeR_sim {a : Bool} {N O L : List Name} {D : List (Name × Expr)} {u0 : List (DDic × Name × List Int)} {s : RSt} (h : StA a N O L D u0 s)
    {n : Name} (hn : n ∉ N) {is : List Int} {s2 : RSt} (hl : Lvl false s2.cur) (hu : s2.ups = (s.cur, n, is) :: u0) (hlv : s2.lv = s.lv) :
    closeR (bareSt s2) = (closeR s2).map bareSt ∧ ∀ s3, closeR s2 = .ok s3 → StA a N O L D u0 s3 := by
  have hb : (bareSt s2).ups = (bare s.cur, n, is) :: u0.map (fun x => (bare x.1, x.2)) := by unfold bareSt; simp [hu]
  have hc : (bareSt s2).cur = s2.cur := bare_false hl
  constructor
  · unfold closeR
    rw [hb, hu]
    simp only [hc, bare_get (h.cur.not hn)]
    cases hs : setArr (dGet (.var n) s.cur) is (.dic (dDel .up s2.cur)) with
    | error e => rfl
    | ok new =>
      simp only [bind, Except.bind, pure, Except.pure, Except.map]
      simp only [bareSt, bare_dSet (h.cur.not hn)]
  · intro s3 h3
    obtain ⟨new, hnew, rfl⟩ := closeR_ok hu h3
    exact ⟨h.cur.set hn (setArr_clean (fun d' hd' => h.cur.lvl.dic_clean hd') hl.clean hnew), rfl, h.ups,
      fun m i hm => h.lv m i (by rw [← hlv]; exact hm), h.dis⟩

theorem inTable_sim {a : Bool} {N O L : List Name} {D : List (Name × Expr)} {u0 : List (DDic × Name × List Int)} {s : RSt} {c : RCtx} (h : StA a N O L D u0 s)
    {r : VarRef} (hr : r.name ∉ N) {f : RSt → Out RSt} (hfr : ∀ (a : Bool) (s s' : RSt), f s = .ok s' → Frame a c s s')
    (hf : ∀ u0 s, StA false [] (N ++ O) L [] u0 s → Sim bareSt (StA false [] (N ++ O) L [] u0) (ErrA [] u0) (f s) (f (bareSt s))) :
    Sim bareSt (StA a N O L D u0) (ErrA N u0) (inTable (some r) s f) (inTable (some r) (bareSt s) f) := by
  obtain ⟨h1, h2⟩ := openR_sim h hr
  simp only [inTable]
  refine Sim.lift bareSt h1 h.err fun s1 hs1 => ?_
  obtain ⟨is, d, rfl, hcd, hst⟩ := h2 s1 hs1
  refine Sim.andThen (P := StA false [] (N ++ O) L [] ((s.cur, r.name, is) :: u0)) ((hf _ _ hst).mono (fun _ _ h => h) fun s' he => he.up h.cur) fun s2 hs2 hP => ?_
  have hfr2 := hfr false _ _ hs2
  obtain ⟨g1, g2⟩ := closeR_sim h hr (s2 := s2) hP.cur.lvl hP.upsEq hfr2.lv
  exact Sim.lift bareSt g1 (hP.err.up h.cur) fun s3 hs3 => ⟨rfl, g2 s3 hs3⟩

end Verif.CF
