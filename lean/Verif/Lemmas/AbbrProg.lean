import Verif.Lemmas.AbbrStep
/-
Reading with abbreviations and with abbreviations written out: recipes.
-/
namespace Verif.CF
open Verif Spec

abbrev Ups := List (DDic × Name × List Int)

theorem StA.of {a : Bool} {N O L : List Name} {D : List (Name × Expr)} {u0 : Ups} {s s' : RSt} (h : StA a N O L D u0 s) (h1 : s'.cur = s.cur)
    (h2 : s'.ups = s.ups) (h3 : s'.lv = s.lv) : StA a N O L D u0 s' :=
  ⟨h1 ▸ h.cur, h2 ▸ h.upsEq, h.ups, fun n i hn => h.lv n i (h3 ▸ hn), h.dis⟩

theorem StA.setCur {a : Bool} {N O L : List Name} {D : List (Name × Expr)} {u0 : Ups} {s : RSt} (h : StA a N O L D u0 s) {d : DDic} (hd : Bnd a N D d) :
    StA a N O L D u0 { s with cur := d } := ⟨hd, h.upsEq, h.ups, h.lv, h.dis⟩

theorem evalKnown_sim {a : Bool} {N O L : List Name} {A : Abbs} {D : List (Name × Expr)} {u0 : Ups} {s : RSt} (h : StA a N O L D u0 s) {fuel : Nat} (h0 : 0 < fuel)
    {e : Expr} (he : exprA (N ++ O) A D e = true) {ci : Bool} :
    evalKnown fuel (bareSt s).env true ci (A.expr e) = evalKnown fuel s.env true ci e := by
  unfold evalKnown
  rw [bareSt_env, evalExpr_expand (h.abbEnv (N ++ O) A) (fun n hn => h.free hn) h0 he]

theorem evalKnown_without {a : Bool} {N O L : List Name} {D : List (Name × Expr)} {u0 : Ups} {s : RSt} (h : StA a N O L D u0 s) {fuel : Nat} (h0 : 0 < fuel)
    {e : Expr} (he : without (N ++ O) e = true) {ci : Bool} :
    evalKnown fuel (bareSt s).env true ci e = evalKnown fuel s.env true ci e := by
  have := evalKnown_sim h h0 (A := none) (exprA_nil he).1 (ci := ci)
  rwa [expr_none] at this

theorem loopHead_sim {a : Bool} {N O L : List Name} {A : Abbs} {D : List (Name × Expr)} {u0 : Ups} {s : RSt} (h : StA a N O L D u0 s) {fuel : Nat} (h0 : 0 < fuel)
    {v : Name} {e1 e2 : Expr} (he1 : exprA (N ++ O) A D e1 = true) (he2 : exprA (N ++ O) A D e2 = true) :
    loopHead fuel (bareSt s).env v (A.expr e1) (A.expr e2) = loopHead fuel s.env v e1 e2 := by
  unfold loopHead
  rw [evalKnown_sim h h0 he1, evalKnown_sim h h0 he2]
  rfl

theorem evalCond_bare {env : Env} (he : EnvA env) {fuel : Nat} (h0 : 0 < fuel) {M : List Name} (hM : ∀ n, n ∉ M → FreeRef env true n) {cond : Cond}
    (hc : condA M cond = true) : evalCond fuel (bareEnv env) cond = evalCond fuel env cond := by
  obtain ⟨f, rfl⟩ : ∃ f, fuel = f + 1 := ⟨fuel - 1, by omega⟩
  have hk : ∀ e, without M e = true → evalKnown (f + 1) (bareEnv env) true true e = evalKnown (f + 1) env true true e := by
    intro e hw
    unfold evalKnown
    simp only [evalExpr]
    rw [evalWith_bare (o := ⟨true, true, false⟩) he (rec := evalExpr f env ⟨true, true, false⟩) fun r hr => hM _ (without_ok hw hr)]
  induction cond with
  | cmp r x y =>
    simp only [condA, Bool.and_eq_true] at hc
    simp only [evalCond, hk x hc.1, hk y hc.2]
  | and x y ihx ihy =>
    simp only [condA, Bool.and_eq_true] at hc
    simp only [evalCond, ihx hc.1, ihy hc.2]
  | or x y ihx ihy =>
    simp only [condA, Bool.and_eq_true] at hc
    simp only [evalCond, ihx hc.1, ihy hc.2]

/-! ### loops -/

theorem iterate_sim {σ : Type} {F : σ → σ} {P E : σ → Prop} {set : Int → σ → σ} {body body' : σ → Out σ} (hF : ∀ i s, set i (F s) = F (set i s))
    (hb : ∀ i s, P s → Sim F P E (body (set i s)) (body' (F (set i s)))) (is : List Int) {s : σ} (h : P s) :
    Sim F P E (iterate set body is s) (iterate set body' is (F s)) := by
  induction is generalizing s with
  | nil => exact ⟨rfl, h⟩
  | cons i is ih =>
    simp only [iterate]
    rw [hF]
    exact Sim.andThen (hb i s h) fun s1 _ h1 => ih h1

theorem StA.set {a : Bool} {N O L : List Name} {D : List (Name × Expr)} {u0 : Ups} {s : RSt} {v : Name} (h : StA a N O (v :: L) D u0 s) (i : Int) :
    StA a N O (v :: L) D u0 (s.setVar v i) := by
  refine ⟨h.cur, h.upsEq, h.ups, fun n j hn => ?_, h.dis⟩
  by_cases hv : n = v
  · subst hv; exact List.mem_cons_self
  · have hn' : dGet n (dSet v i s.lv) = some j := hn
    rw [dGet_dSet_ne (Ne.symm hv)] at hn'
    exact h.lv n j hn'

theorem StA.push {a : Bool} {N O L : List Name} {D : List (Name × Expr)} {u0 : Ups} {s : RSt} {v : Name} (h : StA a N O L D u0 s) (hv : v ∉ N) :
    StA a N O (v :: L) D u0 s := by
  refine ⟨h.cur, h.upsEq, h.ups, fun n j hn => List.mem_cons_of_mem _ (h.lv n j hn), fun n hn => ?_⟩
  rcases List.mem_cons.1 hn with rfl | hn
  · exact hv
  · exact h.dis n hn

theorem StA.pop {a : Bool} {N O L : List Name} {D : List (Name × Expr)} {u0 : Ups} {s0 s : RSt} {v : Name} (h : StA a N O (v :: L) D u0 s)
    (h0 : ∀ n i, dGet n s0.lv = some i → n ∈ L) (hl : s.lv = s0.lv) : StA a N O L D u0 s :=
  ⟨h.cur, h.upsEq, h.ups, fun n j hn => h0 n j (hl ▸ hn), fun n hn => h.dis n (List.mem_cons_of_mem _ hn)⟩

theorem dGet_dDel_some {κ α : Type} [DecidableEq κ] {k k' : κ} {v : α} {d : Dict κ α} (h : dGet k (dDel k' d) = some v) : ∃ v', dGet k d = some v' := by
  induction d with
  | nil => cases h
  | cons p d ih =>
    obtain ⟨q, w⟩ := p
    by_cases hq : q = k
    · exact ⟨w, by simp [dGet, hq]⟩
    · simp only [dGet, hq, if_false]
      simp only [dDel] at h
      split at h
      · exact ⟨_, h⟩
      · simp only [dGet, hq, if_false] at h
        exact ih h

/-! ### list bodies -/

def bareL (l : LSt) : LSt := { l with st := bareSt l.st }

theorem readBody_sim {a : Bool} {N O : List Name} {A : Abbs} {D : List (Name × Expr)} {u0 : Ups} {c : RCtx} (h0 : 0 < c.fuel) {vals : List PyNum} {b : LBody}
    (hb : bodyA N O A D b = true) {L : List Name} {l : LSt} (h : StA a N O L D u0 l.st) :
    Sim bareL (fun l => StA a N O L D u0 l.st) (fun l => ErrA N u0 l.st) (readBody c vals b l) (readBody c vals (A.body b) (bareL l)) := by
  induction b generalizing l L with
  | nil => exact ⟨rfl, h⟩
  | seq x y ihx ihy =>
    simp only [bodyA, Bool.and_eq_true] at hb
    exact Sim.andThen (ihx hb.1 h) fun l1 _ h1 => ihy hb.2 h1
  | expr e =>
    simp only [Abbs.body, readBody]
    have hp : (bareL l).pos = l.pos := rfl
    rw [hp]
    cases vals[l.pos]? with
    | none => exact .inr ⟨rfl, h.err⟩
    | some v =>
      obtain ⟨h1, h2⟩ := mapRead_sim h0 h (A := A) (es := [e]) (by simpa [bodyA] using hb) (vals := [.num v]) (by simpa using Clean.num v)
      exact Sim.lift bare h1 h.err fun d hd => ⟨rfl, h2 d hd⟩
  | pad => exact ⟨rfl, h⟩
  | loop v e1 e2 body ih =>
    simp only [bodyA, Bool.and_eq_true, Bool.not_eq_true', List.contains_eq_mem, decide_eq_false_iff_not, List.mem_append, not_or] at hb
    obtain ⟨⟨⟨hv, he1⟩, he2⟩, hb⟩ := hb
    simp only [Abbs.body, readBody]
    refine Sim.lift' (loopHead_sim h h0 he1 he2) h.err fun (x, y) hxy => ?_
    refine Sim.andThen (P := fun l => StA a N O (v :: L) D u0 l.st) (iterate_sim (F := bareL) (P := fun l => StA a N O (v :: L) D u0 l.st)
      (E := fun l => ErrA N u0 l.st) (set := LSt.setVar v) (fun _ _ => rfl) (fun i l1 h1 => ih hb (l := LSt.setVar v i l1) (h1.set i)) _ (h.push hv.1))
      fun l1 hl1 h1 => ?_
    refine ⟨by split <;> rfl, ?_⟩
    have := loop_lv (lv := fun l : LSt => l.st.lv) (setVar := LSt.setVar v) (fun _ _ => rfl) (fun l l' hl => (readBody_frame (a := a) hl).lv)
      (loopHead_ok hxy) hl1
    refine StA.pop (s0 := l.st) (v := v) ?_ h.lv ?_
    · split
      · exact ⟨h1.cur, h1.upsEq, h1.ups, fun n j hn => (dGet_dDel_some hn).elim fun i => h1.lv n i, h1.dis⟩
      · exact h1
    · rw [← this]
      split <;> rfl

theorem Abbs.body_none (b : LBody) : Abbs.body none b = b := by
  induction b <;> simp_all [Abbs.body, expr_none]

theorem readNamedBody_sim {a : Bool} {N O L : List Name} {A : Abbs} {D : List (Name × Expr)} {u0 : Ups} {c : RCtx} (h0 : 0 < c.fuel) {vals : List PyNum}
    {b : LBody} {name : Option VarRef} (hb : (match name with
      | none => bodyA N O A D b
      | some r => nameA N r && bodyA [] (N ++ O) none [] b) = true) {s : RSt} (h : StA a N O L D u0 s) :
    Sim bareL (fun l => StA a N O L D u0 l.st) (fun l => ErrA N u0 l.st) (readNamedBody c vals b name s)
      (readNamedBody c vals (if name.isNone then A.body b else b) name (bareSt s)) := by
  cases name with
  | none => exact readBody_sim h0 hb (l := ⟨0, s⟩) h
  | some r =>
    simp only [nameA, Bool.and_eq_true, Bool.not_eq_true', List.contains_eq_mem, decide_eq_false_iff_not] at hb
    obtain ⟨h1, h2⟩ := openR_sim h hb.1
    simp only [readNamedBody, Option.isNone_some, Bool.false_eq_true, if_false]
    refine Sim.lift (F := bareL) (s := ⟨0, s⟩) bareSt h1 h.err fun s1 hs1 => ?_
    obtain ⟨is, d, rfl, hcd, hst⟩ := h2 s1 hs1
    have hbody := readBody_sim h0 (vals := vals) hb.2 (l := ⟨0, _⟩) hst
    rw [Abbs.body_none] at hbody
    refine Sim.andThen (P := fun l => StA false [] (N ++ O) L [] ((s.cur, r.name, is) :: u0) l.st)
      (hbody.mono (fun _ _ h => h) fun l' he => ErrA.up he h.cur) fun l2 hl2 hP => ?_
    have hfr2 := readBody_frame (a := false) hl2
    obtain ⟨g1, g2⟩ := closeR_sim h hb.1 (s2 := l2.st) hP.cur.lvl hP.upsEq hfr2.lv
    exact Sim.lift (F := bareL) bareSt g1 (hP.err.up h.cur) fun s3 hs3 => ⟨rfl, g2 s3 hs3⟩

/-! ### records -/

theorem takeRec_sim {α : Type} {a : Bool} {N O L : List Name} {D : List (Name × Expr)} {u0 : Ups} {c : RCtx} {s : RSt} (h : StA a N O L D u0 s)
    {rd : List Str → Nat → Res (α × Nat)} {f f' : α → RSt → Out RSt}
    (hf : ∀ r s, StA a N O L D u0 s → rd = rd → (∃ o o', rd c.lines o = .ok (r, o')) → Sim bareSt (StA a N O L D u0) (ErrA N u0) (f r s) (f' r (bareSt s))) :
    Sim bareSt (StA a N O L D u0) (ErrA N u0) (takeRec c s rd f) (takeRec c (bareSt s) rd f') := by
  unfold takeRec
  refine Sim.lift' (r' := skipBlankLines c.lines (bareSt s).ofs) rfl h.err fun ofs _ => ?_
  refine Sim.lift' (F := bareSt) (s := { s with ofs := ofs }) rfl (h.of rfl rfl rfl).err fun (r, ofs') hr => ?_
  exact hf r { s with ofs := ofs', spans := s.spans ++ [(ofs, ofs')] } (h.of rfl rfl rfl) rfl ⟨_, _, hr⟩

theorem proceed_sim {s s1 : RSt} (h : s.proceed = some s1) : (bareSt s).proceed = some (bareSt s1) ∧ s1.cur = s.cur ∧ s1.ups = s.ups ∧ s1.lv = s.lv := by
  unfold RSt.proceed at h ⊢
  have : (bareSt s).look = s.look := rfl
  rw [this]
  cases hl : s.look with
  | none => rw [hl] at h; cases h; exact ⟨rfl, rfl, rfl, rfl⟩
  | some n =>
    rw [hl] at h
    simp only at h ⊢
    split at h
    · cases h
    · rename_i hn
      cases h
      rw [if_neg hn]
      exact ⟨rfl, rfl, rfl, rfl⟩

theorem proceed_none {s : RSt} (h : s.proceed = none) : (bareSt s).proceed = none := by
  unfold RSt.proceed at h ⊢
  have : (bareSt s).look = s.look := rfl
  rw [this]
  cases hl : s.look with
  | none => rw [hl] at h; cases h
  | some n =>
    rw [hl] at h
    simp only at h ⊢
    split at h
    · rename_i hn; rw [if_pos hn]
    · cases h

theorem allA {N : List Name} {A : Abbs} {D : List (Name × Expr)} {fs : List Expr} (h : fs.all (exprA N A D) = true) : ∀ e ∈ fs, exprA N A D e = true :=
  List.all_eq_true.1 h

theorem cols_sim {a : Bool} {N O L : List Name} {D : List (Name × Expr)} {u0 : Ups} {c : RCtx} (h0 : 0 < c.fuel) {s : RSt} (h : StA a N O L D u0 s)
    {rs : List VarRef} {cols : List (List PyNum)} {name : Option VarRef} (hn : (match name with
      | none => rs.all (nameA N)
      | some r => nameA N r) = true) :
    Sim bareSt (StA a N O L D u0) (ErrA N u0) (inTable name s (mapFields c (rs.map .var) (cols.map .lst)))
      (inTable name (bareSt s) (mapFields c (rs.map .var) (cols.map .lst))) := by
  have key : ∀ {a : Bool} {N O L : List Name} {D : List (Name × Expr)} {u0 : Ups} {s : RSt}, StA a N O L D u0 s → rs.all (nameA N) = true →
      Sim bareSt (StA a N O L D u0) (ErrA N u0) (mapFields c (rs.map .var) (cols.map .lst) s) (mapFields c (rs.map .var) (cols.map .lst) (bareSt s)) := by
    intro a N O L D u0 s h hr
    have := mapFields_sim h0 h (A := none) (es := rs.map .var) (fun e he => ?_) (cols_clean cols)
    · rwa [expr_none_map] at this
    · obtain ⟨r, hr', rfl⟩ := List.mem_map.1 he
      have := List.all_eq_true.1 hr r hr'
      simpa [exprA, refA, Abbs.get, nameA] using this
  cases name with
  | none => exact key h hn
  | some r =>
    have hr : r.name ∉ N := by simpa [nameA] using hn
    exact inTable_sim (c := c) h hr (fun a s s' h => mapFields_frame (cols_clean cols) h)
      fun u0 s hs => key hs (List.all_eq_true.2 fun _ _ => by simp [nameA])

theorem logRec_sim {a : Bool} {N O L : List Name} {D : List (Name × Expr)} {u0 : Ups} {E : RSt → Prop} {r : ARec} {s : RSt} (h : StA a N O L D u0 s) :
    Sim bareSt (StA a N O L D u0) E (logRec r s) (logRec r (bareSt s)) := ⟨rfl, h.of rfl rfl rfl⟩

theorem readAct_sim {a : Bool} {N O L : List Name} {A : Abbs} {D : List (Name × Expr)} {u0 : Ups} {c : RCtx} (h0 : 0 < c.fuel) {act : Act}
    (ha : actA N O A D act = true) {s : RSt} (h : StA a N O L D u0 s) :
    Sim bareSt (StA a N O L D u0) (ErrA N u0) (readAct c act s) (readAct c (A.act act) (bareSt s)) := by
  cases act with
  | text k fs =>
    simp only [actA, Bool.and_eq_true] at ha
    simp only [Abbs.act, readAct]
    refine takeRec_sim h fun r s h _ _ => ?_
    refine Sim.lift' rfl h.err fun _ _ => ?_
    obtain ⟨g1, g2⟩ := mapTextRead_sim (lv := s.lv) (full := r.hl) (fs := fs) (fun f hf q hq => by
      have := List.all_eq_true.1 ha.2 f hf
      rw [hq] at this
      simpa [nameA] using this) (pos := 0) h.cur
    refine Sim.lift bare g1 h.err fun d hd => ?_
    obtain ⟨g3, g4⟩ := setCtrl_sim (g2 d hd) ha.1 r.ctrl
    have : (⟨setCtrl r.ctrl (bare d), (bareSt s).ups, s.lv, s.look, s.ofs, s.ignoreAll, s.recs, s.spans⟩ : RSt) =
      bareSt { s with cur := setCtrl r.ctrl d } := by unfold bareSt; simp only [g3]
    exact this ▸ logRec_sim (h.setCur g4)
  | cont isHead k fs =>
    simp only [actA, Bool.and_eq_true] at ha
    simp only [Abbs.act, readAct]
    refine takeRec_sim h fun r s h _ _ => ?_
    refine Sim.lift' rfl h.err fun _ _ => ?_
    refine Sim.andThen (mapFields_sim h0 h (allA ha.2) (contVals_clean r)) fun s1 _ h1 => ?_
    cases isHead with
    | false => exact logRec_sim h1
    | true =>
      obtain ⟨g3, g4⟩ := setCtrl_sim h1.cur (by simpa using ha.1) r.ctrl
      have : (⟨setCtrl r.ctrl (bare s1.cur), (bareSt s1).ups, s1.lv, s1.look, s1.ofs, s1.ignoreAll, s1.recs, s1.spans⟩ : RSt) =
        bareSt { s1 with cur := setCtrl r.ctrl s1.cur } := by unfold bareSt; simp only [g3]
      exact this ▸ logRec_sim (h1.setCur g4)
  | dir k fs =>
    simp only [actA] at ha
    simp only [Abbs.act, readAct]
    refine takeRec_sim h fun r s h _ _ => ?_
    refine Sim.lift' rfl h.err fun _ _ => ?_
    refine Sim.andThen (mapFields_sim h0 h (allA ha) ?_) fun s1 _ h1 => logRec_sim h1
    intro v hv
    simp only [List.mem_cons, List.not_mem_nil, or_false] at hv
    rcases hv with rfl | rfl | rfl | rfl <;> exact .num _
  | intg k fs nd =>
    simp only [actA, Bool.and_eq_true] at ha
    simp only [Abbs.act, readAct]
    refine Sim.lift' (evalKnown_without h h0 ha.2) h.err fun n _ => ?_
    split
    · refine takeRec_sim h fun r s h _ _ => ?_
      refine Sim.lift' rfl h.err fun _ _ => ?_
      refine Sim.andThen (mapFields_sim h0 h (allA ha.1) ?_) fun s1 _ h1 => logRec_sim h1
      intro v hv
      simp only [List.mem_cons, List.not_mem_nil, or_false] at hv
      rcases hv with rfl | rfl | rfl
      · exact .num _
      · exact .num _
      · exact .lst _
    · exact .inr ⟨rfl, h.err⟩
  | tab1 k fs x y name =>
    simp only [actA, Bool.and_eq_true] at ha
    simp only [Abbs.act, readAct]
    refine takeRec_sim h fun r s h _ _ => ?_
    refine Sim.lift' rfl h.err fun _ _ => ?_
    rw [← List.map_take]
    refine Sim.andThen (mapFields_sim h0 h (fun e he => allA ha.1 e (List.mem_of_mem_take he)) (clean_take (contVals_clean _) 4)) fun s1 _ h1 => ?_
    cases hp : s1.proceed with
    | none => rw [proceed_none hp]; exact ⟨rfl, h1⟩
    | some s2 =>
      obtain ⟨p1, p2, p3, p4⟩ := proceed_sim hp
      rw [p1]
      have h2 := h1.of p2 p3 p4
      refine Sim.andThen ?_ fun s3 _ h3 => logRec_sim h3
      refine cols_sim h0 h2 (rs := [⟨"NBT", []⟩, ⟨"INT", []⟩, x, y]) (cols := [_, _, _, _]) ?_
      have hn := ha.2
      revert hn
      cases name with
      | none =>
        intro hn
        simp only [nameA, Bool.and_eq_true] at hn
        simp only [List.all_cons, List.all_nil, nameA, Bool.and_true, Bool.and_eq_true]
        exact ⟨hn.1.2, hn.2, hn.1.1⟩
      | some r => exact fun hn => hn
  | tab2 k fs name =>
    simp only [actA, Bool.and_eq_true] at ha
    simp only [Abbs.act, readAct]
    refine takeRec_sim h fun r s h _ _ => ?_
    refine Sim.lift' rfl h.err fun _ _ => ?_
    rw [← List.map_take, ← List.map_drop, ← List.map_append]
    refine Sim.andThen (mapFields_sim h0 h (fun e he => allA ha.1 e ?_) ?_) fun s1 _ h1 => ?_
    · rcases List.mem_append.1 he with he | he
      · exact List.mem_of_mem_take he
      · exact List.mem_of_mem_drop he
    · intro v hv
      rcases List.mem_append.1 hv with hv | hv
      · exact contVals_clean _ _ (List.mem_of_mem_take hv)
      · exact contVals_clean _ _ (List.mem_of_mem_drop hv)
    cases hp : s1.proceed with
    | none => rw [proceed_none hp]; exact ⟨rfl, h1⟩
    | some s2 =>
      obtain ⟨p1, p2, p3, p4⟩ := proceed_sim hp
      rw [p1]
      have h2 := h1.of p2 p3 p4
      refine Sim.andThen ?_ fun s3 _ h3 => logRec_sim h3
      refine cols_sim h0 h2 (rs := [⟨"NBT", []⟩, ⟨"INT", []⟩]) (cols := [_, _]) ?_
      have hn := ha.2
      revert hn
      cases name with
      | none =>
        intro hn
        simp only [Bool.and_eq_true] at hn
        simp only [List.all_cons, List.all_nil, nameA, Bool.and_true, Bool.and_eq_true]
        exact hn
      | some r => exact fun hn => hn
  | list k fs body name =>
    simp only [actA, Bool.and_eq_true] at ha
    simp only [Abbs.act, readAct]
    refine takeRec_sim h fun r s h _ _ => ?_
    refine Sim.lift' rfl h.err fun _ _ => ?_
    refine Sim.andThen (mapFields_sim h0 h (allA ha.1) (contVals_clean _)) fun s1 _ h1 => ?_
    cases hp : s1.proceed with
    | none => rw [proceed_none hp]; exact ⟨rfl, h1⟩
    | some s2 =>
      obtain ⟨p1, p2, p3, p4⟩ := proceed_sim hp
      rw [p1]
      have h2 := h1.of p2 p3 p4
      have hs := readNamedBody_sim h0 (vals := r.vals.map PyNum.num) ha.2 h2
      simp only
      revert hs
      cases readNamedBody c (r.vals.map PyNum.num) body name s2 with
      | err e l =>
        rintro (hs | ⟨hs, he⟩)
        · exact .inl hs
        · rw [hs]; exact .inr ⟨rfl, he⟩
      | ok l =>
        rintro ⟨hs, hl⟩
        rw [hs]
        by_cases hp : l.pos < (r.vals.map PyNum.num).length
        · simp only [if_pos hp, if_pos (show (bareL l).pos < (r.vals.map PyNum.num).length from hp)]; exact .inr ⟨rfl, hl.err⟩
        · simp only [if_neg hp, if_neg (show ¬ (bareL l).pos < (r.vals.map PyNum.num).length from hp)]; exact logRec_sim hl
  | send =>
    simp only [Abbs.act, readAct]
    refine Sim.lift' (r' := skipBlankLines c.lines (bareSt s).ofs) rfl h.err fun ofs _ => ?_
    refine Sim.lift' (F := bareSt) (s := { s with ofs := ofs }) rfl (h.of rfl rfl rfl).err fun _ _ => ?_
    exact logRec_sim (s := { s with ofs := ofs }) (h.of rfl rfl rfl)
  | stop =>
    simp only [Abbs.act, readAct]
    exact Sim.lift' (r' := lineAt c.lines (bareSt s).ofs) rfl h.err fun _ _ => .inr ⟨rfl, h.err⟩

/-! ### recipes -/

theorem StA.wider {a : Bool} {N N' O L : List Name} {D D' : List (Name × Expr)} {u0 : Ups} {s : RSt} (h : StA a N O L D u0 s) (hN : ∀ n ∈ N, n ∈ N')
    (hD : ∀ n e, dGet n D' = some e → dGet n D = some e) (hL : ∀ n ∈ L, n ∉ N') : StA a N' O L D' u0 s :=
  ⟨h.cur.wider hN hD, h.upsEq, h.ups, h.lv, hL⟩

theorem abbrs_dis {p : Prog} : ∀ {N O : List Name} {A : Abbs} {D : List (Name × Expr)} {L : List Name}, abbrA N O A D L p = true →
    ∀ n ∈ abbrsOf p, n ∉ L := by
  induction p with
  | skip => intro N O A D L _ n hn; cases hn
  | act x => intro N O A D L _ n hn; cases hn
  | sect r body => intro N O A D L _ n hn; cases hn
  | seq x y ihx ihy =>
    intro N O A D L h n hn
    simp only [abbrA, Bool.and_eq_true] at h
    rcases List.mem_append.1 hn with hn | hn
    · exact ihx h.1 n hn
    · exact ihy h.2 n hn
  | loop v x y body ih =>
    intro N O A D L h n hn
    simp only [abbrA, Bool.and_eq_true] at h
    exact fun hL => ih h.2 n hn (List.mem_cons_of_mem _ hL)
  | ite cond l t e iht ihe =>
    intro N O A D L h n hn
    simp only [abbrA, Bool.and_eq_true] at h
    rcases List.mem_append.1 hn with hn | hn
    · exact iht h.1.2 n hn
    · exact ihe h.2 n hn
  | abbr m e =>
    intro N O A D L h n hn
    simp only [abbrA, Bool.and_eq_true, Bool.not_eq_true', List.contains_eq_mem, decide_eq_false_iff_not] at h
    simp only [abbrsOf, List.mem_singleton] at hn
    subst hn; exact h.1

theorem always_ext {p : Prog} : ∀ {N O : List Name} {A : Abbs} {D : List (Name × Expr)} {L : List Name}, abbrA N O A D L p = true →
    ∀ n e, dGet n D = some e → dGet n (always D p) = some e := by
  induction p with
  | skip => intro N O A D L _ n e h; exact h
  | act x => intro N O A D L _ n e h; exact h
  | sect r body => intro N O A D L _ n e h; exact h
  | loop v x y body ih => intro N O A D L _ n e h; exact h
  | ite cond l t e iht ihe => intro N O A D L _ n e h; exact h
  | seq x y ihx ihy =>
    intro N O A D L h n e he
    simp only [abbrA, Bool.and_eq_true] at h
    exact ihy h.2 n e (ihx h.1 n e he)
  | abbr m x =>
    intro N O A D L h n e he
    simp only [abbrA, Bool.and_eq_true, Option.isNone_iff_eq_none] at h
    simp only [always, dGet]
    by_cases hm : m = n
    · subst hm; rw [h.2] at he; cases he
    · simp [hm, he]

theorem envAt_ok {s : RSt} {u0 : Ups} (h : s.ups = u0) : s.envAt u0.length = s.env := by
  unfold RSt.envAt
  rw [h, Nat.sub_self]
  rfl

theorem ErrA.env {N : List Name} {u0 : Ups} {s : RSt} (h : ErrA N u0 s) :
    ∃ a d, Bnd a N [] d ∧ s.envAt u0.length = ⟨d, u0.map Prod.fst, s.lv⟩ ∧
      (bareSt s).envAt u0.length = bareEnv ⟨d, u0.map Prod.fst, s.lv⟩ := by
  obtain ⟨a, d, hd, ⟨h1, h2⟩ | ⟨pre, x, h1⟩⟩ := h
  · refine ⟨a, d, hd, ?_, ?_⟩
    · rw [envAt_ok h1, RSt.env, RSt.outer, h1, h2]
    · have hl : u0.length = (u0.map fun x => (bare x.1, x.2)).length := by simp
      rw [hl, envAt_ok (by unfold bareSt; simp [h1]), bareSt_env, RSt.env, RSt.outer, h1, h2]
  · have hk : ∀ (g : DDic → DDic), ((g s.cur :: (s.ups.map Prod.fst).map g).drop (s.ups.length - u0.length)) = g d :: (u0.map Prod.fst).map g := by
      intro g
      rw [h1]
      have : (pre ++ (d, x) :: u0).length - u0.length = pre.length + 1 := by simp; omega
      rw [this, List.drop_succ_cons]
      simp only [List.map_append, List.map_cons]
      rw [List.drop_append_of_le_length (by simp), List.drop_of_length_le (by simp), List.nil_append]
    refine ⟨a, d, hd, ?_, ?_⟩
    · have := hk id
      simp only [List.map_id, id_eq] at this
      unfold RSt.envAt RSt.outer
      rw [this]
    · have := hk bare
      have hl : (bareSt s).ups.length = s.ups.length := by unfold bareSt; simp
      unfold RSt.envAt
      rw [hl, bareSt_outer, RSt.outer, show (bareSt s).cur = bare s.cur from rfl, this]
      rfl

theorem StA.condEnv {N O : List Name} {u0 : Ups} (hu : ∀ u ∈ u0, ∃ b, Bnd b O [] u.1) {a : Bool} {d : DDic} (hd : Bnd a N [] d) (lv : Dict Name Int) :
    EnvA ⟨d, u0.map Prod.fst, lv⟩ ∧ ∀ n, n ∉ N ++ O → FreeRef ⟨d, u0.map Prod.fst, lv⟩ true n := by
  refine ⟨⟨⟨a, N, [], hd⟩, fun u hx => ?_⟩, fun n hn => ?_⟩
  · obtain ⟨x, hy, rfl⟩ := List.mem_map.1 hx
    obtain ⟨b, hb⟩ := hu x hy
    exact ⟨b, O, [], hb⟩
  · rw [List.mem_append, not_or] at hn
    refine ⟨hd.not hn.1, fun _ u hx => ?_⟩
    obtain ⟨x, hy, rfl⟩ := List.mem_map.1 hx
    obtain ⟨b, hb⟩ := hu x hy
    exact hb.not hn.2

theorem condA_sub {M M' : List Name} {cond : Cond} (h : condA M cond = true) (hs : ∀ n ∈ M', n ∈ M) : condA M' cond = true := by
  have hw : ∀ e, without M e = true → without M' e = true := fun e he => by
    unfold without
    rw [List.all_eq_true]
    intro r hr
    have := without_ok he hr
    simp only [Bool.not_eq_true', List.contains_eq_mem, decide_eq_false_iff_not]
    exact fun hn => this (hs _ hn)
  induction cond with
  | cmp r x y => simp only [condA, Bool.and_eq_true] at h ⊢; exact ⟨hw _ h.1, hw _ h.2⟩
  | and x y ihx ihy => simp only [condA, Bool.and_eq_true] at h ⊢; exact ⟨ihx h.1, ihy h.2⟩
  | or x y ihx ihy => simp only [condA, Bool.and_eq_true] at h ⊢; exact ⟨ihx h.1, ihy h.2⟩

theorem lookCount_sim {a : Bool} {N O L : List Name} {D : List (Name × Expr)} {u0 : Ups} {s : RSt} (h : StA a N O L D u0 s) {c : RCtx} (h0 : 0 < c.fuel)
    {e : Expr} (he : without (N ++ O) e = true) : lookCount c (bareSt s) e = lookCount c s e := by
  unfold lookCount
  rw [evalKnown_without h h0 he]
  rfl

/-- a state that is at the end of a lookahead need not know the abbreviations -/
def StP (N O L : List Name) (D : List (Name × Expr)) (u0 : Ups) (s : RSt) : Prop :=
  StA true N O L [] u0 s ∧ (s.stopped = false → StA true N O L D u0 s)

theorem StA.p {N O L : List Name} {D : List (Name × Expr)} {u0 : Ups} {s : RSt} (h : StA true N O L D u0 s) : StP N O L D u0 s :=
  ⟨h.wider (fun _ h => h) (fun _ _ h => by cases h) h.dis, fun _ => h⟩

theorem StP.wider {N N' O L : List Name} {D D' : List (Name × Expr)} {u0 : Ups} {s : RSt} (h : StP N O L D u0 s) (hN : ∀ n ∈ N, n ∈ N')
    (hD : ∀ n e, dGet n D' = some e → dGet n D = some e) (hL : ∀ n ∈ L, n ∉ N') : StP N' O L D' u0 s :=
  ⟨h.1.wider hN (fun _ _ h => by cases h) hL, fun hs => (h.2 hs).wider hN hD hL⟩

theorem stopped_id {c : RCtx} {p : Prog} {s : RSt} (h : s.stopped = true) : readProg c p s = .ok s := by
  induction p with
  | skip => rfl
  | seq x y ihx ihy => simp only [readProg, ihx]; exact ihy
  | act x =>
    have hl : s.look = some 0 := of_decide_eq_true h
    have : s.proceed = none := by unfold RSt.proceed; rw [hl]; rfl
    simp only [readProg, this]
  | sect r body ih => rw [readProg, if_pos h]
  | loop v x y body ih => rw [readProg, if_pos h]
  | ite cond l t e iht ihe => simp [readProg, h]
  | abbr n e => rw [readProg, if_pos h]

theorem StP.run {c : RCtx} {p q : Prog} {N N' O L : List Name} {D D' : List (Name × Expr)} {u0 : Ups} {s : RSt} (h : StP N O L D u0 s)
    (hN : ∀ n ∈ N, n ∈ N') (hL : ∀ n ∈ L, n ∉ N')
    (hr : StA true N O L D u0 s → Sim bareSt (StP N' O L D' u0) (ErrA N' u0) (readProg c p s) (readProg c q (bareSt s))) :
    Sim bareSt (StP N' O L D' u0) (ErrA N' u0) (readProg c p s) (readProg c q (bareSt s)) := by
  by_cases hs : s.stopped = true
  · rw [stopped_id hs, stopped_id (s := bareSt s) hs]
    exact ⟨rfl, h.1.wider hN (fun _ _ h => by cases h) hL, fun hf => by rw [hs] at hf; cases hf⟩
  · exact hr (h.2 (by simpa using hs))

theorem readProg_sim {c : RCtx} (h0 : 0 < c.fuel) {p : Prog} : ∀ {N O : List Name} {A : Abbs} {D : List (Name × Expr)} {L : List Name} {u0 : Ups} {s : RSt},
    abbrA N O A D L p = true → StA true N O L D u0 s →
    Sim bareSt (StP (N ++ abbrsOf p) O L (always D p) u0) (ErrA (N ++ abbrsOf p) u0) (readProg c p s) (readProg c (A.prog p) (bareSt s)) := by
  induction p with
  | skip => intro N O A D L u0 s hp h; simp only [abbrsOf, List.append_nil]; exact ⟨rfl, h.p⟩
  | seq x y ihx ihy =>
    intro N O A D L u0 s hp h
    have hdis := abbrs_dis hp
    simp only [abbrA, Bool.and_eq_true] at hp
    simp only [abbrsOf, ← List.append_assoc]
    exact Sim.andThen ((ihx hp.1 h).mono (fun _ _ h => h) fun _ he => he.wider fun n hn => List.mem_append_left _ hn) fun s1 _ h1 =>
      h1.run (fun n hn => List.mem_append_left _ hn) (fun n hn hm => by
        rw [List.append_assoc] at hm
        rcases List.mem_append.1 hm with hm | hm
        · exact h.dis n hn hm
        · exact hdis n hm hn) fun h1 => ihy hp.2 h1
  | act x =>
    intro N O A D L u0 s hp h
    simp only [abbrsOf, List.append_nil, readProg, Abbs.prog]
    cases hpr : s.proceed with
    | none => rw [proceed_none hpr]; exact ⟨rfl, h.p⟩
    | some s2 =>
      obtain ⟨p1, p2, p3, p4⟩ := proceed_sim hpr
      rw [p1]
      exact (readAct_sim h0 hp (h.of p2 p3 p4)).mono (fun _ _ h => h.p) fun _ h => h
  | sect r body ih =>
    intro N O A D L u0 s hp h
    simp only [abbrA, nameA, Bool.and_eq_true, Bool.not_eq_true', List.contains_eq_mem, decide_eq_false_iff_not] at hp
    simp only [abbrsOf, List.append_nil, readProg, Abbs.prog, always]
    have hst : (bareSt s).stopped = s.stopped := rfl
    rw [hst]
    split
    · exact ⟨rfl, h.p⟩
    · obtain ⟨h1, h2⟩ := openR_sim h hp.1
      refine Sim.lift bareSt h1 h.err fun s1 hs1 => ?_
      obtain ⟨is, d, rfl, hcd, hin⟩ := h2 s1 hs1
      obtain ⟨b1, b2⟩ := bare_init hin.cur.lvl
      have hin2 : StA true [] (N ++ O) L [] ((s.cur, r.name, is) :: u0)
          { s with cur := initWork (dSet .up .mark d), ups := (s.cur, r.name, is) :: s.ups } := ⟨b2, hin.upsEq, hin.ups, hin.lv, hin.dis⟩
      have hb := ih hp.2 hin2
      have hbs : bareSt { s with cur := initWork (dSet .up .mark d), ups := (s.cur, r.name, is) :: s.ups } =
          { bareSt { s with cur := dSet .up .mark d, ups := (s.cur, r.name, is) :: s.ups } with cur := initWork (bare (dSet .up .mark d)) } := by
        unfold bareSt; simp only [b1, (bare_clean hcd).1]
      rw [hbs] at hb
      refine Sim.andThen (P := StP ([] ++ abbrsOf body) (N ++ O) L (always [] body) ((s.cur, r.name, is) :: u0))
        (hb.mono (fun _ _ h => h) fun s' he => ErrA.up he h.cur) fun s2 hs2 hP => ?_
      replace hP := hP.1
      have hfr2 := readProg_frame hs2
      obtain ⟨d', g1, g2, g3⟩ := hP.cur.remove
      have gr : removeWork (bareSt s2).cur = (removeWork s2.cur).map (fun x => x) := by
        rw [g1, show (bareSt s2).cur = bare s2.cur from rfl, g2]; rfl
      refine Sim.lift (fun x => x) gr (hP.err.up h.cur) fun cur hcur => ?_
      rw [g1] at hcur
      cases hcur
      have e3 : (⟨d', (bareSt s2).ups, s2.lv, s2.look, s2.ofs, s2.ignoreAll, s2.recs, s2.spans⟩ : RSt) = bareSt { s2 with cur := d' } := by
        unfold bareSt; simp only [bare_false g3]
      have e4 : ∀ f : RSt → Out RSt, f { bareSt s2 with cur := d' } = f (bareSt { s2 with cur := d' }) := fun f => congrArg f e3
      obtain ⟨k1, k2⟩ := closeR_sim h hp.1 (s2 := { s2 with cur := d' }) g3 hP.upsEq hfr2.lv
      have hE : ErrA N u0 { s2 with cur := d' } :=
        ⟨true, s.cur, h.cur.lite, .inr ⟨[], (r.name, is), hP.upsEq⟩⟩
      have := Sim.lift (F := bareSt) (E := ErrA N u0) (Q := StP N O L D u0) (s := { s2 with cur := d' }) (f := Out.ok) (f' := Out.ok) bareSt k1 hE
        fun s3 hs3 => ⟨rfl, (k2 s3 hs3).p⟩
      rw [← e3] at this
      exact this
  | loop v e1 e2 body ih =>
    intro N O A D L u0 s hp h
    have hdis := abbrs_dis hp
    simp only [abbrA, Bool.and_eq_true, Bool.not_eq_true', List.contains_eq_mem, decide_eq_false_iff_not, List.mem_append, not_or] at hp
    obtain ⟨⟨⟨hv, he1⟩, he2⟩, hb⟩ := hp
    simp only [abbrsOf, readProg, Abbs.prog, always] at hdis ⊢
    have hst : (bareSt s).stopped = s.stopped := rfl
    have hL : ∀ n ∈ L, n ∉ N ++ abbrsOf body := fun n hn hm => by
      rcases List.mem_append.1 hm with hm | hm
      · exact h.dis n hn hm
      · exact hdis n hm hn
    have hw : StA true (N ++ abbrsOf body) O L D u0 s := h.wider (fun n hn => List.mem_append_left _ hn) (fun _ _ h => h) hL
    rw [hst]
    split
    · exact ⟨rfl, hw.p⟩
    · refine Sim.lift' (loopHead_sim h h0 he1 he2) hw.err fun (x, y) hxy => ?_
      have hvb : v ∉ N ++ abbrsOf body := fun hm => by
        rcases List.mem_append.1 hm with hm | hm
        · exact hv.1 hm
        · exact abbrs_dis hb v hm List.mem_cons_self
      refine Sim.andThen (P := StP (N ++ abbrsOf body) O (v :: L) D u0)
        (iterate_sim (F := bareSt) (P := StP (N ++ abbrsOf body) O (v :: L) D u0) (E := ErrA (N ++ abbrsOf body) u0) (set := RSt.setVar v) (fun _ _ => rfl)
          (fun i s1 h1 => ?_) _ (hw.push hvb).p)
        fun s1 hs1 h1 => ?_
      · have h1' : StP (N ++ abbrsOf body) O (v :: L) D u0 (s1.setVar v i) := ⟨h1.1.set i, fun hs => (h1.2 hs).set i⟩
        refine h1'.run (fun _ h => h) h1.1.dis fun h1 => ?_
        refine (ih hb h1).mono (fun s2 _ h2 => ?_) fun s2 he => he.wider ?_
        · have := h2.wider (N' := N ++ abbrsOf body) (D' := D) (fun n hn => ?_) (always_ext hb) h1.dis
          · exact this
          · rcases List.mem_append.1 hn with hn | hn
            · exact hn
            · exact List.mem_append_right _ hn
        · intro n hn
          rcases List.mem_append.1 hn with hn | hn
          · exact hn
          · exact List.mem_append_right _ hn
      · refine ⟨by split <;> rfl, ?_⟩
        have := loop_lv (lv := fun s : RSt => s.lv) (setVar := RSt.setVar v) (fun _ _ => rfl) (fun s s' hs => (readProg_frame hs).lv)
          (loopHead_ok hxy) hs1
        have hpop : ∀ {D : List (Name × Expr)}, StA true (N ++ abbrsOf body) O (v :: L) D u0 s1 →
            StA true (N ++ abbrsOf body) O L D u0 (if x ≤ y then { s1 with lv := dDel v s1.lv } else s1) := by
          intro D h1
          refine StA.pop (s0 := s) (v := v) ?_ h.lv ?_
          · split
            · exact ⟨h1.cur, h1.upsEq, h1.ups, fun n j hn => (dGet_dDel_some hn).elim fun i => h1.lv n i, h1.dis⟩
            · exact h1
          · rw [← this]
            split <;> rfl
        refine ⟨hpop h1.1, fun hs => hpop (h1.2 ?_)⟩
        split at hs <;> exact hs
  | ite cond look t e iht ihe =>
    intro N O A D L u0 s hp h
    have hdis := abbrs_dis hp
    simp only [abbrA, Bool.and_eq_true] at hp
    obtain ⟨⟨⟨hc, hl⟩, ht⟩, he⟩ := hp
    simp only [abbrsOf, readProg, Abbs.prog, always] at hdis ⊢
    have hL : ∀ n ∈ L, n ∉ N ++ (abbrsOf t ++ abbrsOf e) := fun n hn hm => by
      rcases List.mem_append.1 hm with hm | hm
      · exact h.dis n hn hm
      · exact hdis n hm hn
    have hsub1 : ∀ n ∈ N ++ abbrsOf t, n ∈ N ++ (abbrsOf t ++ abbrsOf e) := fun n hn => by
      rw [← List.append_assoc]; exact List.mem_append_left _ hn
    have hsub2 : ∀ n ∈ N ++ abbrsOf e, n ∈ N ++ (abbrsOf t ++ abbrsOf e) := fun n hn => by
      rcases List.mem_append.1 hn with hn | hn
      · exact List.mem_append_left _ hn
      · exact List.mem_append_right _ (List.mem_append_right _ hn)
    have hw : StA true (N ++ (abbrsOf t ++ abbrsOf e)) O L D u0 s := h.wider (fun n hn => List.mem_append_left _ hn) (fun _ _ h => h) hL
    have hst : (bareSt s).stopped = s.stopped := rfl
    have hbr : ∀ b : Bool, Sim bareSt (StP (N ++ (abbrsOf t ++ abbrsOf e)) O L D u0) (ErrA (N ++ (abbrsOf t ++ abbrsOf e)) u0)
        (if b = true then readProg c t s else readProg c e s)
        (if b = true then readProg c (A.prog t) (bareSt s) else readProg c ((if A.isSome then A.after t else none : Abbs).prog e) (bareSt s)) := by
      intro b
      cases b with
      | true => exact (iht ht h).mono (fun s1 _ h1 => h1.wider hsub1 (always_ext ht) hL) fun s1 h1 => h1.wider hsub1
      | false => exact (ihe he h).mono (fun s1 _ h1 => h1.wider hsub2 (always_ext he) hL) fun s1 h1 => h1.wider hsub2
    rw [hst]
    split
    · exact ⟨rfl, hw.p⟩
    · cases look with
      | none =>
        simp only
        refine Sim.lift' ?_ hw.err fun b _ => hbr b
        rw [bareSt_env]
        exact evalCond_bare h.envA h0 (fun n hn => h.free hn) (condA_sub hc fun n hn => by
          rcases List.mem_append.1 hn with hn | hn
          · exact List.mem_append_left _ (List.mem_append_left _ hn)
          · exact List.mem_append_right _ hn)
      | some le =>
        simp only
        refine Sim.lift' (lookCount_sim h h0 (by simpa using hl)) hw.err fun n _ => ?_
        have hlen : (bareSt s).ups.length = s.ups.length := by unfold bareSt; simp
        have hlu : s.ups.length = u0.length := by rw [h.upsEq]
        have hin : StA true N O L D u0 { s with look := some n, ignoreAll := true } := h.of rfl rfl rfl
        have hrun := iht ht hin
        have hdec : ∀ s' : RSt, ErrA (N ++ abbrsOf t) u0 s' →
            Sim bareSt (StP (N ++ (abbrsOf t ++ abbrsOf e)) O L D u0) (ErrA (N ++ (abbrsOf t ++ abbrsOf e)) u0)
              (Out.lift s' (evalCond c.fuel (s'.envAt s.ups.length) cond) fun b => if b = true then readProg c t s else readProg c e s)
              (Out.lift (bareSt s') (evalCond c.fuel ((bareSt s').envAt (bareSt s).ups.length) cond) fun b =>
                if b = true then readProg c (A.prog t) (bareSt s) else readProg c ((if A.isSome then A.after t else none : Abbs).prog e) (bareSt s)) := by
          intro s' hs'
          obtain ⟨a, d, hd, e1, e2⟩ := hs'.env
          refine Sim.lift' ?_ (hs'.wider hsub1) fun b _ => hbr b
          rw [hlen, hlu, e1, e2]
          obtain ⟨k1, k2⟩ := StA.condEnv h.ups hd s'.lv
          exact evalCond_bare k1 h0 k2 hc
        revert hrun
        have hbl : bareSt { s with look := some n, ignoreAll := true } = { bareSt s with look := some n, ignoreAll := true } := rfl
        rw [hbl]
        cases readProg c t { s with look := some n, ignoreAll := true } with
        | ok s' =>
          rintro ⟨hs, hs'⟩
          rw [hs]
          exact hdec s' hs'.1.err
        | err er s' =>
          rintro (hs | ⟨hs, hs'⟩)
          · subst hs; exact .inl rfl
          · rw [hs]
            cases er <;> first | exact hdec s' hs' | exact .inr ⟨rfl, hs'.wider hsub1⟩
  | abbr m x =>
    intro N O A D L u0 s hp h
    have hdis := abbrs_dis hp
    simp only [abbrA, Bool.and_eq_true, Option.isNone_iff_eq_none] at hp
    simp only [abbrsOf, readProg, Abbs.prog, always] at hdis ⊢
    have hL : ∀ n ∈ L, n ∉ N ++ [m] := fun n hn hm => by
      rcases List.mem_append.1 hm with hm | hm
      · exact h.dis n hn hm
      · exact hdis n hm hn
    split
    · rename_i hs
      exact ⟨rfl, h.wider (fun n hn => List.mem_append_left _ hn) (fun _ _ h => by cases h) hL, fun hf => by rw [hs] at hf; cases hf⟩
    · cases hi : introAbbr s.cur m x with
      | error er =>
        refine .inl ?_
        simp only [introAbbr] at hi
        split at hi
        · cases hi; rfl
        · cases hi
      | ok d' =>
        obtain ⟨k1, k2⟩ := h.cur.intro hi
        refine ⟨?_, StA.p ⟨k2, h.upsEq, h.ups, h.lv, hL⟩⟩
        unfold bareSt
        simp only [k1]

end Verif.CF
