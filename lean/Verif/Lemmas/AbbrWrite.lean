import Verif.Lemmas.AbbrProg
import Verif.Lemmas.Simulate
/-
Writing with abbreviations and with abbreviations written out.
-/
namespace Verif.CF
open Verif Spec

/-- what the two states of the interpreter have in common -/
def toR (s : WSt) : RSt := { cur := s.cur, ups := s.ups, lv := s.lv }

def bareW (s : WSt) : WSt := { s with cur := bare s.cur, ups := s.ups.map fun x => (bare x.1, x.2) }

theorem toR_bare (s : WSt) : toR (bareW s) = bareSt (toR s) := rfl
theorem toR_env (s : WSt) : (toR s).env = s.env := rfl

theorem bareW_env (s : WSt) : (bareW s).env = bareEnv s.env := by
  rw [← toR_env, toR_bare, bareSt_env, toR_env]

/-- The state, and which names cannot be abbreviations. -/
structure StW (M : List Name) (a : Bool) (N O L : List Name) (D : List (Name × Expr)) (u0 : Ups) (s : WSt) : Prop where
  st : StA a N O L D u0 (toR s)
  sub : ∀ n ∈ N ++ O, n ∈ M

def SimW {σ : Type} (F : σ → σ) (P : σ → Prop) (r r' : Res σ) : Prop :=
  match r with
  | .ok s => r' = .ok (F s) ∧ P s
  | .error e => e = .abbrevCollision ∨ r' = .error e

theorem SimW.mono {σ : Type} {F : σ → σ} {P Q : σ → Prop} {r r' : Res σ} (h : SimW F P r r') (hP : ∀ s, r = .ok s → P s → Q s) : SimW F Q r r' := by
  cases r with
  | ok s => exact ⟨h.1, hP s rfl h.2⟩
  | error e => exact h

theorem SimW.bind {σ τ : Type} {F : σ → σ} {G : τ → τ} {P : σ → Prop} {Q : τ → Prop} {r r' : Res σ} {f f' : σ → Res τ} (h : SimW F P r r')
    (hf : ∀ s, r = .ok s → P s → SimW G Q (f s) (f' (F s))) : SimW G Q (r >>= f) (r' >>= f') := by
  cases r with
  | ok s => obtain ⟨h1, h2⟩ := h; subst h1; exact hf s rfl h2
  | error e =>
    rcases h with h | h
    · exact .inl h
    · subst h; exact .inr rfl

theorem SimW.same {σ τ : Type} {G : τ → τ} {Q : τ → Prop} {r r' : Res σ} (hr : r' = r) {f f' : σ → Res τ}
    (hf : ∀ s, r = .ok s → SimW G Q (f s) (f' s)) : SimW G Q (r >>= f) (r' >>= f') := by
  subst hr
  cases r' with
  | ok s => exact hf s rfl
  | error e => exact .inr rfl

theorem evalKnown_simW {M : List Name} {a : Bool} {N O L : List Name} {A : Abbs} {D : List (Name × Expr)} {u0 : Ups} {s : WSt} (h : StW M a N O L D u0 s)
    {fuel : Nat} (h0 : 0 < fuel) {e : Expr} (he : exprA N A D e = true) {ci : Bool} :
    evalKnown fuel (bareW s).env false ci (A.expr e) = evalKnown fuel s.env false ci e := by
  unfold evalKnown
  rw [bareW_env, ← toR_env, evalExpr_expand (o := ⟨false, ci, false⟩) (h.st.abbEnv N A) (fun n hn => h.st.freeCur hn) h0 he]

theorem mapWrite_simW {M : List Name} {a : Bool} {N O L : List Name} {A : Abbs} {D : List (Name × Expr)} {u0 : Ups} {s : WSt} (h : StW M a N O L D u0 s)
    {fuel : Nat} (h0 : 0 < fuel) {es : List Expr} (he : es.all (exprA N A D) = true) :
    mapWrite fuel (bareW s).env (es.map A.expr) = mapWrite fuel s.env es := by
  unfold mapWrite
  induction es with
  | nil => rfl
  | cons e es ih =>
    simp only [List.all_cons, Bool.and_eq_true] at he
    simp only [List.map_cons, List.mapM_cons, evalKnown_simW h h0 he.1, ih he.2]

/-- names without abbreviations -/
theorem mapWrite_names {M : List Name} {a : Bool} {N O L : List Name} {D : List (Name × Expr)} {u0 : Ups} {s : WSt} (h : StW M a N O L D u0 s)
    {fuel : Nat} (h0 : 0 < fuel) {es : List Expr} (he : es.all (without N) = true) :
    mapWrite fuel (bareW s).env es = mapWrite fuel s.env es := by
  have := mapWrite_simW h (A := none) h0 (es := es) (by
    rw [List.all_eq_true] at he ⊢
    exact fun e hm => (exprA_nil (he e hm)).1)
  rwa [expr_none_map] at this

theorem matScope_bare {us : List DDic} : ∀ {d : DDic}, "MAT" ∉ abbrNames d → (∀ u ∈ us, "MAT" ∉ abbrNames u) →
    matScope (bare d) (us.map bare) = bare (matScope d us) := by
  induction us with
  | nil => intro d _ _; rfl
  | cons u us ih =>
    intro d hd hu
    simp only [List.map_cons, matScope, dHas_bare hd, show dHas Key.up (bare d) = dHas Key.up d by unfold dHas; rw [bare_up]]
    split
    · exact ih (hu u List.mem_cons_self) fun x hx => hu x (List.mem_cons_of_mem _ hx)
    · rfl

theorem matScope_mem {us : List DDic} : ∀ {d : DDic}, matScope d us = d ∨ matScope d us ∈ us := by
  induction us with
  | nil => intro d; exact .inl rfl
  | cons u us ih =>
    intro d
    simp only [matScope]
    split
    · rcases ih (d := u) with h | h
      · rw [h]; exact .inr List.mem_cons_self
      · exact .inr (List.mem_cons_of_mem _ h)
    · exact .inl rfl

theorem getCtrl_simW {M : List Name} {a : Bool} {N O L : List Name} {D : List (Name × Expr)} {u0 : Ups} {s : WSt} (h : StW M a N O L D u0 s)
    (hM : ctlA M = true) : getCtrl (bareW s) = getCtrl s := by
  simp only [ctlA, ctlNames, List.all_cons, List.all_nil, Bool.and_true, Bool.and_eq_true, Bool.not_eq_true', List.contains_eq_mem,
    decide_eq_false_iff_not] at hM
  have hf : ∀ n, n ∉ M → FreeRef s.env true n := fun n hn => h.st.free fun hm => hn (h.sub n hm)
  have ho : (bareW s).outer = s.outer.map bare := by
    unfold WSt.outer bareW; simp [List.map_map, Function.comp_def]
  have hm := hf _ hM.1
  have hsc : ∀ n, n ∉ M → n ∉ abbrNames (matScope s.cur s.outer) := by
    intro n hn
    have := hf n hn
    rcases matScope_mem (us := s.outer) (d := s.cur) with e | e
    · rw [e]; exact this.1
    · exact this.2 rfl _ e
  unfold getCtrl
  rw [ho, show (bareW s).cur = bare s.cur from rfl, matScope_bare (d := s.cur) (us := s.outer) hm.1 (hm.2 rfl)]
  unfold ctrlNum
  dsimp only
  rw [bare_get (hsc _ hM.1), bare_get (hsc _ hM.2.1), bare_get (hsc _ hM.2.2)]

theorem getVarvalFull_simW {M : List Name} {a : Bool} {N O L : List Name} {D : List (Name × Expr)} {u0 : Ups} {s : WSt} (h : StW M a N O L D u0 s)
    {fuel : Nat} {r : VarRef} (hr : r.name ∉ M) : getVarvalFull fuel (bareW s).env true r = getVarvalFull fuel s.env true r := by
  have hf : FreeRef s.env true r.name := h.st.free fun hm => hr (h.sub _ hm)
  unfold getVarvalFull
  rw [bareW_env, getVarval_bare hf]
  cases hv : getVarval s.env true r with
  | error e => rfl
  | ok v =>
    have := getVarval_clean h.st.envA hf hv
    cases v <;> first | rfl | exact absurd this clean_abb

theorem mapTextWrite_simW {M : List Name} {a : Bool} {N O L : List Name} {D : List (Name × Expr)} {u0 : Ups} {s : WSt} (h : StW M a N O L D u0 s)
    {fuel : Nat} {fs : List TextField} (hr : ∀ f ∈ fs, ∀ r, f.ref = some r → r.name ∉ M) :
    mapTextWrite fuel (bareW s).env fs = mapTextWrite fuel s.env fs := by
  induction fs with
  | nil => rfl
  | cons f fs ih =>
    have hp : textPart fuel (bareW s).env f = textPart fuel s.env f := by
      unfold textPart
      cases hf : f.ref with
      | none => rfl
      | some r => simp only [getVarvalFull_simW h (hr f List.mem_cons_self r hf)]
    simp only [mapTextWrite, hp, ih fun f hf => hr f (List.mem_cons_of_mem _ hf)]

theorem openW_simW {M : List Name} {a : Bool} {N O L : List Name} {D : List (Name × Expr)} {u0 : Ups} {s : WSt} (h : StW M a N O L D u0 s)
    {r : VarRef} (hr : r.name ∉ N) : openW (bareW s) r = (openW s r).map bareW ∧ ∀ s1, openW s r = .ok s1 → ∃ is d,
      s1 = { s with cur := dSet .up .mark d, ups := (s.cur, r.name, is) :: s.ups } ∧ Clean (.dic d) ∧
      StW M false [] (N ++ O) L [] ((s.cur, r.name, is) :: u0) s1 := by
  have hlv : (bareW s).lv = s.lv := rfl
  have hcur : (bareW s).cur = bare s.cur := rfl
  have hbd : Bnd a N D s.cur := h.st.cur
  constructor
  · unfold openW
    rw [hlv, hcur, dHas_bare (hbd.not hr), bare_get (hbd.not hr)]
    split
    · rfl
    cases r.idx.mapM (idxVal s.lv) with
    | error e => rfl
    | ok is =>
      cases hd : subDicW (dGet (.var r.name) s.cur) is with
      | error e => simp only [bind, Except.bind, hd]; rfl
      | ok d =>
        have hc : Clean (.dic d) := subDicW_clean (fun d' hd' => hbd.lvl.dic_clean hd') hd
        simp only [bind, Except.bind, hd, pure, Except.pure, Except.map]
        simp only [bareW, (bare_clean hc).1, List.map_cons]
  · intro s1 h1
    obtain ⟨is, d, _, hd, rfl⟩ := openW_ok h1
    have hc : Clean (.dic d) := subDicW_clean (fun d' hd' => hbd.lvl.dic_clean hd') hd
    refine ⟨is, d, rfl, hc, ⟨(bare_clean hc).2, ?_, ?_, h.st.lv, fun _ _ => by simp⟩, by simpa using h.sub⟩
    · have := h.st.upsEq
      simp only [toR] at this ⊢
      rw [this]
    intro u hu
    rcases List.mem_cons.1 hu with rfl | hu
    · exact ⟨a, hbd.lite.wider (fun n hn => List.mem_append_left _ hn) fun _ _ h => h⟩
    · obtain ⟨b, hb⟩ := h.st.ups u hu
      exact ⟨b, hb.wider (fun n hn => List.mem_append_right _ hn) fun _ _ h => h⟩

theorem closeW_simW {M : List Name} {a : Bool} {N O L : List Name} {D : List (Name × Expr)} {u0 : Ups} {s : WSt} (h : StW M a N O L D u0 s)
    {n : Name} (hn : n ∉ N) {is : List Int} {s2 : WSt} (hl : Lvl false s2.cur) (hu : s2.ups = (s.cur, n, is) :: u0) (hlv : s2.lv = s.lv) :
    SimW bareW (StW M a N O L D u0) (closeW s2) (closeW (bareW s2)) := by
  have hbd : Bnd a N D s.cur := h.st.cur
  have hb : (bareW s2).ups = (bare s.cur, n, is) :: u0.map (fun x => (bare x.1, x.2)) := by unfold bareW; simp [hu]
  have hc : (bareW s2).cur = s2.cur := bare_false hl
  unfold closeW
  rw [hb, hu]
  simp only [hc, bare_get (hbd.not hn)]
  cases hs : setArr (dGet (.var n) s.cur) is (.dic (dDel .up s2.cur)) with
  | error e => exact .inr rfl
  | ok new =>
    simp only [bind, Except.bind, pure, Except.pure]
    refine ⟨by simp only [bareW, bare_dSet (hbd.not hn)], ⟨hbd.set hn (setArr_clean (fun d' hd' => hbd.lvl.dic_clean hd') hl.clean hs), rfl, h.st.ups,
      fun m i hm => h.st.lv m i (by rw [show (toR s).lv = s.lv from rfl, ← hlv]; exact hm), h.st.dis⟩, h.sub⟩

/-! ### list bodies -/

theorem iterateW_same {σ : Type} {P : σ → Prop} {set : Int → σ → σ} {body body' : σ → Res σ} (hset : ∀ i s, P s → P (set i s))
    (hb : ∀ s, P s → body' s = body s ∧ ∀ s', body s = .ok s' → P s') (is : List Int) {s : σ} (h : P s) :
    iterateW set body' is s = iterateW set body is s ∧ ∀ s', iterateW set body is s = .ok s' → P s' := by
  induction is generalizing s with
  | nil => exact ⟨rfl, fun s' hs => by cases hs; exact h⟩
  | cons i is ih =>
    obtain ⟨h1, h2⟩ := hb _ (hset i s h)
    simp only [iterateW, h1]
    cases hbd : body (set i s) with
    | error e => exact ⟨rfl, fun _ hs => by cases hs⟩
    | ok s1 => exact ih (h2 s1 hbd)

theorem writeBody_lvEq {fuel : Nat} {s : WSt} {b : LBody} {l l' : WLSt} (h : writeBody fuel s b l = .ok l') : l'.lv = l.lv := by
  induction b generalizing l l' with
  | nil => cases h; rfl
  | seq x y ihx ihy =>
    simp only [writeBody, bind_ok] at h
    obtain ⟨l1, h1, h2⟩ := h
    rw [ihy h2, ihx h1]
  | expr e =>
    simp only [writeBody, bind_ok, pure_ok] at h
    obtain ⟨_, _, _, _, rfl⟩ := h
    rfl
  | pad => cases h; rfl
  | loop v e1 e2 body ih =>
    simp only [writeBody, bind_ok, pure_ok] at h
    obtain ⟨⟨x, y⟩, h1, l1, h2, rfl⟩ := h
    have hv := loopHead_ok h1
    dsimp only at hv ⊢
    by_cases hxy : x ≤ y
    · obtain ⟨i, hi⟩ := iterateW_lv (lv := WLSt.lv) (setVar := WLSt.setVar v) (fun _ _ => rfl) (fun _ _ hb => ih hb) _ h2 (by rw [intRange_cons hxy]; simp)
      rw [if_pos hxy]
      simp only [hi]
      exact dDel_dSet _ hv
    · rw [if_neg hxy]
      rw [intRange_empty (by omega)] at h2
      cases h2; rfl

theorem writeBody_simW {M : List Name} {a : Bool} {N O : List Name} {A : Abbs} {D : List (Name × Expr)} {u0 : Ups} {fuel : Nat} (h0 : 0 < fuel) {s : WSt} {b : LBody}
    (hb : bodyA N O A D b = true) {L : List Name} {l : WLSt} (h : StW M a N O L D u0 { s with lv := l.lv }) :
    writeBody fuel (bareW s) (A.body b) l = writeBody fuel s b l ∧
      ∀ l', writeBody fuel s b l = .ok l' → StW M a N O L D u0 { s with lv := l'.lv } := by
  induction b generalizing l L with
  | nil => exact ⟨rfl, fun l' hl => by cases hl; exact h⟩
  | seq x y ihx ihy =>
    simp only [bodyA, Bool.and_eq_true] at hb
    obtain ⟨h1, h2⟩ := ihx hb.1 h
    simp only [Abbs.body, writeBody, h1]
    cases hx : writeBody fuel s x l with
    | error e => exact ⟨rfl, fun _ hs => by cases hs⟩
    | ok l1 => exact ihy hb.2 (h2 l1 hx)
  | expr e =>
    have := evalKnown_simW h h0 (A := A) (e := e) (ci := false) (by simpa [bodyA] using hb)
    have e1 : (⟨(bareW s).cur, (bareW s).outer, l.lv⟩ : Env) = (bareW { s with lv := l.lv }).env := rfl
    have e2 : (⟨s.cur, s.outer, l.lv⟩ : Env) = WSt.env { s with lv := l.lv } := rfl
    simp only [Abbs.body, writeBody]
    rw [e1, e2, this]
    refine ⟨rfl, fun l' hl => ?_⟩
    simp only [bind_ok, pure_ok] at hl
    obtain ⟨_, _, _, _, rfl⟩ := hl
    exact h
  | pad =>
    refine ⟨rfl, fun l' hl => ?_⟩
    cases hl
    exact h
  | loop v e1 e2 body ih =>
    simp only [bodyA, Bool.and_eq_true, Bool.not_eq_true', List.contains_eq_mem, decide_eq_false_iff_not, List.mem_append, not_or] at hb
    obtain ⟨⟨⟨hv, he1⟩, he2⟩, hb⟩ := hb
    have hh := loopHead_sim h.st h0 (v := v) he1 he2
    have g1 : (⟨(bareW s).cur, (bareW s).outer, l.lv⟩ : Env) = (bareSt (toR { s with lv := l.lv })).env := rfl
    have g2 : (⟨s.cur, s.outer, l.lv⟩ : Env) = (toR { s with lv := l.lv }).env := rfl
    simp only [Abbs.body, writeBody]
    rw [g1, g2, hh]
    cases hx : loopHead fuel (toR { s with lv := l.lv }).env v e1 e2 with
    | error e => exact ⟨rfl, fun _ hs => by cases hs⟩
    | ok xy =>
      obtain ⟨x, y⟩ := xy
      obtain ⟨k1, k2⟩ := iterateW_same (P := fun l : WLSt => StW M a N O (v :: L) D u0 { s with lv := l.lv }) (set := WLSt.setVar v)
        (body := writeBody fuel s body) (body' := writeBody fuel (bareW s) (A.body body)) (fun i l hl => ⟨hl.st.set i, hl.sub⟩)
        (fun l hl => ih hb hl) (intRange x y) (s := l) ⟨h.st.push hv.1, h.sub⟩
      simp only [bind, Except.bind, k1]
      refine ⟨trivial, fun l' hl => ?_⟩
      cases hi : iterateW (WLSt.setVar v) (writeBody fuel s body) (intRange x y) l with
      | error e => rw [hi] at hl; cases hl
      | ok l1 =>
        rw [hi] at hl
        simp only [pure, Except.pure, Except.ok.injEq] at hl
        subst hl
        have hlv : (if x ≤ y then { l1 with lv := dDel v l1.lv } else l1 : WLSt).lv = l.lv := by
          have hfr : (writeBody fuel s (.loop v e1 e2 body) l) = .ok (if x ≤ y then { l1 with lv := dDel v l1.lv } else l1) := by
            simp only [writeBody]
            rw [g2, hx]
            simp only [bind, Except.bind, hi]
            rfl
          exact writeBody_lvEq hfr
        rw [hlv]
        exact h

/-! ### records -/

theorem inTable_simW {α : Type} {M : List Name} {a : Bool} {N O L : List Name} {D : List (Name × Expr)} {u0 : Ups} {s : WSt} (h : StW M a N O L D u0 s)
    {name : Option VarRef} {f f' : WSt → Res α} (hn : name = none → f' (bareW s) = f s) (hs : ∀ r, name = some r → r.name ∉ N ∧
      ∀ u0 s, StW M false [] (N ++ O) L [] u0 s → f' (bareW s) = f s) : inTableW name (bareW s) f' = inTableW name s f := by
  cases name with
  | none => exact hn rfl
  | some r =>
    obtain ⟨g1, g2⟩ := hs r rfl
    obtain ⟨h1, h2⟩ := openW_simW h g1
    simp only [inTableW, h1]
    cases ho : openW s r with
    | error e => rfl
    | ok s1 =>
      obtain ⟨is, d, _, _, hst⟩ := h2 s1 ho
      exact g2 _ _ hst

theorem nbt_without {N : List Name} (h1 : "NBT" ∉ N) (h2 : "INT" ∉ N) : nbtInt.all (without N) = true := by
  simp [nbtInt, without, Expr.vars, h1, h2]

theorem writeAct_simW {M : List Name} {a : Bool} {N O L : List Name} {A : Abbs} {D : List (Name × Expr)} {u0 : Ups} {fuel : Nat} (h0 : 0 < fuel) {s : WSt} {x : Act}
    (hx : actA N O A D x = true) (hM : ctlA M = true) (hT : ∀ n ∈ textRefs x, n ∉ M) (h : StW M a N O L D u0 s) :
    writeAct fuel (bareW s) (A.act x) = writeAct fuel s x := by
  have hc := getCtrl_simW h hM
  cases x with
  | text k fs =>
    simp only [Abbs.act, writeAct, hc]
    rw [mapTextWrite_simW h fun f hf r hr => hT _ (by
      simp only [textRefs, List.mem_filterMap]
      exact ⟨f, hf, by rw [hr]; rfl⟩)]
  | cont hd k fs =>
    simp only [actA, Bool.and_eq_true] at hx
    simp only [Abbs.act, writeAct, hc, mapWrite_simW h h0 hx.2]
  | dir k fs =>
    simp only [actA] at hx
    simp only [Abbs.act, writeAct, hc, mapWrite_simW h h0 hx]
  | intg k fs nd =>
    simp only [actA, Bool.and_eq_true] at hx
    have := evalKnown_without h.st h0 hx.2 (ci := true)
    rw [← toR_bare, toR_env, toR_env] at this
    simp only [Abbs.act, writeAct, hc, mapWrite_simW h h0 hx.1, this]
  | tab1 k fs x y name =>
    simp only [actA, Bool.and_eq_true] at hx
    have h4 : (fs.take 4).all (exprA N A D) = true := by
      have := hx.1
      rw [List.all_eq_true] at this ⊢
      exact fun e he => this e (List.mem_of_mem_take he)
    simp only [Abbs.act, writeAct, hc]
    rw [← List.map_take, mapWrite_simW h h0 h4]
    rw [inTable_simW h (f := fun s1 => mapWrite fuel s1.env (nbtInt ++ [.var x, .var y]))]
    · rintro rfl
      have := hx.2
      simp only [nameA, Bool.and_eq_true, Bool.not_eq_true', List.contains_eq_mem, decide_eq_false_iff_not] at this
      refine mapWrite_names h h0 ?_
      rw [List.all_append, nbt_without this.1.2 this.2]
      simp [without, Expr.vars, this.1.1]
    · rintro r rfl
      have := hx.2
      simp only [nameA, Bool.not_eq_true', List.contains_eq_mem, decide_eq_false_iff_not] at this
      exact ⟨this, fun u0 s hs => mapWrite_names hs h0 (by simp [without])⟩
  | tab2 k fs name =>
    simp only [actA, Bool.and_eq_true] at hx
    have h4 : (fs.take 4 ++ fs.drop 5).all (exprA N A D) = true := by
      have := hx.1
      rw [List.all_eq_true] at this ⊢
      intro e he
      rcases List.mem_append.1 he with he | he
      · exact this e (List.mem_of_mem_take he)
      · exact this e (List.mem_of_mem_drop he)
    simp only [Abbs.act, writeAct, hc]
    rw [← List.map_take, ← List.map_drop, ← List.map_append, mapWrite_simW h h0 h4]
    rw [inTable_simW h (f := fun s1 => mapWrite fuel s1.env nbtInt)]
    · rintro rfl
      have := hx.2
      simp only [Bool.and_eq_true, Bool.not_eq_true', List.contains_eq_mem, decide_eq_false_iff_not] at this
      exact mapWrite_names h h0 (nbt_without this.1 this.2)
    · rintro r rfl
      have := hx.2
      simp only [nameA, Bool.not_eq_true', List.contains_eq_mem, decide_eq_false_iff_not] at this
      exact ⟨this, fun u0 s hs => mapWrite_names hs h0 (by simp [without])⟩
  | list k fs body name =>
    simp only [actA, Bool.and_eq_true] at hx
    simp only [Abbs.act, writeAct, hc, mapWrite_simW h h0 hx.1]
    rw [inTable_simW h (f := fun s1 => writeBody fuel s1 body ⟨[], s1.lv⟩)]
    · rintro rfl
      exact (writeBody_simW h0 (s := s) (l := ⟨[], s.lv⟩) hx.2 h).1
    · rintro r rfl
      have := hx.2
      simp only [nameA, Bool.and_eq_true, Bool.not_eq_true', List.contains_eq_mem, decide_eq_false_iff_not] at this
      refine ⟨this.1, fun u0 s hs => ?_⟩
      have hb := (writeBody_simW h0 (s := s) (l := ⟨[], s.lv⟩) this.2 hs).1
      rw [Abbs.body_none] at hb
      exact hb
  | send => simp only [Abbs.act, writeAct, hc]
  | stop => rfl

/-! ### recipes -/

theorem iterateW_simW {σ : Type} {F : σ → σ} {P : σ → Prop} {set : Int → σ → σ} {body body' : σ → Res σ} (hF : ∀ i s, set i (F s) = F (set i s))
    (hb : ∀ i s, P s → SimW F P (body (set i s)) (body' (F (set i s)))) (is : List Int) {s : σ} (h : P s) :
    SimW F P (iterateW set body is s) (iterateW set body' is (F s)) := by
  induction is generalizing s with
  | nil => exact ⟨rfl, h⟩
  | cons i is ih =>
    simp only [iterateW]
    rw [hF]
    exact SimW.bind (hb i s h) fun s1 _ h1 => ih h1

theorem abbrsOf_sub {p : Prog} {n : Name} (h : n ∈ abbrsOf p) : n ∈ abbrs p := by
  induction p with
  | skip | act _ | sect _ _ => cases h
  | seq a b iha ihb =>
    simp only [abbrsOf, abbrs, List.mem_append] at h ⊢
    exact h.imp iha ihb
  | loop v a b body ih => exact ih h
  | ite c l t e iht ihe =>
    simp only [abbrsOf, abbrs, List.mem_append] at h ⊢
    exact h.imp iht ihe
  | abbr m e => exact h

theorem StW.wider {M : List Name} {a : Bool} {N N' O L : List Name} {D D' : List (Name × Expr)} {u0 : Ups} {s : WSt} (h : StW M a N O L D u0 s) (hN : ∀ n ∈ N, n ∈ N')
    (hD : ∀ n e, dGet n D' = some e → dGet n D = some e) (hL : ∀ n ∈ L, n ∉ N') (hM : ∀ n ∈ N', n ∈ M) : StW M a N' O L D' u0 s :=
  ⟨h.st.wider hN hD hL, fun n hn => (List.mem_append.1 hn).elim (hM n) fun hn => h.sub n (List.mem_append_right _ hn)⟩

theorem writeProg_simW {M : List Name} (hM : ctlA M = true) {fuel : Nat} (h0 : 0 < fuel) {p : Prog} :
    ∀ {N O : List Name} {A : Abbs} {D : List (Name × Expr)} {L : List Name} {u0 : Ups} {s : WSt},
    abbrA N O A D L p = true → (∀ n ∈ abbrs p, n ∈ M) → (∀ n ∈ textNames p, n ∉ M) → StW M true N O L D u0 s →
    SimW bareW (StW M true (N ++ abbrsOf p) O L (always D p) u0) (writeProg fuel p s) (writeProg fuel (A.prog p) (bareW s)) := by
  induction p with
  | skip => intro N O A D L u0 s hp hm ht h; simp only [abbrsOf, List.append_nil]; exact ⟨rfl, h⟩
  | seq x y ihx ihy =>
    intro N O A D L u0 s hp hm ht h
    simp only [abbrA, Bool.and_eq_true] at hp
    simp only [abbrsOf, ← List.append_assoc]
    exact SimW.bind (ihx hp.1 (fun n hn => hm n (List.mem_append_left _ hn)) (fun n hn => ht n (List.mem_append_left _ hn)) h) fun s1 _ h1 =>
      ihy hp.2 (fun n hn => hm n (List.mem_append_right _ hn)) (fun n hn => ht n (List.mem_append_right _ hn)) h1
  | act x =>
    intro N O A D L u0 s hp hm ht h
    simp only [abbrsOf, List.append_nil, Abbs.prog, writeProg]
    exact SimW.same (writeAct_simW h0 hp hM ht h) fun r _ => ⟨rfl, h.st, h.sub⟩
  | sect r body ih =>
    intro N O A D L u0 s hp hm ht h
    simp only [abbrA, nameA, Bool.and_eq_true, Bool.not_eq_true', List.contains_eq_mem, decide_eq_false_iff_not] at hp
    simp only [abbrsOf, List.append_nil, writeProg, Abbs.prog, always]
    obtain ⟨h1, h2⟩ := openW_simW h hp.1
    rw [h1]
    cases ho : openW s r with
    | error e => exact .inr rfl
    | ok s1 =>
      obtain ⟨is, d, rfl, hcd, hin⟩ := h2 s1 ho
      obtain ⟨b1, b2⟩ := bare_init hin.st.cur.lvl
      have hin2 : StW M true [] (N ++ O) L [] ((s.cur, r.name, is) :: u0)
          { s with cur := initWork (dSet .up .mark d), ups := (s.cur, r.name, is) :: s.ups } := ⟨⟨b2, hin.st.upsEq, hin.st.ups, hin.st.lv, hin.st.dis⟩, hin.sub⟩
      have hb := ih hp.2 hm ht hin2
      have hbs : bareW { s with cur := initWork (dSet .up .mark d), ups := (s.cur, r.name, is) :: s.ups } =
          { bareW { s with cur := dSet .up .mark d, ups := (s.cur, r.name, is) :: s.ups } with cur := initWork (bare (dSet .up .mark d)) } := by
        have b1' : bare (initWork (dSet .up .mark d)) = initWork (dSet .up .mark d) := b1
        unfold bareW; simp only [b1', (bare_clean hcd).1]
      rw [hbs] at hb
      change SimW _ _ (writeProg fuel body _ >>= _) (writeProg fuel (Abbs.prog none body) _ >>= _)
      refine SimW.bind hb fun s2 hs2 hP => ?_
      have hfr2 := writeProg_frame hs2
      obtain ⟨d', g1, g2, g3⟩ := hP.st.cur.remove
      refine SimW.same (r := removeWork s2.cur) (r' := removeWork (bareW s2).cur) (g2.trans g1.symm) fun cur hcur => ?_
      have hcur' : d' = cur := by
        have := g1.symm.trans hcur
        cases this; rfl
      subst hcur'
      have e3 : ({ bareW s2 with cur := d' } : WSt) = bareW { s2 with cur := d' } := by
        unfold bareW; simp only [bare_false g3]
      rw [e3]
      exact closeW_simW h hp.1 (s2 := { s2 with cur := d' }) g3 hP.st.upsEq hfr2.lv
  | loop v e1 e2 body ih =>
    intro N O A D L u0 s hp hm ht h
    have hdis := abbrs_dis hp
    simp only [abbrA, Bool.and_eq_true, Bool.not_eq_true', List.contains_eq_mem, decide_eq_false_iff_not, List.mem_append, not_or] at hp
    obtain ⟨⟨⟨hv, he1⟩, he2⟩, hb⟩ := hp
    simp only [abbrsOf, writeProg, Abbs.prog, always] at hdis ⊢
    have hL : ∀ n ∈ L, n ∉ N ++ abbrsOf body := fun n hn hm => by
      rcases List.mem_append.1 hm with hm | hm
      · exact h.st.dis n hn hm
      · exact hdis n hm hn
    have hMb : ∀ n ∈ N ++ abbrsOf body, n ∈ M := fun n hn => (List.mem_append.1 hn).elim (fun hn => h.sub n (List.mem_append_left _ hn))
      fun hn => hm n (abbrsOf_sub hn)
    have hw : StW M true (N ++ abbrsOf body) O L D u0 s := h.wider (fun n hn => List.mem_append_left _ hn) (fun _ _ h => h) hL hMb
    have hlh := loopHead_sim h.st h0 (v := v) he1 he2
    refine SimW.same (r := loopHead fuel s.env v e1 e2) hlh fun (x, y) hxy => ?_
    have hvb : v ∉ N ++ abbrsOf body := fun hm => by
      rcases List.mem_append.1 hm with hm | hm
      · exact hv.1 hm
      · exact abbrs_dis hb v hm List.mem_cons_self
    refine SimW.bind (P := StW M true (N ++ abbrsOf body) O (v :: L) D u0)
      (iterateW_simW (F := bareW) (set := WSt.setVar v) (fun _ _ => rfl) (fun i s1 h1 => ?_) _ ⟨hw.st.push hvb, hw.sub⟩) fun s1 hs1 h1 => ?_
    · refine (ih hb hm ht (s := s1.setVar v i) ⟨h1.st.set i, h1.sub⟩).mono fun s2 _ h2 => h2.wider (fun n hn => ?_) (always_ext hb) h1.st.dis hMb
      rcases List.mem_append.1 hn with hn | hn
      · exact hn
      · exact List.mem_append_right _ hn
    · refine ⟨by split <;> rfl, ?_⟩
      have hlv : (if x ≤ y then { s1 with lv := dDel v s1.lv } else s1 : WSt).lv = s.lv := by
        have hfr : writeProg fuel (.loop v e1 e2 body) s = .ok (if x ≤ y then { s1 with lv := dDel v s1.lv } else s1) := by
          simp only [writeProg]
          rw [hxy]
          simp only [bind, Except.bind, hs1]
          rfl
        exact (writeProg_frame hfr).lv
      have hpop : StW M true (N ++ abbrsOf body) O (v :: L) D u0 (if x ≤ y then { s1 with lv := dDel v s1.lv } else s1) := by
        split
        · exact ⟨⟨h1.st.cur, h1.st.upsEq, h1.st.ups, fun n j hn => (dGet_dDel_some hn).elim fun i => h1.st.lv n i, h1.st.dis⟩, h1.sub⟩
        · exact h1
      exact ⟨StA.pop (s0 := toR s) (v := v) hpop.st h.st.lv hlv, hpop.sub⟩
  | ite cond look t e iht ihe =>
    intro N O A D L u0 s hp hm htx h
    have hdis := abbrs_dis hp
    simp only [abbrA, Bool.and_eq_true] at hp
    obtain ⟨⟨⟨hc, hl⟩, ht⟩, he⟩ := hp
    have hrw : ∀ A' t' e' s', writeProg fuel (.ite cond A' t' e') s' = (do
      if ← evalCond fuel s'.env cond then writeProg fuel t' s' else writeProg fuel e' s') := fun _ _ _ _ => by rw [writeProg.eq_def]
    simp only [abbrsOf, Abbs.prog, always, hrw] at hdis ⊢
    have hL : ∀ n ∈ L, n ∉ N ++ (abbrsOf t ++ abbrsOf e) := fun n hn hm => by
      rcases List.mem_append.1 hm with hm | hm
      · exact h.st.dis n hn hm
      · exact hdis n hm hn
    have hsub1 : ∀ n ∈ N ++ abbrsOf t, n ∈ N ++ (abbrsOf t ++ abbrsOf e) := fun n hn => by
      rw [← List.append_assoc]; exact List.mem_append_left _ hn
    have hsub2 : ∀ n ∈ N ++ abbrsOf e, n ∈ N ++ (abbrsOf t ++ abbrsOf e) := fun n hn => by
      rcases List.mem_append.1 hn with hn | hn
      · exact List.mem_append_left _ hn
      · exact List.mem_append_right _ (List.mem_append_right _ hn)
    have hMb : ∀ n ∈ N ++ (abbrsOf t ++ abbrsOf e), n ∈ M := fun n hn => by
      rcases List.mem_append.1 hn with hn | hn
      · exact h.sub n (List.mem_append_left _ hn)
      · exact hm n ((List.mem_append.1 hn).elim (fun h => List.mem_append_left _ (abbrsOf_sub h)) fun h => List.mem_append_right _ (abbrsOf_sub h))
    have hcd : evalCond fuel (bareW s).env cond = evalCond fuel s.env cond := by
      rw [bareW_env]
      exact evalCond_bare (env := s.env) h.st.envA h0 (fun n hn => h.st.free hn) (condA_sub hc fun n hn => by
        rcases List.mem_append.1 hn with hn | hn
        · exact List.mem_append_left _ (List.mem_append_left _ hn)
        · exact List.mem_append_right _ hn)
    refine SimW.same hcd fun b _ => ?_
    cases b with
    | true =>
      exact (iht ht (fun n hn => hm n (List.mem_append_left _ hn)) (fun n hn => htx n (List.mem_append_left _ hn)) h).mono fun s1 _ h1 =>
        h1.wider hsub1 (always_ext ht) hL hMb
    | false =>
      exact (ihe he (fun n hn => hm n (List.mem_append_right _ hn)) (fun n hn => htx n (List.mem_append_right _ hn)) h).mono fun s1 _ h1 =>
        h1.wider hsub2 (always_ext he) hL hMb
  | abbr m x =>
    intro N O A D L u0 s hp hm ht h
    have hdis := abbrs_dis hp
    simp only [abbrA, Bool.and_eq_true, Option.isNone_iff_eq_none] at hp
    simp only [abbrsOf, writeProg, Abbs.prog, always] at hdis ⊢
    have hL : ∀ n ∈ L, n ∉ N ++ [m] := fun n hn hm => by
      rcases List.mem_append.1 hm with hm | hm
      · exact h.st.dis n hn hm
      · exact hdis n hm hn
    cases hi : introAbbr s.cur m x with
    | error er =>
      refine .inl ?_
      simp only [introAbbr] at hi
      split at hi
      · cases hi; rfl
      · cases hi
    | ok d' =>
      have hbd : Bnd true N D s.cur := h.st.cur
      obtain ⟨k1, k2⟩ := hbd.intro hi
      refine ⟨?_, ⟨k2, h.st.upsEq, h.st.ups, h.st.lv, hL⟩, fun n hn => ?_⟩
      · unfold bareW
        simp only [k1]
      · rcases List.mem_append.1 hn with hn | hn
        · rcases List.mem_append.1 hn with hn | hn
          · exact h.sub n (List.mem_append_left _ hn)
          · exact hm n hn
        · exact h.sub n (List.mem_append_right _ hn)

end Verif.CF
