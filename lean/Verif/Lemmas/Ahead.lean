import Verif.Lemmas.Reread
import Verif.Spec.Tidy
/-
Lookahead: as long as the records that are looked at are the records that follow, reading depends on the lines only through
the records that are found in them.
-/
namespace Verif

/-! ## records looked at -/

/-- the record of a kind that stands next -/
def nextOf (c : RCtx) (s : RSt) (k : RKind) : Option (List ARec) :=
  match skipBlankLines c.lines s.ofs with
  | .error _ => none
  | .ok o => match readKind c.ro c.lines o k with
    | .error _ => none
    | .ok (q, _) => some [q]

/-- the record that an action reads; `none` if there is no such record -/
def actRec (c : RCtx) (a : Act) (s : RSt) : Option (List ARec) :=
  match a with
  | .intg _ _ nd => match evalKnown c.fuel s.env true true nd with
    | .ok (.num (.int n)) => nextOf c s (.intg n)
    | _ => some []
  | a => match a.kind with
    | some k => nextOf c s k
    | none => none

def iterLooks (set : Int → RSt → RSt) (run : RSt → Out RSt) (lk : RSt → Option (List ARec)) : List Int → RSt → Option (List ARec)
  | [], _ => some []
  | i :: is, s => (lk (set i s)).bind fun t => match run (set i s) with
    | .ok s1 => (iterLooks set run lk is s1).map (t ++ ·)
    | .err _ _ => some t

/-- the records that are read when part of a recipe is executed, also if that is stopped by a lookahead or by an error behind
a record; `none` if a record cannot be read, and for lookahead inside a lookahead -/
def looks (c : RCtx) : Prog → RSt → Option (List ARec)
  | .skip, _ => some []
  | .seq a b, s => (looks c a s).bind fun t => match readProg c a s with
    | .ok s1 => (looks c b s1).map (t ++ ·)
    | .err _ _ => some t
  | .act a, s => match s.proceed with
    | none => some []
    | some s => actRec c a s
  | .sect r body, s =>
    if s.stopped then some []
    else match openR s r with
      | .error _ => some []
      | .ok s1 => looks c body { s1 with cur := initWork s1.cur }
  | .loop v a b body, s =>
    if s.stopped then some []
    else match loopHead c.fuel s.env v a b with
      | .error _ => some []
      | .ok (x, y) => iterLooks (RSt.setVar v) (readProg c body) (looks c body) (intRange x y) s
  | .ite cond look thn els, s =>
    if s.stopped then some []
    else match look with
      | none => match evalCond c.fuel s.env cond with
        | .error _ => some []
        | .ok t => if t then looks c thn s else looks c els s
      | some _ => none
  | .abbr _ _, _ => some []

/-- the outcome apart from position, records and lines -/
def AsRun (o : Nat) (out out2 : Out RSt) : Prop := ∃ R S, out2 = out.mapSt (·.put o R S)

theorem proceed_put (s : RSt) (o : Nat) (R : List ARec) (S : List (Nat × Nat)) :
    (s.put o R S).proceed = s.proceed.map (·.put o R S) := by
  obtain ⟨cur, ups, lv, look, ofs, ig, recs, spans⟩ := s
  cases look with
  | none => rfl
  | some n =>
    unfold RSt.proceed RSt.put
    dsimp only
    split <;> rfl

theorem useRec_any (c : RCtx) (a : Act) (q : ARec) (s : RSt) (L : List Str) (o : Nat) (R : List ARec) (S : List (Nat × Nat)) :
    AsRun o (useRec c a q s) (useRec { c with lines := L } a q (s.put o R S)) := by
  cases a with
  | text k fs =>
    simp only [useRec]
    cases h1 : checkCtrl k q.ctrl with
    | error e => exact ⟨R, S, rfl⟩
    | ok _ =>
      have e : (s.put o R S).lv = s.lv := rfl
      have e2 : (s.put o R S).cur = s.cur := rfl
      simp only [Out.lift, e, e2]
      cases mapTextRead s.lv (match q.flds with | [.txt hl] => hl | _ => []) fs 0 s.cur with
      | error e => exact ⟨R, S, rfl⟩
      | ok _ => exact ⟨_, _, rfl⟩
  | cont ih k fs =>
    simp only [useRec]
    cases h1 : checkCtrl k q.ctrl with
    | error e => exact ⟨R, S, rfl⟩
    | ok _ =>
      simp only [Out.lift, mapFields_put]
      cases mapFields c fs q.flds s with
      | err e s1 => exact ⟨R, S, rfl⟩
      | ok s1 => cases ih <;> exact ⟨_, _, rfl⟩
  | dir k fs =>
    simp only [useRec]
    cases h1 : checkCtrl k q.ctrl with
    | error e => exact ⟨R, S, rfl⟩
    | ok _ =>
      simp only [Out.lift, mapFields_put]
      cases mapFields c fs q.flds s with
      | err e s1 => exact ⟨R, S, rfl⟩
      | ok s1 => exact ⟨_, _, rfl⟩
  | intg k fs nd =>
    simp only [useRec]
    cases h1 : checkCtrl k q.ctrl with
    | error e => exact ⟨R, S, rfl⟩
    | ok _ =>
      simp only [Out.lift, mapFields_put]
      cases mapFields c fs q.flds s with
      | err e s1 => exact ⟨R, S, rfl⟩
      | ok s1 => exact ⟨_, _, rfl⟩
  | tab1 k fs x y name =>
    simp only [useRec]
    cases h1 : checkCtrl k q.ctrl with
    | error e => exact ⟨R, S, rfl⟩
    | ok _ =>
      simp only [Out.lift, mapFields_put]
      cases mapFields c (fs.take 4) q.flds s with
      | err e s1 => exact ⟨R, S, rfl⟩
      | ok s1 =>
        simp only [Out.mapSt, Out.andThen, proceed_put]
        cases s1.proceed with
        | none => exact ⟨R, S, rfl⟩
        | some s2 =>
          simp only [Option.map_some]
          rw [inTable_put name (mapFields c (nbtInt ++ [Expr.var x, Expr.var y]) q.tbl)
            (mapFields { c with lines := L } (nbtInt ++ [Expr.var x, Expr.var y]) q.tbl) o R S
            (fun s => mapFields_put c L _ _ s o R S)]
          cases inTable name s2 (mapFields c (nbtInt ++ [Expr.var x, Expr.var y]) q.tbl) with
          | err e s1 => exact ⟨R, S, rfl⟩
          | ok s1 => exact ⟨_, _, rfl⟩
  | tab2 k fs name =>
    simp only [useRec]
    cases h1 : checkCtrl k q.ctrl with
    | error e => exact ⟨R, S, rfl⟩
    | ok _ =>
      simp only [Out.lift, mapFields_put]
      cases mapFields c (fs.take 4 ++ fs.drop 5) q.flds s with
      | err e s1 => exact ⟨R, S, rfl⟩
      | ok s1 =>
        simp only [Out.mapSt, Out.andThen, proceed_put]
        cases s1.proceed with
        | none => exact ⟨R, S, rfl⟩
        | some s2 =>
          simp only [Option.map_some]
          rw [inTable_put (f := mapFields c nbtInt q.tbl) (hf := fun s => mapFields_put c L _ _ s o R S)]
          cases inTable name s2 (mapFields c nbtInt q.tbl) with
          | err e s1 => exact ⟨R, S, rfl⟩
          | ok s1 => exact ⟨_, _, rfl⟩
  | list k fs body name =>
    have key : ∃ vals : List PyNum, ∀ (c : RCtx) (s : RSt), useRec c (.list k fs body name) q s =
        .lift s (checkCtrl k q.ctrl) fun _ => (mapFields c fs q.flds s).andThen fun s =>
          match s.proceed with
          | none => .ok s
          | some s => match readNamedBody c vals body name s with
            | .err e l => .err e l.st
            | .ok l => if l.pos < vals.length then .err .unconsumedList l.st else logRec q l.st := ⟨_, fun _ _ => rfl⟩
    obtain ⟨vals, key⟩ := key
    rw [key, key]
    cases h1 : checkCtrl k q.ctrl with
    | error e => exact ⟨R, S, rfl⟩
    | ok _ =>
      simp only [Out.lift, mapFields_put]
      cases mapFields c fs q.flds s with
      | err e s1 => exact ⟨R, S, rfl⟩
      | ok s1 =>
        simp only [Out.mapSt, Out.andThen, proceed_put]
        cases s1.proceed with
        | none => exact ⟨R, S, rfl⟩
        | some s2 =>
          simp only [Option.map_some, readNamedBody_put]
          cases readNamedBody c vals body name s2 with
          | err e l => exact ⟨R, S, rfl⟩
          | ok l =>
            simp only [Out.mapSt]
            by_cases hlt : l.pos < vals.length
            · refine ⟨R, S, ?_⟩
              have : (l.put o R S).pos < vals.length := hlt
              rw [if_pos this, if_pos hlt]
              rfl
            · have : ¬ (l.put o R S).pos < vals.length := hlt
              rw [if_neg this, if_neg hlt]
              exact ⟨_, _, rfl⟩
  | send => exact ⟨_, _, rfl⟩
  | stop => exact ⟨R, S, rfl⟩

theorem nextOf_some {c : RCtx} {s : RSt} {k : RKind} {t : List ARec} (h : nextOf c s k = some t) :
    ∃ o1 q o2, skipBlankLines c.lines s.ofs = .ok o1 ∧ readKind c.ro c.lines o1 k = .ok (q, o2) ∧ t = [q] := by
  unfold nextOf at h
  split at h
  · cases h
  · rename_i o1 h1
    split at h
    · cases h
    · rename_i q o2 h2
      cases h
      exact ⟨o1, q, o2, h1, h2, rfl⟩

theorem actRec_again {c : RCtx} {a : Act} {s : RSt} {t : List ARec} (h : actRec c a s = some t) (L : List Str) (o o' : Nat) (R : List ARec)
    (S : List (Nat × Nat)) (hL : Laid c.ro L o t o') : AsRun o' (readAct c a s) (readAct { c with lines := L } a (s.put o R S)) := by
  by_cases hi : ∃ k fs nd, a = .intg k fs nd
  · obtain ⟨k, fs, nd, rfl⟩ := hi
    rw [readAct_intg, readAct_intg]
    have e1 : evalKnown c.fuel (s.put o R S).env true true nd = evalKnown c.fuel s.env true true nd := rfl
    simp only [e1]
    simp only [actRec] at h
    cases hk : evalKnown c.fuel s.env true true nd with
    | error e =>
      rw [hk] at h
      cases h
      cases hL
      exact ⟨R, S, rfl⟩
    | ok n =>
      rw [hk] at h
      simp only [Out.lift]
      split
      · rename_i n
        obtain ⟨o1, q, o2, h1, h2, rfl⟩ := nextOf_some h
        cases hL with
        | cons hn ht =>
          cases ht
          obtain ⟨p1, g1, g2⟩ := hn
          rw [readKind_kind h2] at g2
          have e2 : skipBlankLines L (s.put o R S).ofs = .ok p1 := g1
          simp only [e2, g2, h1, h2]
          obtain ⟨R', S', hu⟩ := useRec_any c (.intg k fs nd) q { s with ofs := o2, spans := s.spans ++ span (.intg n) o1 o2 } L o' R
            (S ++ span (.intg n) p1 o')
          exact ⟨R', S', hu⟩
      · rename_i hne
        split at h
        · rename_i n hx
          cases hx
          exact absurd rfl (hne n)
        · cases h
          cases hL
          exact ⟨R, S, rfl⟩
  · cases hk : a.kind with
    | none =>
      cases a <;> first | (cases hk; done) | skip
      · exact absurd ⟨_, _, _, rfl⟩ hi
      · cases h
    | some k =>
      have h' : nextOf c s k = some t := by
        cases a <;> first | exact absurd ⟨_, _, _, rfl⟩ hi | (cases hk; done) | (cases hk; exact h)
      obtain ⟨o1, q, o2, h1, h2, rfl⟩ := nextOf_some h'
      rw [readAct_kind c a k hk, readAct_kind _ a k hk]
      cases hL with
      | cons hn ht =>
        cases ht
        obtain ⟨p1, g1, g2⟩ := hn
        rw [readKind_kind h2] at g2
        have e2 : skipBlankLines L (s.put o R S).ofs = .ok p1 := g1
        simp only [e2, g2, h1, h2, Out.lift]
        obtain ⟨R', S', hu⟩ := useRec_any c a q { s with ofs := o2, spans := s.spans ++ span k o1 o2 } L o' R
          (S ++ span k p1 o')
        exact ⟨R', S', hu⟩

theorem iterLooks_again {c : RCtx} {set : Int → RSt → RSt} {f : List Str → RSt → Out RSt} {lk : RSt → Option (List ARec)}
    (hset : ∀ i s o R S, set i (s.put o R S) = (set i s).put o R S)
    (hf : ∀ s t, lk s = some t → ∀ L o o' R S, Laid c.ro L o t o' → AsRun o' (f c.lines s) (f L (s.put o R S)))
    {is : List Int} {s : RSt} {t : List ARec} (h : iterLooks set (f c.lines) lk is s = some t) (L : List Str) (o o' : Nat) (R : List ARec)
    (S : List (Nat × Nat)) (hL : Laid c.ro L o t o') :
    AsRun o' (iterate set (f c.lines) is s) (iterate set (f L) is (s.put o R S)) := by
  induction is generalizing s t o R S with
  | nil =>
    cases h
    cases hL
    exact ⟨R, S, rfl⟩
  | cons i is ih =>
    simp only [iterLooks, Option.bind_eq_some_iff] at h
    obtain ⟨t1, h1, h⟩ := h
    simp only [iterate, hset]
    cases hr : f c.lines (set i s) with
    | err e s1 =>
      rw [hr] at h
      cases h
      obtain ⟨R', S', hu⟩ := hf _ _ h1 L o o' R S hL
      rw [hu, hr]
      exact ⟨R', S', rfl⟩
    | ok s1 =>
      rw [hr] at h
      simp only [Option.map_eq_some_iff] at h
      obtain ⟨t2, h2, rfl⟩ := h
      obtain ⟨o1, l1, l2⟩ := hL.split
      obtain ⟨R', S', hu⟩ := hf _ _ h1 L o o1 R S l1
      rw [hu, hr]
      exact ih h2 o1 R' S' l2

theorem looks_again {c : RCtx} {p : Prog} {s : RSt} {t : List ARec} (h : looks c p s = some t) (L : List Str) (o o' : Nat) (R : List ARec)
    (S : List (Nat × Nat)) (hL : Laid c.ro L o t o') : AsRun o' (readProg c p s) (readProg { c with lines := L } p (s.put o R S)) := by
  induction p generalizing s t L o o' R S with
  | skip => cases h; cases hL; exact ⟨R, S, by simp [readProg, Out.mapSt]⟩
  | seq a b iha ihb =>
    simp only [looks, Option.bind_eq_some_iff] at h
    obtain ⟨t1, h1, h⟩ := h
    simp only [readProg]
    cases hr : readProg c a s with
    | err e s1 =>
      rw [hr] at h
      cases h
      obtain ⟨R', S', hu⟩ := iha h1 L o o' R S hL
      rw [hu, hr]
      exact ⟨R', S', rfl⟩
    | ok s1 =>
      rw [hr] at h
      simp only [Option.map_eq_some_iff] at h
      obtain ⟨t2, h2, rfl⟩ := h
      obtain ⟨o1, l1, l2⟩ := hL.split
      obtain ⟨R', S', hu⟩ := iha h1 L o o1 R S l1
      rw [hu, hr]
      exact ihb h2 L o1 o' R' S' l2
  | act a =>
    simp only [looks] at h
    simp only [readProg, proceed_put]
    cases hp : s.proceed with
    | none =>
      rw [hp] at h
      cases h
      cases hL
      exact ⟨R, S, rfl⟩
    | some s1 =>
      rw [hp] at h
      exact actRec_again h L o o' R S hL
  | sect r body ih =>
    simp only [looks] at h
    simp only [readProg]
    have hs : (s.put o R S).stopped = s.stopped := rfl
    rw [hs]
    split
    · rename_i hst
      rw [if_pos hst] at h
      cases h; cases hL
      exact ⟨R, S, rfl⟩
    · rename_i hst
      rw [if_neg hst] at h
      rw [openR_put]
      cases ho : openR s r with
      | error e =>
        rw [ho] at h
        cases h; cases hL
        exact ⟨R, S, rfl⟩
      | ok s1 =>
        rw [ho] at h
        simp only [Except.map, Out.lift]
        obtain ⟨R', S', hu⟩ := ih h L o o' R S hL
        have e4 : ({ s1.put o R S with cur := initWork (s1.put o R S).cur } : RSt) = RSt.put { s1 with cur := initWork s1.cur } o R S := rfl
        rw [e4, hu]
        cases readProg c body { s1 with cur := initWork s1.cur } with
        | err e s2 => exact ⟨R', S', rfl⟩
        | ok s2 =>
          simp only [Out.mapSt, Out.andThen]
          have e5 : (s2.put o' R' S').cur = s2.cur := rfl
          rw [e5]
          cases removeWork s2.cur with
          | error e => exact ⟨R', S', rfl⟩
          | ok cur =>
            simp only
            have e6 : ({ s2.put o' R' S' with cur := cur } : RSt) = RSt.put { s2 with cur := cur } o' R' S' := rfl
            rw [e6, closeR_put]
            cases closeR { s2 with cur := cur } with
            | error e => exact ⟨R', S', rfl⟩
            | ok s3 => exact ⟨R', S', rfl⟩
  | loop v a b body ih =>
    simp only [looks] at h
    simp only [readProg]
    have hs : (s.put o R S).stopped = s.stopped := rfl
    rw [hs]
    split
    · rename_i hst
      rw [if_pos hst] at h
      cases h; cases hL
      exact ⟨R, S, rfl⟩
    · rename_i hst
      rw [if_neg hst] at h
      have he : (s.put o R S).env = s.env := rfl
      rw [he]
      cases hh : loopHead c.fuel s.env v a b with
      | error e =>
        rw [hh] at h
        cases h; cases hL
        exact ⟨R, S, rfl⟩
      | ok xy =>
        obtain ⟨x, y⟩ := xy
        rw [hh] at h
        simp only [Out.lift]
        obtain ⟨R', S', hu⟩ := iterLooks_again (c := c) (f := fun L => readProg { c with lines := L } body) (set := RSt.setVar v)
          (fun _ _ _ _ _ => rfl) (fun s t ht L o o' R S hL => ih ht L o o' R S hL) h L o o' R S hL
        rw [hu]
        cases iterate (RSt.setVar v) (readProg c body) (intRange x y) s with
        | err e s2 => exact ⟨R', S', rfl⟩
        | ok s2 =>
          simp only [Out.mapSt, Out.andThen]
          refine ⟨R', S', ?_⟩
          split <;> rfl
  | ite cond look thn els iht ihe =>
    simp only [looks] at h
    have hs : (s.put o R S).stopped = s.stopped := rfl
    by_cases hst : s.stopped = true
    · rw [if_pos hst] at h
      cases h; cases hL
      refine ⟨R, S, ?_⟩
      rw [readProg.eq_def, readProg.eq_def]
      simp only [hs, hst, if_true]
      rfl
    · rw [if_neg hst] at h
      cases look with
      | some e => cases h
      | none =>
        have he : (s.put o R S).env = s.env := rfl
        have k1 : ∀ c' : RCtx, ∀ s : RSt, s.stopped = false → readProg c' (.ite cond none thn els) s =
            .lift s (evalCond c'.fuel s.env cond) fun t => if t then readProg c' thn s else readProg c' els s := by
          intro c' s hs
          rw [readProg.eq_def]
          simp only [hs, Bool.false_eq_true, if_false]
        have hst' : s.stopped = false := by simpa using hst
        rw [k1 _ _ hst', k1 _ _ (hs.trans hst'), he]
        dsimp only at h ⊢
        cases hc : evalCond c.fuel s.env cond with
        | error e =>
          rw [hc] at h
          cases h; cases hL
          exact ⟨R, S, rfl⟩
        | ok t =>
          rw [hc] at h
          simp only [Out.lift]
          cases t with
          | true => exact iht h L o o' R S hL
          | false => exact ihe h L o o' R S hL
  | abbr n e =>
    cases h; cases hL
    simp only [readProg]
    have hs : (s.put o R S).stopped = s.stopped := rfl
    rw [hs]
    split
    · exact ⟨R, S, rfl⟩
    · have e1 : introAbbr (s.put o R S).cur n e = introAbbr s.cur n e := rfl
      rw [e1]
      cases introAbbr s.cur n e with
      | error e => exact ⟨R, S, rfl⟩
      | ok cur => exact ⟨R, S, rfl⟩

/-! ## decisions -/

/-- the branch that is taken: with lookahead, the condition is evaluated behind a trial run of the first branch -/
def chosen (c : RCtx) (cond : Cond) (look : Option Expr) (thn : Prog) (s : RSt) : Option Bool :=
  match look with
  | none => (evalCond c.fuel s.env cond).toOption
  | some e => match lookCount c s e with
    | .error _ => none
    | .ok n => match readProg c thn { s with look := some n, ignoreAll := true } with
      | .err .unexpectedControl s' | .ok s' => (evalCond c.fuel (s'.envAt s.ups.length) cond).toOption
      | .err _ _ => none

theorem readProg_chosen {c : RCtx} {cond : Cond} {look : Option Expr} {thn els : Prog} {s : RSt} (hs : s.stopped = false) {t : Bool}
    (h : chosen c cond look thn s = some t) : readProg c (.ite cond look thn els) s = readProg c (if t then thn else els) s := by
  rw [readProg.eq_def]
  simp only [hs, Bool.false_eq_true, if_false]
  cases look with
  | none =>
    simp only [chosen] at h
    cases he : evalCond c.fuel s.env cond with
    | error e => rw [he] at h; cases h
    | ok b =>
      rw [he] at h
      cases h
      simp only [Out.lift]
      cases t <;> rfl
  | some e =>
    simp only [chosen] at h
    cases hn : lookCount c s e with
    | error e => rw [hn] at h; cases h
    | ok n =>
      rw [hn] at h
      simp only [Out.lift]
      dsimp only at h
      cases hr : readProg c thn { s with look := some n, ignoreAll := true } with
      | ok s' =>
        rw [hr] at h
        dsimp only at h
        cases he : evalCond c.fuel (s'.envAt s.ups.length) cond with
        | error e => rw [he] at h; cases h
        | ok b =>
          rw [he] at h
          cases h
          simp only [hn, hr, he]
          cases t <;> rfl
      | err e s' =>
        rw [hr] at h
        cases e <;> first | (cases h; done) | skip
        dsimp only at h
        cases he : evalCond c.fuel (s'.envAt s.ups.length) cond with
        | error e => rw [he] at h; cases h
        | ok b =>
          rw [he] at h
          cases h
          simp only [hn, hr, he]
          cases t <;> rfl

theorem readProg_chooses {c : RCtx} {cond : Cond} {look : Option Expr} {thn els : Prog} {s s' : RSt} (hs : s.stopped = false)
    (h : readProg c (.ite cond look thn els) s = .ok s') : ∃ t, chosen c cond look thn s = some t := by
  rw [readProg.eq_def] at h
  simp only [hs, Bool.false_eq_true, if_false] at h
  unfold chosen
  cases look with
  | none =>
    dsimp only at h ⊢
    rw [Out.lift_ok] at h
    obtain ⟨t, h1, _⟩ := h
    exact ⟨t, by rw [h1]; rfl⟩
  | some e =>
    dsimp only at h ⊢
    rw [Out.lift_ok] at h
    obtain ⟨n, h1, h⟩ := h
    rw [h1]
    dsimp only
    split at h
    · rename_i s1 hr
      rw [hr]
      rw [Out.lift_ok] at h
      obtain ⟨t, h2, _⟩ := h
      exact ⟨t, by simp only [h2]; rfl⟩
    · rename_i s1 hr
      rw [hr]
      rw [Out.lift_ok] at h
      obtain ⟨t, h2, _⟩ := h
      exact ⟨t, by simp only [h2]; rfl⟩
    · cases h

/-- Along the run that ends with the records `F`: the records that are looked at before a decision are those that are read
next. -/
def Foreseen (c : RCtx) (F : List ARec) : Prog → RSt → Prop
  | .skip, _ | .act _, _ | .abbr _ _, _ => True
  | .seq a b, s => Foreseen c F a s ∧ ∀ s1, readProg c a s = .ok s1 → Foreseen c F b s1
  | .sect r body, s => ∀ s1, openR s r = .ok s1 → Foreseen c F body { s1 with cur := initWork s1.cur }
  | .loop v a b body, s => ∀ x y, loopHead c.fuel s.env v a b = .ok (x, y) →
      Spec.AllIter (RSt.setVar v) (readProg c body) (Foreseen c F body) (intRange x y) s
  | .ite cond look thn els, s =>
    (∀ e, look = some e → ∀ n, lookCount c s e = .ok n →
      ∃ t, looks c thn { s with look := some n, ignoreAll := true } = some t ∧ t <+: F.drop s.recs.length) ∧
    (chosen c cond look thn s = some true → Foreseen c F thn s) ∧ (chosen c cond look thn s = some false → Foreseen c F els s)

theorem LookFree.foreseen {c : RCtx} {F : List ARec} {p : Prog} (h : LookFree p) (s : RSt) : Foreseen c F p s := by
  induction p generalizing s with
  | skip | act | abbr => trivial
  | seq a b iha ihb => exact ⟨iha h.1 s, fun s1 _ => ihb h.2 s1⟩
  | sect r body ih => exact fun s1 _ => ih h _
  | loop v a b body ih =>
    intro x y hh
    clear hh
    generalize intRange x y = is
    induction is generalizing s with
    | nil => trivial
    | cons i is ihi => exact ⟨ih h _, fun s1 _ => ihi s1⟩
  | ite cond look thn els iht ihe =>
    obtain ⟨rfl, h1, h2⟩ := h
    exact ⟨(by intro e he; cases he), fun _ => iht h1 s, fun _ => ihe h2 s⟩

theorem chosen_again {c : RCtx} {cond : Cond} {look : Option Expr} {thn : Prog} {s : RSt} {T : List ARec}
    (h : ∀ e, look = some e → ∀ n, lookCount c s e = .ok n → ∃ t, looks c thn { s with look := some n, ignoreAll := true } = some t ∧ t <+: T)
    (L : List Str) (o o' : Nat) (R : List ARec) (S : List (Nat × Nat)) (hL : Laid c.ro L o T o') :
    chosen { c with lines := L } cond look thn (s.put o R S) = chosen c cond look thn s := by
  unfold chosen
  cases look with
  | none => rfl
  | some e =>
    have e1 : lookCount { c with lines := L } (s.put o R S) e = lookCount c s e := rfl
    simp only [e1]
    cases hn : lookCount c s e with
    | error e => rfl
    | ok n =>
      obtain ⟨t, h1, T', rfl⟩ := h e rfl n hn
      obtain ⟨o1, l1, _⟩ := hL.split
      obtain ⟨R', S', hu⟩ := looks_again h1 L o o1 R S l1
      have e2 : ({ s.put o R S with look := some n, ignoreAll := true } : RSt) = RSt.put { s with look := some n, ignoreAll := true } o R S := rfl
      simp only [e2, hu]
      cases readProg c thn { s with look := some n, ignoreAll := true } with
      | ok s' => rfl
      | err e s' => cases e <;> rfl

/-- from `s` to `s'` the records `new` have been read, and wherever they stand, followed by the remaining records of `F`, the
result is the same -/
def AgainF (c : RCtx) (F : List ARec) (f : List Str → RSt → Out RSt) (s s' : RSt) : Prop :=
  ∃ new, s'.recs = s.recs ++ new ∧ s'.look = none ∧ Laid c.ro c.lines s.ofs new s'.ofs ∧
    ∀ fut, F = s.recs ++ new ++ fut → ∀ L o om o' R S, Laid c.ro L o new om → Laid c.ro L om fut o' →
      ∃ S', f L (s.put o R S) = .ok (s'.put om (R ++ new) S')

theorem AgainF.nil {c : RCtx} {F : List ARec} {f : List Str → RSt → Out RSt} {s s' : RSt} (h1 : s'.recs = s.recs) (h2 : s'.ofs = s.ofs)
    (hl : s'.look = none) (h : ∀ L o R S, f L (s.put o R S) = .ok (s'.put o R S)) : AgainF c F f s s' := by
  refine ⟨[], by simpa using h1, hl, by rw [h2]; exact .nil _, fun fut _ L o om o' R S hL _ => ?_⟩
  cases hL
  exact ⟨S, by rw [List.append_nil]; exact h L o R S⟩

theorem AgainF.comp {c : RCtx} {F : List ARec} {f g e : List Str → RSt → Out RSt} {s s1 s' : RSt} (h1 : AgainF c F f s s1)
    (h2 : AgainF c F g s1 s') (he : ∀ L x, e L x = (f L x).andThen (g L)) : AgainF c F e s s' := by
  obtain ⟨n1, a1, a2, a3, a4⟩ := h1
  obtain ⟨n2, b1, b2, b3, b4⟩ := h2
  refine ⟨n1 ++ n2, by rw [b1, a1, List.append_assoc], b2, a3.append b3, fun fut hF L o om o' R S hL hT => ?_⟩
  obtain ⟨o1, l1, l2⟩ := hL.split
  obtain ⟨S1, g1⟩ := a4 (n2 ++ fut) (by rw [hF]; simp only [List.append_assoc]) L o o1 o' R S l1 (l2.append hT)
  obtain ⟨S2, g2⟩ := b4 fut (by rw [hF, a1]; simp only [List.append_assoc]) L o1 om o' (R ++ n1) S1 l2 hT
  refine ⟨S2, ?_⟩
  rw [he, g1]
  rw [List.append_assoc] at g2
  exact g2

theorem iterate_ahead {c : RCtx} {F : List ARec} {set : Int → RSt → RSt} {f : List Str → RSt → Out RSt} {P : RSt → Prop}
    (hset : ∀ i s, (set i s).ofs = s.ofs ∧ (set i s).recs = s.recs ∧ (set i s).look = s.look ∧
      ∀ o R S, set i (s.put o R S) = (set i s).put o R S)
    (hf : ∀ s s', s.look = none → P s → f c.lines s = .ok s' → AgainF c F f s s') {is : List Int} {s s' : RSt} (hl : s.look = none)
    (hP : Spec.AllIter set (f c.lines) P is s) (h : iterate set (f c.lines) is s = .ok s') :
    AgainF c F (fun L => iterate set (f L) is) s s' := by
  induction is generalizing s with
  | nil =>
    cases h
    exact AgainF.nil rfl rfl hl fun _ _ _ _ => rfl
  | cons i is ih =>
    unfold iterate at h
    rw [Out.andThen_ok] at h
    obtain ⟨s1, h1, h2⟩ := h
    obtain ⟨e1, e2, e3, e4⟩ := hset i s
    obtain ⟨n1, a1, a2, a3, a4⟩ := hf _ _ (e3.trans hl) hP.1 h1
    rw [e2] at a1 a4
    rw [e1] at a3
    have first : AgainF c F (fun L x => f L (set i x)) s s1 :=
      ⟨n1, a1, a2, a3, fun fut hF L o om o' R S hL hT => by simp only [e4]; exact a4 fut hF L o om o' R S hL hT⟩
    exact first.comp (ih a2 (hP.2 _ h1) h2) fun L x => by rw [iterate]

theorem readProg_ahead {c : RCtx} {F : List ARec} {p : Prog} {s s' : RSt} (hn : Foreseen c F p s) (hl : s.look = none) (h : readProg c p s = .ok s') :
    AgainF c F (fun L => readProg { c with lines := L } p) s s' := by
  induction p generalizing s s' with
  | skip =>
    cases h
    exact AgainF.nil rfl rfl hl fun _ _ _ _ => by simp [readProg]
  | seq a b iha ihb =>
    unfold readProg at h
    rw [Out.andThen_ok] at h
    obtain ⟨s1, h1, h2⟩ := h
    have r1 := iha hn.1 hl h1
    have r2 := ihb (hn.2 _ h1) r1.choose_spec.2.1 h2
    exact r1.comp r2 fun L x => by simp only [readProg]
  | act a =>
    unfold readProg at h
    rw [proceed_idle hl] at h
    obtain ⟨q, a1, a2, a3, a4⟩ := readAct_put hl h
    refine ⟨[q], a1, a2, .cons a3 (.nil _), fun fut hF L o om o' R S hL hT => ?_⟩
    cases hL with
    | cons h1 t =>
      cases t
      obtain ⟨S', g⟩ := a4 L _ _ R S h1
      refine ⟨S', ?_⟩
      have hp : (s.put o R S).proceed = some (s.put o R S) := proceed_idle hl
      simp only [readProg, hp]
      exact g
  | sect r body ih =>
    unfold readProg at h
    rw [stopped_none hl] at h
    simp only [Bool.false_eq_true, if_false, Out.lift_ok, Out.andThen_ok] at h
    obtain ⟨s1, h1, s2, h2, cur, h3, s3, h4, h5⟩ := h
    cases h5
    obtain ⟨e1, e2, e3⟩ := openR_fix h1
    obtain ⟨n1, a1, a2, a3, a4⟩ := ih (s := { s1 with cur := initWork s1.cur }) (hn _ h1) (e3.trans hl) h2
    obtain ⟨d1, d2, d3⟩ := closeR_fix h4
    dsimp only at a1 a3 d1 d2 d3
    refine ⟨n1, by rw [d1, a1, e1], d3.trans a2, ?_, fun fut hF L o om o' R S hL hT => ?_⟩
    · rw [d2, ← e2]; exact a3
    · obtain ⟨S1, g1⟩ := a4 fut (by rw [hF, ← e1]) L o om o' R S hL hT
      refine ⟨S1, ?_⟩
      have hp : (s.put o R S).stopped = false := stopped_none hl
      have e4 : ({ s1.put o R S with cur := initWork s1.cur } : RSt) = RSt.put { s1 with cur := initWork s1.cur } o R S := rfl
      have e5 : removeWork (s2.put om (R ++ n1) S1).cur = .ok cur := h3
      have e6 : ({ s2.put om (R ++ n1) S1 with cur := cur } : RSt) = RSt.put { s2 with cur := cur } om (R ++ n1) S1 := rfl
      simp only [readProg, hp, Bool.false_eq_true, if_false, openR_put, h1, Except.map, Out.lift]
      dsimp only at g1
      rw [show (s1.put o R S).cur = s1.cur from rfl, e4, g1]
      simp only [Out.andThen, e5, e6, closeR_put, h4, Except.map]
  | loop v a b body ih =>
    unfold readProg at h
    rw [stopped_none hl] at h
    simp only [Bool.false_eq_true, if_false, Out.lift_ok, Out.andThen_ok] at h
    obtain ⟨⟨x, y⟩, h1, s1, h2, h3⟩ := h
    cases h3
    obtain ⟨n1, a1, a2, a3, a4⟩ := iterate_ahead (c := c) (F := F) (f := fun L => readProg { c with lines := L } body) (set := RSt.setVar v)
      (P := Foreseen c F body)
      (fun i s => ⟨rfl, rfl, rfl, fun _ _ _ => rfl⟩) (fun s s' hl hp h => ih hp hl h) hl (hn x y h1) h2
    refine ⟨n1, ?_, ?_, ?_, fun fut hF L o om o' R S hL hT => ?_⟩
    · rw [← a1]; split <;> rfl
    · rw [← a2]; split <;> rfl
    · have : (if x ≤ y then ({ s1 with lv := dDel v s1.lv } : RSt) else s1).ofs = s1.ofs := by split <;> rfl
      dsimp only
      rw [this]; exact a3
    · obtain ⟨S1, g1⟩ := a4 fut hF L o om o' R S hL hT
      refine ⟨S1, ?_⟩
      have hp : (s.put o R S).stopped = false := stopped_none hl
      have e1 : loopHead c.fuel (s.put o R S).env v a b = .ok (x, y) := h1
      simp only [readProg, hp, Bool.false_eq_true, if_false, e1, Out.lift]
      dsimp only at g1
      rw [g1]
      simp only [Out.andThen]
      split <;> rfl
  | ite cond look thn els iht ihe =>
    obtain ⟨ha, ht, he⟩ := hn
    obtain ⟨t, hc⟩ := readProg_chooses (stopped_none hl) h
    rw [readProg_chosen (stopped_none hl) hc] at h
    have hin : AgainF c F (fun L => readProg { c with lines := L } (if t then thn else els)) s s' := by
      cases t with
      | true => exact iht (ht hc) hl h
      | false => exact ihe (he hc) hl h
    obtain ⟨n1, a1, a2, a3, a4⟩ := hin
    refine ⟨n1, a1, a2, a3, fun fut hF L o om o' R S hL hT => ?_⟩
    have hd : F.drop s.recs.length = n1 ++ fut := by rw [hF, List.append_assoc, List.drop_left]
    rw [hd] at ha
    have hc2 := (chosen_again (cond := cond) ha L o o' R S (hL.append hT)).trans hc
    obtain ⟨S', g⟩ := a4 fut hF L o om o' R S hL hT
    exact ⟨S', (readProg_chosen (s := s.put o R S) (stopped_none hl) hc2).trans g⟩
  | abbr n e =>
    unfold readProg at h
    rw [stopped_none hl] at h
    simp only [Bool.false_eq_true, if_false, Out.lift_ok] at h
    obtain ⟨cur, h1, h2⟩ := h
    cases h2
    refine AgainF.nil rfl rfl hl fun L o R S => ?_
    have hp : (s.put o R S).stopped = false := stopped_none hl
    have e1 : introAbbr (s.put o R S).cur n e = .ok cur := h1
    simp only [readProg, hp, Bool.false_eq_true, if_false, e1, Out.lift]
    rfl

/-- a whole section: where the same records stand, the same dictionary is read -/
theorem readSection_ahead' {c : RCtx} {p : Prog} {s : RSt} (hn : Foreseen c s.recs p { cur := initWork [] }) (h : readSection c false p = .ok s) :
    Laid c.ro c.lines 0 s.recs s.ofs ∧
    ∀ L o, Laid c.ro L 0 s.recs o → ∃ s2, readSection { c with lines := L } false p = .ok s2 ∧ s2.cur = s.cur ∧ s2.recs = s.recs ∧ s2.ofs = o := by
  unfold readSection at h
  simp only [Out.andThen_ok, Out.lift_ok] at h
  obtain ⟨s0, h0, D, hD, h1⟩ := h
  cases h1
  obtain ⟨n, a1, a2, a3, a4⟩ := readProg_ahead hn rfl h0
  simp only [List.nil_append] at a1
  dsimp only at hn ⊢
  rw [a1]
  refine ⟨a3, fun L o hL => ?_⟩
  obtain ⟨S', g⟩ := a4 [] (by simp [a1]) L 0 o o [] [] hL (.nil _)
  refine ⟨{ (s0.put o ([] ++ n) S') with cur := D }, ?_, rfl, by simp [RSt.put], rfl⟩
  have e : (RSt.put { cur := initWork [], ignoreAll := false } 0 [] []) = { cur := initWork [], ignoreAll := false } := rfl
  rw [e] at g
  dsimp only at g
  unfold readSection
  rw [g]
  have hD' : removeWork (s0.put o ([] ++ n) S').cur = .ok D := hD
  simp only [Out.andThen, hD', Out.lift]

theorem readSection_ahead {c : RCtx} {p : Prog} {s : RSt} (hn : Foreseen c s.recs p { cur := initWork [] }) (h : readSection c false p = .ok s) :
    Laid c.ro c.lines 0 s.recs s.ofs ∧
    ∀ L o, Laid c.ro L 0 s.recs o → ∃ s2, readSection { c with lines := L } false p = .ok s2 ∧ s2.cur = s.cur ∧ s2.recs = s.recs := by
  obtain ⟨h1, h2⟩ := readSection_ahead' hn h
  refine ⟨h1, fun L o hL => ?_⟩
  obtain ⟨s2, g1, g2, g3, _⟩ := h2 L o hL
  exact ⟨s2, g1, g2, g3⟩

end Verif
