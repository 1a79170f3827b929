import Verif.Lemmas.Interp
/-
Reading depends on the lines only through the records that are found in them: without lookahead, another list of lines in
which the same records stand one after the other is read with the same result.
-/
namespace Verif

/-- the record of the given kind at a line, and the position behind it (a SEND record is not left) -/
def readKind (ro : ROpts) (lines : List Str) (ofs : Nat) : RKind → Res (ARec × Nat)
  | .text => do let (r, o) ← readText ro lines ofs; return (⟨.text, [.txt r.hl], [], r.ctrl⟩, o)
  | .head => do let (r, o) ← readCont ro lines ofs; return (⟨.head, r.vals, [], r.ctrl⟩, o)
  | .cont => do let (r, o) ← readCont ro lines ofs; return (⟨.cont, r.vals, [], r.ctrl⟩, o)
  | .dir => do
    let (r, o) ← readDir ro lines ofs
    return (⟨.dir, [.num (.int r.l1), .num (.int r.l2), .num (.int r.n1), .num (.int r.n2)], [], r.ctrl⟩, o)
  | .intg n => do
    let (r, o) ← readIntg ro n lines ofs
    return (⟨.intg n, [.num (.int r.ii), .num (.int r.jj), intsVal r.kij], [], r.ctrl⟩, o)
  | .tab1 => do
    let (r, o) ← readTab1 ro lines ofs
    return (⟨.tab1, r.head.vals.take 4, [intsVal r.nbt, intsVal r.int, numsVal r.xs, numsVal r.ys], r.head.ctrl⟩, o)
  | .tab2 => do
    let (r, o) ← readTab2 ro lines ofs
    return (⟨.tab2, r.head.vals.take 4 ++ r.head.vals.drop 5, [intsVal r.nbt, intsVal r.int], r.head.ctrl⟩, o)
  | .list => do
    let (r, o) ← readList ro lines ofs
    return (⟨.list, r.head.vals, [.lst (r.vals.map PyNum.num)], r.head.ctrl⟩, o)
  | .send => do let (r, _) ← readSend ro lines ofs; return (⟨.send, [], [], r.ctrl⟩, ofs)

/-- a record stands at the first line that is not blank -/
def NextRec (ro : ROpts) (lines : List Str) (ofs : Nat) (q : ARec) (ofs' : Nat) : Prop :=
  ∃ o1, skipBlankLines lines ofs = .ok o1 ∧ readKind ro lines o1 q.kind = .ok (q, ofs')

/-- records one after the other -/
inductive Laid (ro : ROpts) (lines : List Str) : Nat → List ARec → Nat → Prop where
  | nil (o : Nat) : Laid ro lines o [] o
  | cons {o o1 o2 : Nat} {q : ARec} {qs : List ARec} (h : NextRec ro lines o q o1) (t : Laid ro lines o1 qs o2) :
    Laid ro lines o (q :: qs) o2

theorem Laid.split {ro : ROpts} {lines : List Str} {o o2 : Nat} {a b : List ARec} (h : Laid ro lines o (a ++ b) o2) :
    ∃ o1, Laid ro lines o a o1 ∧ Laid ro lines o1 b o2 := by
  induction a generalizing o with
  | nil => exact ⟨o, .nil _, h⟩
  | cons q a ih =>
    cases h with
    | cons h t =>
      obtain ⟨o1, h1, h2⟩ := ih t
      exact ⟨o1, .cons h h1, h2⟩

theorem Laid.append {ro : ROpts} {lines : List Str} {o o1 o2 : Nat} {a b : List ARec} (h : Laid ro lines o a o1)
    (h' : Laid ro lines o1 b o2) : Laid ro lines o (a ++ b) o2 := by
  induction h with
  | nil => exact h'
  | cons h _ ih => exact .cons h (ih h')

/-- the state at another place of other lines -/
def RSt.put (s : RSt) (o : Nat) (R : List ARec) (S : List (Nat × Nat)) : RSt := { s with ofs := o, recs := R, spans := S }

def Out.mapSt {σ τ : Type} (f : σ → τ) : Out σ → Out τ
  | .ok s => .ok (f s)
  | .err e s => .err e (f s)

theorem mapSt_lift {σ τ α : Type} (g : σ → τ) (s : σ) (r : Res α) (f : α → Out σ) :
    (Out.lift s r f).mapSt g = Out.lift (g s) r fun a => (f a).mapSt g := by
  cases r <;> rfl

theorem mapSt_andThen {σ τ : Type} (g : σ → τ) (o : Out σ) (f : σ → Out σ) (f' : τ → Out τ)
    (h : ∀ s, f' (g s) = (f s).mapSt g) : (o.andThen f).mapSt g = (o.mapSt g).andThen f' := by
  cases o with
  | ok s => exact (h s).symm
  | err e s => rfl

theorem mapFields_put (c : RCtx) (L : List Str) (es : List Expr) (vals : List Val) (s : RSt) (o : Nat) (R : List ARec)
    (S : List (Nat × Nat)) :
    mapFields { c with lines := L } es vals (s.put o R S) = (mapFields c es vals s).mapSt (·.put o R S) := by
  unfold mapFields
  rw [mapSt_lift]
  rfl

theorem openR_put (s : RSt) (r : VarRef) (o : Nat) (R : List ARec) (S : List (Nat × Nat)) :
    openR (s.put o R S) r = (openR s r).map (·.put o R S) := by
  unfold openR
  have e1 : (s.put o R S).lv = s.lv := rfl
  have e2 : (s.put o R S).cur = s.cur := rfl
  rw [e1, e2]
  cases r.idx.mapM (idxVal s.lv) with
  | error e => rfl
  | ok is =>
    simp only [bind, Except.bind]
    cases subDic (dGet (.var r.name) s.cur) is <;> rfl

theorem closeR_put (s : RSt) (o : Nat) (R : List ARec) (S : List (Nat × Nat)) :
    closeR (s.put o R S) = (closeR s).map (·.put o R S) := by
  obtain ⟨cur, ups, lv, look, ofs, ig, recs, spans⟩ := s
  unfold closeR RSt.put
  cases ups with
  | nil => rfl
  | cons u rest =>
    obtain ⟨outer, n, is⟩ := u
    simp only [bind, Except.bind]
    cases setArr (dGet (.var n) outer) is (.dic (dDel .up cur)) <;> rfl

theorem lift_map {σ τ α β : Type} (g : σ → τ) (s : σ) (r : Res α) (m : α → β) (f : β → Out τ) (f' : α → Out σ)
    (h : ∀ a, f (m a) = (f' a).mapSt g) : Out.lift (g s) (r.map m) f = (Out.lift s r f').mapSt g := by
  cases r with
  | error e => rfl
  | ok a => exact h a

/-- the position in a list body is kept -/
def LSt.put (l : LSt) (o : Nat) (R : List ARec) (S : List (Nat × Nat)) : LSt := ⟨l.pos, l.st.put o R S⟩

theorem iterate_put {σ : Type} (g : σ → σ) (set : Int → σ → σ) (f f' : σ → Out σ) (hset : ∀ i s, set i (g s) = g (set i s))
    (hf : ∀ s, f' (g s) = (f s).mapSt g) (is : List Int) (s : σ) :
    iterate set f' is (g s) = (iterate set f is s).mapSt g := by
  induction is generalizing s with
  | nil => rfl
  | cons i is ih =>
    unfold iterate
    rw [mapSt_andThen (h := ih), hset, hf]

theorem readBody_put (c : RCtx) (L : List Str) (vals : List PyNum) (o : Nat) (R : List ARec) (S : List (Nat × Nat)) (b : LBody)
    (l : LSt) :
    readBody { c with lines := L } vals b (l.put o R S) = (readBody c vals b l).mapSt (·.put o R S) := by
  induction b generalizing l with
  | nil => rfl
  | seq a b iha ihb =>
    unfold readBody
    rw [mapSt_andThen (h := ihb), iha]
  | expr e =>
    unfold readBody
    show (match vals[l.pos]? with | none => _ | some v => _) = _
    cases vals[l.pos]? with
    | none => rfl
    | some v =>
      dsimp only
      rw [mapSt_lift]
      rfl
  | pad => rfl
  | loop v a b body ih =>
    unfold readBody
    rw [mapSt_lift]
    show Out.lift (l.put o R S) (loopHead c.fuel l.st.env v a b) _ = _
    congr 1
    funext ⟨x, y⟩
    dsimp only
    rw [mapSt_andThen (g := fun l : LSt => l.put o R S) (f' := fun l => .ok (if x ≤ y then { l with st := { l.st with lv := dDel v l.st.lv } } else l))
      (h := by intro l; split <;> rfl)]
    rw [iterate_put (fun l : LSt => l.put o R S) (LSt.setVar v) (readBody c vals body) (hset := fun _ _ => rfl) (hf := ih)]

theorem inTable_put (name : Option VarRef) (f f' : RSt → Out RSt) (o : Nat) (R : List ARec) (S : List (Nat × Nat))
    (hf : ∀ s, f' (s.put o R S) = (f s).mapSt (·.put o R S)) (s : RSt) :
    inTable name (s.put o R S) f' = (inTable name s f).mapSt (·.put o R S) := by
  unfold inTable
  cases name with
  | none => exact hf s
  | some r =>
    dsimp only
    rw [openR_put]
    refine lift_map (fun s : RSt => s.put o R S) s _ _ _ _ fun s1 => ?_
    rw [mapSt_andThen (h := ?_), hf]
    intro s2
    rw [closeR_put]
    exact lift_map (fun s : RSt => s.put o R S) s2 _ _ _ _ fun _ => rfl

theorem readNamedBody_put (c : RCtx) (L : List Str) (vals : List PyNum) (o : Nat) (R : List ARec) (S : List (Nat × Nat)) (b : LBody)
    (name : Option VarRef) (s : RSt) :
    readNamedBody { c with lines := L } vals b name (s.put o R S) = (readNamedBody c vals b name s).mapSt (·.put o R S) := by
  unfold readNamedBody
  cases name with
  | none => exact readBody_put c L vals o R S b ⟨0, s⟩
  | some r =>
    dsimp only
    rw [openR_put]
    refine lift_map (fun l : LSt => l.put o R S) ⟨0, s⟩ _ _ _ _ fun s1 => ?_
    rw [mapSt_andThen (h := ?_), ← readBody_put c L vals o R S b ⟨0, s1⟩]
    · rfl
    · intro l
      show Out.lift (l.put o R S) (closeR (l.st.put o R S)) _ = _
      rw [closeR_put]
      exact lift_map (fun l : LSt => l.put o R S) l _ _ _ _ fun _ => rfl

/-! ## records -/

/-- the kind of the record an action reads (INTG: with the number of digits) -/
def Act.kind (a : Act) : Option RKind :=
  match a with
  | .text _ _ => some .text
  | .cont isHead _ _ => some (if isHead then .head else .cont)
  | .dir _ _ => some .dir
  | .intg _ _ _ => none
  | .tab1 _ _ _ _ _ => some .tab1
  | .tab2 _ _ _ => some .tab2
  | .list _ _ _ _ => some .list
  | .send => some .send
  | .stop => none

/-- what is done with a record -/
def useRec (c : RCtx) (a : Act) (q : ARec) (s : RSt) : Out RSt :=
  match a with
  | .text k fs =>
    .lift s (checkCtrl k q.ctrl) fun _ =>
    .lift s (mapTextRead s.lv (match q.flds with | [.txt hl] => hl | _ => []) fs 0 s.cur) fun cur =>
    logRec q { s with cur := setCtrl q.ctrl cur }
  | .cont isHead k fs =>
    .lift s (checkCtrl k q.ctrl) fun _ =>
    (mapFields c fs q.flds s).andThen fun s =>
    logRec q (if isHead then { s with cur := setCtrl q.ctrl s.cur } else s)
  | .dir k fs =>
    .lift s (checkCtrl k q.ctrl) fun _ => (mapFields c fs q.flds s).andThen fun s => logRec q s
  | .intg k fs _ =>
    .lift s (checkCtrl k q.ctrl) fun _ => (mapFields c fs q.flds s).andThen fun s => logRec q s
  | .tab1 k fs x y name =>
    .lift s (checkCtrl k q.ctrl) fun _ =>
    (mapFields c (fs.take 4) q.flds s).andThen fun s =>
    match s.proceed with
    | none => .ok s
    | some s =>
      (inTable name s (mapFields c (nbtInt ++ [.var x, .var y]) q.tbl)).andThen fun s => logRec q s
  | .tab2 k fs name =>
    .lift s (checkCtrl k q.ctrl) fun _ =>
    (mapFields c (fs.take 4 ++ fs.drop 5) q.flds s).andThen fun s =>
    match s.proceed with
    | none => .ok s
    | some s =>
      (inTable name s (mapFields c nbtInt q.tbl)).andThen fun s => logRec q s
  | .list k fs body name =>
    let vals := match q.tbl with | [.lst vals] => vals | _ => []
    .lift s (checkCtrl k q.ctrl) fun _ =>
    (mapFields c fs q.flds s).andThen fun s =>
    match s.proceed with
    | none => .ok s
    | some s =>
      match readNamedBody c vals body name s with
      | .err e l => .err e l.st
      | .ok l => if l.pos < vals.length then .err .unconsumedList l.st else logRec q l.st
  | .send => logRec q s
  | .stop => .err .stop s

/-- the lines read so far, SEND records are not counted -/
def span (k : RKind) (a b : Nat) : List (Nat × Nat) := if k = .send then [] else [(a, b)]

/-- reading with a record is: find the record, then use it -/
theorem readAct_kind (c : RCtx) (a : Act) (k : RKind) (hk : a.kind = some k) (s : RSt) :
    readAct c a s = .lift s (skipBlankLines c.lines s.ofs) fun o =>
      .lift { s with ofs := o } (readKind c.ro c.lines o k) fun (q, o') =>
        useRec c a q { s with ofs := o', spans := s.spans ++ span k o o' } := by
  cases a with
  | text k' fs =>
    cases hk
    simp only [readAct, takeRec, readKind, useRec]
    cases skipBlankLines c.lines s.ofs with
    | error e => rfl
    | ok o =>
      simp only [Out.lift, bind, Except.bind]
      cases readText c.ro c.lines o <;> rfl
  | cont ih k' fs =>
    cases hk
    cases ih
    all_goals
      simp only [readAct, takeRec, readKind, useRec]
      cases skipBlankLines c.lines s.ofs with
      | error e => rfl
      | ok o =>
        simp only [Out.lift, bind, Except.bind]
        cases h : readCont c.ro c.lines o <;> simp only [h, Bool.false_eq_true, if_false, if_true] <;> rfl
  | dir k' fs =>
    cases hk
    simp only [readAct, takeRec, readKind, useRec]
    cases skipBlankLines c.lines s.ofs with
    | error e => rfl
    | ok o =>
      simp only [Out.lift, bind, Except.bind]
      cases readDir c.ro c.lines o <;> rfl
  | intg k' fs nd => cases hk
  | tab1 k' fs x y name =>
    cases hk
    simp only [readAct, takeRec, readKind, useRec]
    cases skipBlankLines c.lines s.ofs with
    | error e => rfl
    | ok o =>
      simp only [Out.lift, bind, Except.bind]
      cases readTab1 c.ro c.lines o <;> rfl
  | tab2 k' fs name =>
    cases hk
    simp only [readAct, takeRec, readKind, useRec]
    cases skipBlankLines c.lines s.ofs with
    | error e => rfl
    | ok o =>
      simp only [Out.lift, bind, Except.bind]
      cases readTab2 c.ro c.lines o <;> rfl
  | list k' fs body name =>
    cases hk
    simp only [readAct, takeRec, readKind, useRec]
    cases skipBlankLines c.lines s.ofs with
    | error e => rfl
    | ok o =>
      simp only [Out.lift, bind, Except.bind]
      cases readList c.ro c.lines o <;> rfl
  | send =>
    cases hk
    simp only [readAct, readKind, useRec]
    cases skipBlankLines c.lines s.ofs with
    | error e => rfl
    | ok o =>
      simp only [Out.lift, bind, Except.bind, span, if_true, List.append_nil]
      cases readSend c.ro c.lines o <;> rfl
  | stop => cases hk

theorem readAct_intg (c : RCtx) (k : CSpec) (fs : List Expr) (nd : Expr) (s : RSt) :
    readAct c (.intg k fs nd) s = .lift s (evalKnown c.fuel s.env true true nd) fun n =>
      match n with
      | .num (.int n) =>
        .lift s (skipBlankLines c.lines s.ofs) fun o =>
        .lift { s with ofs := o } (readKind c.ro c.lines o (.intg n)) fun (q, o') =>
          useRec c (.intg k fs nd) q { s with ofs := o', spans := s.spans ++ span (.intg n) o o' }
      | _ => .err .typeError s := by
  simp only [readAct]
  congr 1
  funext n
  split
  · rename_i n
    simp only [takeRec, readKind, useRec]
    cases skipBlankLines c.lines s.ofs with
    | error e => rfl
    | ok o =>
      simp only [Out.lift, bind, Except.bind]
      cases readIntg c.ro n c.lines o <;> rfl
  · rename_i h
    split
    · exact absurd rfl (h _)
    · rfl

theorem mapSt_ok {σ τ : Type} {g : σ → τ} {o : Out σ} {s : σ} (h : o = .ok s) : o.mapSt g = .ok (g s) := by
  rw [h]; rfl

theorem readKind_kind {ro : ROpts} {lines : List Str} {ofs : Nat} {k : RKind} {q : ARec} {o : Nat}
    (h : readKind ro lines ofs k = .ok (q, o)) : q.kind = k := by
  unfold readKind at h
  cases k <;>
  · simp only [bind_ok, pure, Except.pure, Except.ok.injEq, Prod.mk.injEq] at h
    obtain ⟨_, _, h, _⟩ := h
    rw [← h]

theorem proceed_idle {s : RSt} (h : s.look = none) : s.proceed = some s := by
  unfold RSt.proceed; rw [h]

theorem mapFields_fix {c : RCtx} {es : List Expr} {vals : List Val} {s s' : RSt} (h : mapFields c es vals s = .ok s') :
    s'.recs = s.recs ∧ s'.ofs = s.ofs ∧ s'.look = s.look := by
  unfold mapFields at h
  simp only [Out.lift_ok] at h
  obtain ⟨_, _, h⟩ := h
  cases h
  exact ⟨rfl, rfl, rfl⟩

theorem openR_fix {s s' : RSt} {r : VarRef} (h : openR s r = .ok s') : s'.recs = s.recs ∧ s'.ofs = s.ofs ∧ s'.look = s.look := by
  unfold openR at h
  simp only [bind_ok, pure, Except.pure, Except.ok.injEq] at h
  obtain ⟨_, _, _, _, rfl⟩ := h
  exact ⟨rfl, rfl, rfl⟩

theorem closeR_fix {s s' : RSt} (h : closeR s = .ok s') : s'.recs = s.recs ∧ s'.ofs = s.ofs ∧ s'.look = s.look := by
  unfold closeR at h
  cases hu : s.ups with
  | nil => rw [hu] at h; cases h
  | cons u rest =>
    obtain ⟨outer, n, is⟩ := u
    rw [hu] at h
    simp only [bind_ok, pure, Except.pure, Except.ok.injEq] at h
    obtain ⟨_, _, rfl⟩ := h
    exact ⟨rfl, rfl, rfl⟩

theorem inTable_fix {name : Option VarRef} {s s' : RSt} {f : RSt → Out RSt}
    (hf : ∀ s s', f s = .ok s' → s'.recs = s.recs ∧ s'.ofs = s.ofs ∧ s'.look = s.look) (h : inTable name s f = .ok s') :
    s'.recs = s.recs ∧ s'.ofs = s.ofs ∧ s'.look = s.look := by
  unfold inTable at h
  cases name with
  | none => exact hf _ _ h
  | some r =>
    simp only [Out.lift_ok, Out.andThen_ok] at h
    obtain ⟨s1, h1, s2, h2, s3, h3, h4⟩ := h
    cases h4
    obtain ⟨a1, a2, a3⟩ := openR_fix h1
    obtain ⟨b1, b2, b3⟩ := hf _ _ h2
    obtain ⟨c1, c2, c3⟩ := closeR_fix h3
    exact ⟨c1.trans (b1.trans a1), c2.trans (b2.trans a2), c3.trans (b3.trans a3)⟩

theorem iterate_fix {σ : Type} {set : Int → σ → σ} {f : σ → Out σ} (P : σ → σ → Prop) (hr : ∀ s, P s s)
    (hs : ∀ i s s', P (set i s) s' → P s s') (hf : ∀ s s', f s = .ok s' → P s s') (ht : ∀ a b c, P a b → P b c → P a c)
    {is : List Int} {s s' : σ} (h : iterate set f is s = .ok s') : P s s' := by
  induction is generalizing s with
  | nil => cases h; exact hr _
  | cons i is ih =>
    unfold iterate at h
    rw [Out.andThen_ok] at h
    obtain ⟨s1, h1, h2⟩ := h
    exact ht _ _ _ (hs _ _ _ (hf _ _ h1)) (ih h2)

theorem readBody_fix {c : RCtx} {vals : List PyNum} {b : LBody} {l l' : LSt} (h : readBody c vals b l = .ok l') :
    l'.st.recs = l.st.recs ∧ l'.st.ofs = l.st.ofs ∧ l'.st.look = l.st.look := by
  induction b generalizing l l' with
  | nil => cases h; exact ⟨rfl, rfl, rfl⟩
  | seq a b iha ihb =>
    unfold readBody at h
    rw [Out.andThen_ok] at h
    obtain ⟨l1, h1, h2⟩ := h
    obtain ⟨a1, a2, a3⟩ := iha h1
    obtain ⟨b1, b2, b3⟩ := ihb h2
    exact ⟨b1.trans a1, b2.trans a2, b3.trans a3⟩
  | expr e =>
    unfold readBody at h
    cases hv : vals[l.pos]? with
    | none => rw [hv] at h; cases h
    | some v =>
      simp only [hv, Out.lift_ok] at h
      obtain ⟨_, _, h⟩ := h
      cases h
      exact ⟨rfl, rfl, rfl⟩
  | pad => cases h; exact ⟨rfl, rfl, rfl⟩
  | loop v a b body ih =>
    unfold readBody at h
    simp only [Out.lift_ok, Out.andThen_ok] at h
    obtain ⟨⟨x, y⟩, _, l1, h1, h2⟩ := h
    have := iterate_fix (set := LSt.setVar v) (P := fun l l' : LSt => l'.st.recs = l.st.recs ∧ l'.st.ofs = l.st.ofs ∧ l'.st.look = l.st.look)
      (fun _ => ⟨rfl, rfl, rfl⟩) (fun _ _ _ h => h) (fun _ _ h => ih h)
      (fun _ _ _ a b => ⟨b.1.trans a.1, b.2.1.trans a.2.1, b.2.2.trans a.2.2⟩) h1
    cases h2
    dsimp only
    split <;> exact this

theorem readNamedBody_fix {c : RCtx} {vals : List PyNum} {b : LBody} {name : Option VarRef} {s : RSt} {l' : LSt}
    (h : readNamedBody c vals b name s = .ok l') :
    l'.st.recs = s.recs ∧ l'.st.ofs = s.ofs ∧ l'.st.look = s.look := by
  unfold readNamedBody at h
  cases name with
  | none => exact readBody_fix h
  | some r =>
    simp only [Out.lift_ok, Out.andThen_ok] at h
    obtain ⟨s1, h1, l2, h2, s3, h3, h4⟩ := h
    cases h4
    obtain ⟨a1, a2, a3⟩ := openR_fix h1
    obtain ⟨b1, b2, b3⟩ := readBody_fix h2
    obtain ⟨c1, c2, c3⟩ := closeR_fix h3
    exact ⟨c1.trans (b1.trans a1), c2.trans (b2.trans a2), c3.trans (b3.trans a3)⟩

/-- the use of a record does not depend on where it stands -/
theorem useRec_put {c : RCtx} {a : Act} {q : ARec} {s s' : RSt} (hl : s.look = none) (h : useRec c a q s = .ok s') :
    s'.recs = s.recs ++ [q] ∧ s'.ofs = s.ofs ∧ s'.look = none ∧
    ∀ L o R S, useRec { c with lines := L } a q (s.put o R S) = .ok (s'.put o (R ++ [q]) S) := by
  cases a with
  | text k fs =>
    simp only [useRec, Out.lift_ok, logRec] at h
    obtain ⟨_, h1, _, h2, h3⟩ := h
    cases h3
    refine ⟨rfl, rfl, hl, fun L o R S => ?_⟩
    simp only [useRec, RSt.put, h1, h2, Out.lift, logRec]
  | cont ih k fs =>
    simp only [useRec, Out.lift_ok, Out.andThen_ok, logRec] at h
    obtain ⟨_, h1, s1, h2, h3⟩ := h
    obtain ⟨a1, a2, a3⟩ := mapFields_fix h2
    cases h3
    refine ⟨?_, ?_, ?_, fun L o R S => ?_⟩
    · split <;> simp [a1]
    · split <;> simp [a2]
    · split <;> simp [a3, hl]
    · simp only [useRec, h1, Out.lift, mapFields_put, mapSt_ok h2, Out.andThen, logRec]
      split <;> rfl
  | dir k fs =>
    simp only [useRec, Out.lift_ok, Out.andThen_ok, logRec] at h
    obtain ⟨_, h1, s1, h2, h3⟩ := h
    obtain ⟨a1, a2, a3⟩ := mapFields_fix h2
    cases h3
    refine ⟨by simp [a1], a2, a3.trans hl, fun L o R S => ?_⟩
    simp only [useRec, h1, Out.lift, mapFields_put, mapSt_ok h2, Out.andThen, logRec]
    rfl
  | intg k fs nd =>
    simp only [useRec, Out.lift_ok, Out.andThen_ok, logRec] at h
    obtain ⟨_, h1, s1, h2, h3⟩ := h
    obtain ⟨a1, a2, a3⟩ := mapFields_fix h2
    cases h3
    refine ⟨by simp [a1], a2, a3.trans hl, fun L o R S => ?_⟩
    simp only [useRec, h1, Out.lift, mapFields_put, mapSt_ok h2, Out.andThen, logRec]
    rfl
  | tab1 k fs x y name =>
    simp only [useRec, Out.lift_ok, Out.andThen_ok] at h
    obtain ⟨_, h1, s1, h2, h3⟩ := h
    obtain ⟨a1, a2, a3⟩ := mapFields_fix h2
    rw [proceed_idle (a3.trans hl)] at h3
    simp only [Out.andThen_ok, logRec] at h3
    obtain ⟨s2, h3, h4⟩ := h3
    obtain ⟨b1, b2, b3⟩ := inTable_fix (fun _ _ h => mapFields_fix h) h3
    cases h4
    refine ⟨by simp [a1, b1], b2.trans a2, b3.trans (a3.trans hl), fun L o R S => ?_⟩
    have hp : (s1.put o R S).proceed = some (s1.put o R S) := proceed_idle (a3.trans hl)
    simp only [useRec, h1, Out.lift, mapFields_put, mapSt_ok h2, Out.andThen, hp]
    rw [inTable_put name (mapFields c (nbtInt ++ [Expr.var x, Expr.var y]) q.tbl)
      (mapFields { c with lines := L } (nbtInt ++ [Expr.var x, Expr.var y]) q.tbl) o R S
      (fun s => mapFields_put c L _ _ s o R S), mapSt_ok h3]
    rfl
  | tab2 k fs name =>
    simp only [useRec, Out.lift_ok, Out.andThen_ok] at h
    obtain ⟨_, h1, s1, h2, h3⟩ := h
    obtain ⟨a1, a2, a3⟩ := mapFields_fix h2
    rw [proceed_idle (a3.trans hl)] at h3
    simp only [Out.andThen_ok, logRec] at h3
    obtain ⟨s2, h3, h4⟩ := h3
    obtain ⟨b1, b2, b3⟩ := inTable_fix (fun _ _ h => mapFields_fix h) h3
    cases h4
    refine ⟨by simp [a1, b1], b2.trans a2, b3.trans (a3.trans hl), fun L o R S => ?_⟩
    have hp : (s1.put o R S).proceed = some (s1.put o R S) := proceed_idle (a3.trans hl)
    simp only [useRec, h1, Out.lift, mapFields_put, mapSt_ok h2, Out.andThen, hp]
    rw [inTable_put (f := mapFields c nbtInt q.tbl) (hf := fun s => mapFields_put c L _ _ s o R S), mapSt_ok h3]
    rfl
  | list k fs body name =>
    simp only [useRec, Out.lift_ok, Out.andThen_ok] at h
    obtain ⟨_, h1, s1, h2, h3⟩ := h
    obtain ⟨a1, a2, a3⟩ := mapFields_fix h2
    rw [proceed_idle (a3.trans hl)] at h3
    dsimp only at h3
    generalize hv : (match q.tbl with | [.lst vals] => vals | _ => []) = vals at h3
    cases hb : readNamedBody c vals body name s1 with
    | err e l => rw [hb] at h3; cases h3
    | ok l =>
      rw [hb] at h3
      dsimp only at h3
      split at h3
      · cases h3
      · rename_i hn
        unfold logRec at h3
        cases h3
        obtain ⟨b1, b2, b3⟩ := readNamedBody_fix hb
        refine ⟨by simp [a1, b1], b2.trans a2, b3.trans (a3.trans hl), fun L o R S => ?_⟩
        have hp : (s1.put o R S).proceed = some (s1.put o R S) := proceed_idle (a3.trans hl)
        simp only [useRec, h1, Out.lift, mapFields_put, mapSt_ok h2, Out.andThen, hp, hv]
        rw [readNamedBody_put, mapSt_ok hb]
        show (if l.pos < vals.length then _ else _) = _
        rw [if_neg hn]
        rfl
  | send =>
    simp only [useRec, logRec] at h
    cases h
    exact ⟨rfl, rfl, hl, fun L o R S => rfl⟩
  | stop => cases h

/-- one action -/
theorem readAct_put {c : RCtx} {a : Act} {s s' : RSt} (hl : s.look = none) (h : readAct c a s = .ok s') :
    ∃ q, s'.recs = s.recs ++ [q] ∧ s'.look = none ∧ NextRec c.ro c.lines s.ofs q s'.ofs ∧
    ∀ L o o' R S, NextRec c.ro L o q o' → ∃ S', readAct { c with lines := L } a (s.put o R S) = .ok (s'.put o' (R ++ [q]) S') := by
  by_cases hi : ∃ k fs nd, a = .intg k fs nd
  · obtain ⟨k, fs, nd, rfl⟩ := hi
    rw [readAct_intg] at h
    simp only [Out.lift_ok] at h
    obtain ⟨n, h1, h⟩ := h
    split at h
    · rename_i n
      simp only [Out.lift_ok] at h
      obtain ⟨o1, h2, ⟨q, o2⟩, h3, h4⟩ := h
      obtain ⟨b1, b2, b3, b4⟩ := useRec_put (s := { s with ofs := o2, spans := s.spans ++ span (.intg n) o1 o2 }) hl h4
      have hk := readKind_kind h3
      refine ⟨q, b1, b3, ⟨o1, h2, ?_⟩, ?_⟩
      · rw [hk, h3, b2]
      · rintro L o o' R S ⟨p1, g1, g2⟩
        rw [hk] at g2
        refine ⟨S ++ span (.intg n) p1 o', ?_⟩
        rw [readAct_intg]
        have e1 : evalKnown c.fuel (s.put o R S).env true true nd = .ok (.num (.int n)) := h1
        simp only [e1, Out.lift]
        have e2 : skipBlankLines L (s.put o R S).ofs = .ok p1 := g1
        simp only [e2, g2]
        exact b4 L o' R (S ++ span (.intg n) p1 o')
    · cases h
  · cases hk : a.kind with
    | none =>
      cases a <;> first | (cases hk; done) | skip
      · exact absurd ⟨_, _, _, rfl⟩ hi
      · simp only [readAct, Out.lift_ok] at h
        obtain ⟨_, _, h⟩ := h
        cases h
    | some k =>
      rw [readAct_kind c a k hk] at h
      simp only [Out.lift_ok] at h
      obtain ⟨o1, h2, ⟨q, o2⟩, h3, h4⟩ := h
      obtain ⟨b1, b2, b3, b4⟩ := useRec_put (s := { s with ofs := o2, spans := s.spans ++ span k o1 o2 }) hl h4
      have hq := readKind_kind h3
      refine ⟨q, b1, b3, ⟨o1, h2, ?_⟩, ?_⟩
      · rw [hq, h3, b2]
      · rintro L o o' R S ⟨p1, g1, g2⟩
        rw [hq] at g2
        refine ⟨S ++ span k p1 o', ?_⟩
        rw [readAct_kind _ a k hk]
        have e2 : skipBlankLines L (s.put o R S).ofs = .ok p1 := g1
        simp only [e2, Out.lift, g2]
        exact b4 L o' R (S ++ span k p1 o')

/-- no condition looks ahead -/
def LookFree : Prog → Prop
  | .skip | .act _ | .abbr _ _ => True
  | .seq a b => LookFree a ∧ LookFree b
  | .sect _ b => LookFree b
  | .loop _ _ _ b => LookFree b
  | .ite _ l a b => l = none ∧ LookFree a ∧ LookFree b

/-- from `s` to `s'`, the records `new` have been read, and wherever they stand the result is the same -/
def Again (c : RCtx) (f : List Str → RSt → Out RSt) (s s' : RSt) : Prop :=
  ∃ new, s'.recs = s.recs ++ new ∧ s'.look = none ∧ Laid c.ro c.lines s.ofs new s'.ofs ∧
    ∀ L o o' R S, Laid c.ro L o new o' → ∃ S', f L (s.put o R S) = .ok (s'.put o' (R ++ new) S')

theorem stopped_none {s : RSt} (h : s.look = none) : s.stopped = false := by
  unfold RSt.stopped; rw [h]; rfl

theorem iterate_again {c : RCtx} {set : Int → RSt → RSt} {f : List Str → RSt → Out RSt}
    (hset : ∀ i s, (set i s).ofs = s.ofs ∧ (set i s).recs = s.recs ∧ (set i s).look = s.look ∧
      ∀ o R S, set i (s.put o R S) = (set i s).put o R S)
    (hf : ∀ s s', s.look = none → f c.lines s = .ok s' → Again c f s s') {is : List Int} {s s' : RSt} (hl : s.look = none)
    (h : iterate set (f c.lines) is s = .ok s') : Again c (fun L => iterate set (f L) is) s s' := by
  induction is generalizing s with
  | nil =>
    cases h
    refine ⟨[], by simp, hl, .nil _, fun L o o' R S hL => ?_⟩
    cases hL
    exact ⟨S, by simp [iterate]⟩
  | cons i is ih =>
    unfold iterate at h
    rw [Out.andThen_ok] at h
    obtain ⟨s1, h1, h2⟩ := h
    obtain ⟨e1, e2, e3, e4⟩ := hset i s
    obtain ⟨n1, a1, a2, a3, a4⟩ := hf _ _ (e3.trans hl) h1
    obtain ⟨n2, b1, b2, b3, b4⟩ := ih a2 h2
    rw [e2] at a1
    rw [e1] at a3
    refine ⟨n1 ++ n2, by rw [b1, a1, List.append_assoc], b2, a3.append b3, fun L o o' R S hL => ?_⟩
    obtain ⟨o1, l1, l2⟩ := hL.split
    obtain ⟨S1, g1⟩ := a4 L o o1 R S l1
    obtain ⟨S2, g2⟩ := b4 L o1 o' (R ++ n1) S1 l2
    refine ⟨S2, ?_⟩
    dsimp only [iterate]
    rw [e4, g1]
    rw [List.append_assoc] at g2
    exact g2

theorem readProg_again {c : RCtx} {p : Prog} {s s' : RSt} (hn : LookFree p) (hl : s.look = none) (h : readProg c p s = .ok s') :
    Again c (fun L => readProg { c with lines := L } p) s s' := by
  induction p generalizing s s' with
  | skip =>
    cases h
    refine ⟨[], by simp, hl, .nil _, fun L o o' R S hL => ?_⟩
    cases hL
    exact ⟨S, by simp [readProg]⟩
  | seq a b iha ihb =>
    unfold readProg at h
    rw [Out.andThen_ok] at h
    obtain ⟨s1, h1, h2⟩ := h
    obtain ⟨n1, a1, a2, a3, a4⟩ := iha hn.1 hl h1
    obtain ⟨n2, b1, b2, b3, b4⟩ := ihb hn.2 a2 h2
    refine ⟨n1 ++ n2, by rw [b1, a1, List.append_assoc], b2, a3.append b3, fun L o o' R S hL => ?_⟩
    obtain ⟨o1, l1, l2⟩ := hL.split
    obtain ⟨S1, g1⟩ := a4 L o o1 R S l1
    obtain ⟨S2, g2⟩ := b4 L o1 o' (R ++ n1) S1 l2
    refine ⟨S2, ?_⟩
    dsimp only [readProg] at g1 g2 ⊢
    rw [g1]
    rw [List.append_assoc] at g2
    exact g2
  | act a =>
    unfold readProg at h
    rw [proceed_idle hl] at h
    obtain ⟨q, a1, a2, a3, a4⟩ := readAct_put hl h
    refine ⟨[q], a1, a2, .cons a3 (.nil _), fun L o o' R S hL => ?_⟩
    cases hL with
    | cons h1 t =>
      cases t
      obtain ⟨S', g⟩ := a4 L _ _ R S h1
      refine ⟨S', ?_⟩
      have hp : (s.put o R S).proceed = some (s.put o R S) := proceed_idle hl
      simp only [readProg, hp]
      exact g
  | sect r body ih =>
    unfold readProg at h
    rw [stopped_none hl] at h
    simp only [Bool.false_eq_true, if_false, Out.lift_ok, Out.andThen_ok] at h
    obtain ⟨s1, h1, s2, h2, cur, h3, s3, h4, h5⟩ := h
    cases h5
    obtain ⟨e1, e2, e3⟩ := openR_fix h1
    obtain ⟨n1, a1, a2, a3, a4⟩ := ih (s := { s1 with cur := initWork s1.cur }) hn (e3.trans hl) h2
    obtain ⟨d1, d2, d3⟩ := closeR_fix h4
    dsimp only at a1 a3 d1 d2 d3
    refine ⟨n1, by rw [d1, a1, e1], d3.trans a2, ?_, fun L o o' R S hL => ?_⟩
    · rw [d2, ← e2]; exact a3
    · obtain ⟨S1, g1⟩ := a4 L o o' R S hL
      refine ⟨S1, ?_⟩
      have hp : (s.put o R S).stopped = false := stopped_none hl
      have e4 : ({ s1.put o R S with cur := initWork s1.cur } : RSt) = RSt.put { s1 with cur := initWork s1.cur } o R S := rfl
      have e5 : removeWork (s2.put o' (R ++ n1) S1).cur = .ok cur := h3
      have e6 : ({ s2.put o' (R ++ n1) S1 with cur := cur } : RSt) = RSt.put { s2 with cur := cur } o' (R ++ n1) S1 := rfl
      simp only [readProg, hp, Bool.false_eq_true, if_false, openR_put, h1, Except.map, Out.lift]
      dsimp only at g1
      rw [show (s1.put o R S).cur = s1.cur from rfl, e4, g1]
      simp only [Out.andThen, e5, e6, closeR_put, h4, Except.map]
  | loop v a b body ih =>
    unfold readProg at h
    rw [stopped_none hl] at h
    simp only [Bool.false_eq_true, if_false, Out.lift_ok, Out.andThen_ok] at h
    obtain ⟨⟨x, y⟩, h1, s1, h2, h3⟩ := h
    cases h3
    obtain ⟨n1, a1, a2, a3, a4⟩ := iterate_again (c := c) (f := fun L => readProg { c with lines := L } body) (set := RSt.setVar v)
      (fun i s => ⟨rfl, rfl, rfl, fun _ _ _ => rfl⟩) (fun s s' hl h => ih hn hl h) hl h2
    refine ⟨n1, ?_, ?_, ?_, fun L o o' R S hL => ?_⟩
    · rw [← a1]; split <;> rfl
    · rw [← a2]; split <;> rfl
    · have : (if x ≤ y then ({ s1 with lv := dDel v s1.lv } : RSt) else s1).ofs = s1.ofs := by split <;> rfl
      dsimp only
      rw [this]; exact a3
    · obtain ⟨S1, g1⟩ := a4 L o o' R S hL
      refine ⟨S1, ?_⟩
      have hp : (s.put o R S).stopped = false := stopped_none hl
      have e1 : loopHead c.fuel (s.put o R S).env v a b = .ok (x, y) := h1
      simp only [readProg, hp, Bool.false_eq_true, if_false, e1, Out.lift]
      dsimp only at g1
      rw [g1]
      simp only [Out.andThen]
      split <;> rfl
  | ite cond look thn els iht ihe =>
    obtain ⟨rfl, ht, he⟩ := hn
    rw [readProg.eq_def] at h
    simp only [stopped_none hl, Bool.false_eq_true, if_false, Out.lift_ok] at h
    obtain ⟨t, h1, h2⟩ := h
    have key : ∀ L o R S, readProg { c with lines := L } (.ite cond none thn els) (s.put o R S) =
        if t then readProg { c with lines := L } thn (s.put o R S) else readProg { c with lines := L } els (s.put o R S) := by
      intro L o R S
      have hp : (s.put o R S).stopped = false := stopped_none hl
      have e1 : evalCond c.fuel (s.put o R S).env cond = .ok t := h1
      rw [readProg.eq_def]
      simp only [hp, Bool.false_eq_true, if_false, e1, Out.lift]
    unfold Again
    simp only [key]
    cases t with
    | true => exact iht ht hl h2
    | false => exact ihe he hl h2
  | abbr n e =>
    unfold readProg at h
    rw [stopped_none hl] at h
    simp only [Bool.false_eq_true, if_false, Out.lift_ok] at h
    obtain ⟨cur, h1, h2⟩ := h
    cases h2
    refine ⟨[], by simp, hl, .nil _, fun L o o' R S hL => ?_⟩
    cases hL
    refine ⟨S, ?_⟩
    have hp : (s.put o R S).stopped = false := stopped_none hl
    have e1 : introAbbr (s.put o R S).cur n e = .ok cur := h1
    simp only [readProg, hp, Bool.false_eq_true, if_false, e1, Out.lift, List.append_nil]
    rfl

/-- a whole section: where the same records stand, the same dictionary is read -/
theorem readSection_again {c : RCtx} {p : Prog} {s : RSt} (hn : LookFree p) (h : readSection c false p = .ok s) :
    Laid c.ro c.lines 0 s.recs s.ofs ∧
    ∀ L o, Laid c.ro L 0 s.recs o → ∃ s2, readSection { c with lines := L } false p = .ok s2 ∧ s2.cur = s.cur ∧ s2.recs = s.recs := by
  unfold readSection at h
  simp only [Out.andThen_ok, Out.lift_ok] at h
  obtain ⟨s0, h0, D, hD, h1⟩ := h
  cases h1
  obtain ⟨n, a1, a2, a3, a4⟩ := readProg_again hn rfl h0
  simp only [List.nil_append] at a1
  dsimp only
  rw [a1]
  refine ⟨a3, fun L o hL => ?_⟩
  obtain ⟨S', g⟩ := a4 L 0 o [] [] hL
  refine ⟨{ (s0.put o ([] ++ n) S') with cur := D }, ?_, rfl, by simp [RSt.put]⟩
  have e : (RSt.put { cur := initWork [], ignoreAll := false } 0 [] []) = { cur := initWork [], ignoreAll := false } := rfl
  rw [e] at g
  dsimp only at g
  unfold readSection
  rw [g]
  have hD' : removeWork (s0.put o ([] ++ n) S').cur = .ok D := hD
  simp only [Out.andThen, hD', Out.lift]

end Verif
