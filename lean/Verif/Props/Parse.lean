import Verif.Props.Write
import Verif.Model.Parse
import Verif.Props.Interp
/-
Properties of the parser object: C29, C30, C57.
-/
namespace Verif
open Spec

/-! ## C57 recipe selection -/

/-- the recipe chosen for a section of file MF: the recipe for all of MF if there is one, otherwise the recipe of the
section, otherwise the recipe for the remaining sections (entry -1) -/
def Spec.Selected (trees : Dict Int RecipeEntry) (mf mt : Int) (p : Prog) : Prop :=
  dGet mf trees = some (.tree p) ∨
  ∃ d, dGet mf trees = some (.byMt d) ∧ (dGet mt d = some p ∨ dGet mt d = none ∧ dGet (-1) d = some p)

/-- C57: recipe selection -/
theorem C57_selected (trees : Dict Int RecipeEntry) (mf mt : Int) (p : Prog) :
    responsible trees mf mt = some p ↔ Selected trees mf mt p := by
  unfold responsible Selected
  cases h : dGet mf trees with
  | none => simp
  | some e =>
    cases e with
    | tree q => simp
    | byMt d =>
      cases h2 : dGet mt d with
      | none => simp [h2]
      | some q => simp [h2]

/-- C57: without a recipe the section stays as it is -/
theorem C57_unparsed (x : PCtx) (a : PArgs) (o : PObj) (mf mt : Int) (lines : List Str) (v : SecVal DDic) (o' : PObj)
    (hr : ∀ p, ¬ Selected x.trees mf mt p) (h : parseSec x a o mf mt lines = (o', .ok v)) : v = .verb lines ∧ o' = o := by
  unfold parseSec at h
  split at h
  · cases h
  · split at h
    · cases h; exact ⟨rfl, rfl⟩
    · rename_i p hp
      exact absurd ((C57_selected _ _ _ _).1 hp) (hr p)

/-- C57: a definition for one section changes the choice for this section only (entry -1, the recipe for the remaining
sections, aside) -/
theorem C57_override (trees trees' : Dict Int RecipeEntry) (mf mt : Int) (p : Prog) (hmt : mt ≠ -1)
    (h : defRecipe trees mf (some mt) p = .ok trees') (mf' mt' : Int) :
    responsible trees' mf' mt' = if mf' = mf ∧ mt' = mt then some p else responsible trees mf' mt' := by
  unfold defRecipe at h
  dsimp only at h
  split at h
  · rename_i hg
    cases h
    unfold responsible
    by_cases hm : mf' = mf
    · subst hm
      rw [dGet_dSet_self, hg]
      simp only [dGet]
      by_cases ht : mt' = mt
      · subst ht; simp
      · simp [ht, Ne.symm ht, hmt]
    · rw [dGet_dSet_ne (Ne.symm hm)]; simp [hm]
  · rename_i d hg
    cases h
    unfold responsible
    by_cases hm : mf' = mf
    · subst hm
      rw [dGet_dSet_self, hg]
      dsimp only
      by_cases ht : mt' = mt
      · subst ht; rw [dGet_dSet_self]; simp
      · rw [dGet_dSet_ne (Ne.symm ht), dGet_dSet_ne hmt]; simp [ht]
    · rw [dGet_dSet_ne (Ne.symm hm)]; simp [hm]
  · cases h

/-- C57: a definition for a file changes the choice for this file only -/
theorem C57_override_file (trees trees' : Dict Int RecipeEntry) (mf : Int) (p : Prog)
    (h : defRecipe trees mf none p = .ok trees') (mf' mt' : Int) :
    responsible trees' mf' mt' = if mf' = mf then some p else responsible trees mf' mt' := by
  simp only [defRecipe, Except.ok.injEq] at h
  subst h
  unfold responsible
  by_cases hm : mf' = mf
  · subst hm; rw [dGet_dSet_self]; simp
  · rw [dGet_dSet_ne (Ne.symm hm)]; simp [hm]

/-- a flavour: definitions on top of the base recipes -/
def flavour (base : Dict Int RecipeEntry) (defs : List (Int × Option Int × Prog)) : Res (Dict Int RecipeEntry) :=
  defs.foldlM (fun t q => defRecipe t q.1 q.2.1 q.2.2) base

/-- C57: a flavour leaves all sections alone for which it has no own entry. -/
theorem C57_flavour (defs : List (Int × Option Int × Prog)) (base trees : Dict Int RecipeEntry)
    (h : flavour base defs = .ok trees) (mf mt : Int)
    (hd : ∀ q ∈ defs, q.2.1 ≠ some (-1) ∧ (q.1 = mf → q.2.1 ≠ none ∧ q.2.1 ≠ some mt)) :
    responsible trees mf mt = responsible base mf mt := by
  induction defs generalizing base with
  | nil => simp only [flavour, List.foldlM_nil, pure_ok] at h; rw [h]
  | cons q defs ih =>
    simp only [flavour, List.foldlM_cons, bind_ok] at h
    obtain ⟨t1, h1, h2⟩ := h
    rw [ih t1 h2 (fun q hq => hd q (List.mem_cons_of_mem _ hq))]
    obtain ⟨g1, g2⟩ := hd q List.mem_cons_self
    obtain ⟨qf, qt, qp⟩ := q
    cases qt with
    | none =>
      rw [C57_override_file _ _ _ _ h1, if_neg]
      rintro rfl; exact (g2 rfl).1 rfl
    | some m =>
      rw [C57_override _ _ _ _ _ (by simpa using g1) h1, if_neg]
      rintro ⟨rfl, rfl⟩; exact (g2 rfl).2 rfl

/-- recipe for all of MF 3; by section in MF 8, one for the rest; nothing for MF 9 -/
example :
    let t : Dict Int RecipeEntry := [(3, .tree .skip), (8, .byMt [(-1, .act .send), (457, .seq .skip .skip)])]
    (match responsible t 3 1, responsible t 8 457, responsible t 8 16, responsible t 9 1 with
      | some .skip, some (.seq .skip .skip), some (.act .send), none => true
      | _, _, _, _ => false) = true := by decide +kernel

/-! ## C29 nofail -/

theorem parseMts_get {x : PCtx} {a : PArgs} {mf : Int} {d : Dict Int (List Str)} {o o' : PObj} {r : Dict Int (SecVal DDic)}
    (h : parseMts x a mf o d = (o', .ok r)) {mt : Int} {ls : List Str} (hg : dGet mt d = some ls) :
    ∃ o1 o2 v, dGet mt r = some v ∧ parseSec x a o1 mf mt ls = (o2, .ok v) := by
  induction d generalizing o r with
  | nil => simp [dGet] at hg
  | cons q d ih =>
    obtain ⟨mt', ls'⟩ := q
    rw [parseMts] at h
    split at h
    · cases h
    · rename_i o1 v h1
      split at h
      · cases h
      · rename_i o2 d2 h2
        cases h
        by_cases hm : mt' = mt
        · subst hm
          simp only [dGet, if_true, Option.some.injEq] at hg
          subst hg
          exact ⟨o, o1, v, by simp [dGet], h1⟩
        · simp only [dGet, if_neg hm] at hg ⊢
          exact ih h2 hg

theorem parseMfs_get {x : PCtx} {a : PArgs} {d : MfDic} {o o' : PObj} {r : Dict Int (Dict Int (SecVal DDic))}
    (h : parseMfs x a o d = (o', .ok r)) {mf mt : Int} {m : Dict Int (List Str)} {ls : List Str} (hm : dGet mf d = some m)
    (hg : dGet mt m = some ls) :
    ∃ o1 o2 q v, dGet mf r = some q ∧ dGet mt q = some v ∧ parseSec x a o1 mf mt ls = (o2, .ok v) := by
  induction d generalizing o r with
  | nil => simp [dGet] at hm
  | cons q d ih =>
    obtain ⟨mf', m'⟩ := q
    rw [parseMfs] at h
    split at h
    · cases h
    · rename_i o1 v h1
      split at h
      · cases h
      · rename_i o2 d2 h2
        cases h
        by_cases hf : mf' = mf
        · subst hf
          simp only [dGet, if_true, Option.some.injEq] at hm
          subst hm
          obtain ⟨a1, a2, w, h3, h4⟩ := parseMts_get h1 hg
          exact ⟨a1, a2, v, w, by simp [dGet], h3, h4⟩
        · simp only [dGet, if_neg hf] at hm ⊢
          exact ih h2 hm

/-- C29, partial: with `nofail` a section whose parsing fails with a `ParserException` is returned as its lines followed
by a SEND record.  (Proved for every section and result of a successful `parse`: it is either the data read from the
section and a SEND record, or, for sections without recipe or not selected, the lines, or lines and SEND record after a
failure.)  Missing: that it is exactly the lines, see `C29_fails`. -/
theorem C29_partial (x : PCtx) (o o' : PObj) (a : PArgs) (dic : MfDic) (res : Dict Int (Dict Int (SecVal DDic)))
    (hs : splitSections x.split a.lines = .ok dic) (h : parse x o a = (o', .ok res)) (mf mt : Int)
    (m : Dict Int (List Str)) (ls : List Str) (hm : dGet mf dic = some m) (hl : dGet mt m = some ls) :
    ∃ q v, dGet mf res = some q ∧ dGet mt q = some v ∧
      (v = .verb ls ∨
       ∃ p send ia, Selected x.trees mf mt p ∧ (∃ c, writeSend x.wo false c = .ok send) ∧
        ((∃ s, readSection ⟨ls ++ send, x.split.fields, x.po, x.fuel⟩ ia p = .ok s ∧ v = .data s.cur) ∨
         (∃ e s, readSection ⟨ls ++ send, x.split.fields, x.po, x.fuel⟩ ia p = .err e s ∧ e.isParser = true ∧
            a.nofail = true ∧ v = .verb (ls ++ send)))) := by
  unfold parse at h
  rw [hs] at h
  obtain ⟨o1, o2, q, v, h1, h2, h3⟩ := parseMfs_get h hm hl
  refine ⟨q, v, h1, h2, ?_⟩
  unfold parseSec at h3
  split at h3
  · cases h3
  · split at h3
    · cases h3; exact .inl rfl
    · rename_i c _ _ p hp
      split at h3
      · cases h3; exact .inl rfl
      · split at h3
        · cases h3
        · rename_i send hsend
          refine .inr ⟨p, send, o1.ignoreAll, (C57_selected _ _ _ _).1 hp, ⟨_, hsend⟩, ?_⟩
          dsimp only at h3
          split at h3
          · rename_i s hrs
            cases h3
            exact .inl ⟨s, hrs, rfl⟩
          · rename_i e s hrs
            split at h3
            · rename_i he
              cases h3
              simp only [Bool.and_eq_true] at he
              exact .inr ⟨e, s, hrs, he.1, he.2, rfl⟩
            · cases h3

/-! ## C27 selection while parsing -/

/-- the sections asked for by `exclude` and `include` -/
def Wanted (excl incl : Option Sel) (mf mt : Int) : Prop :=
  match excl, incl with
  | some x, _ => ¬ Selects x mf mt
  | none, some i => Selects i mf mt
  | none, none => True

/-- **C27** In the result of `parse` (without `nofail`) the sections that are asked for and have a recipe are dictionaries;
all others are exactly the lines of the section. -/
theorem C27_parse (x : PCtx) (o o' : PObj) (a : PArgs) (hnf : a.nofail = false) (dic : MfDic)
    (res : Dict Int (Dict Int (SecVal DDic)))
    (hs : splitSections x.split a.lines = .ok dic) (h : parse x o a = (o', .ok res)) (mf mt : Int)
    (m : Dict Int (List Str)) (ls : List Str) (hm : dGet mf dic = some m) (hl : dGet mt m = some ls) :
    ∃ q v, dGet mf res = some q ∧ dGet mt q = some v ∧
      ((Wanted a.excl a.incl mf mt ∧ ∃ p, Selected x.trees mf mt p) → ∃ d, v = .data d) ∧
      (¬ (Wanted a.excl a.incl mf mt ∧ ∃ p, Selected x.trees mf mt p) → v = .verb ls) := by
  unfold parse at h
  rw [hs] at h
  obtain ⟨o1, o2, q, v, h1, h2, h3⟩ := parseMfs_get h hm hl
  have hw : shouldSkip mf mt a.excl a.incl = false ↔ Wanted a.excl a.incl mf mt := C27_selection mf mt a.excl a.incl
  refine ⟨q, v, h1, h2, ?_⟩
  unfold parseSec at h3
  split at h3
  · cases h3
  · split at h3
    · rename_i hp
      cases h3
      refine ⟨fun ⟨_, p, hsel⟩ => ?_, fun _ => rfl⟩
      rw [(C57_selected _ _ _ _).2 hsel] at hp
      cases hp
    · rename_i c _ _ p hp
      split at h3
      · rename_i hsk
        cases h3
        refine ⟨fun ⟨hwt, _⟩ => ?_, fun _ => rfl⟩
        rw [hw.2 hwt] at hsk
        cases hsk
      · rename_i hsk
        have hwt := hw.1 (by simpa using hsk)
        split at h3
        · cases h3
        · dsimp only at h3
          split at h3
          · cases h3
            exact ⟨fun _ => ⟨_, rfl⟩, fun hn => absurd ⟨hwt, p, (C57_selected _ _ _ _).1 hp⟩ hn⟩
          · rw [hnf, Bool.and_false] at h3
            cases h3

/-! ## C30 a parser object has no memory -/

/-- the state in which a step ended -/
def Out.st {σ : Type} : Out σ → σ
  | .ok s => s
  | .err _ s => s

/-- a recipe without lookahead -/
def Spec.NoLook : Prog → Prop
  | .skip | .act _ | .abbr _ _ => True
  | .seq a b => NoLook a ∧ NoLook b
  | .sect _ b => NoLook b
  | .loop _ _ _ b => NoLook b
  | .ite _ l a b => l = none ∧ NoLook a ∧ NoLook b

theorem keep_andThen {σ β : Type} {f : σ → β} {o : Out σ} {g : σ → Out σ} {b : β} (h1 : f o.st = b)
    (h2 : ∀ s, f s = b → f (g s).st = b) : f (o.andThen g).st = b := by
  cases o with
  | ok s => exact h2 s h1
  | err e s => exact h1

theorem keep_lift {σ α β : Type} {f : σ → β} {s : σ} {r : Res α} {g : α → Out σ} {b : β} (h1 : f s = b)
    (h2 : ∀ a, r = .ok a → f (g a).st = b) : f (Out.lift s r g).st = b := by
  cases r with
  | ok a => exact h2 a rfl
  | error e => exact h1

theorem keep_iterate {σ β : Type} {f : σ → β} {setVar : Int → σ → σ} {body : σ → Out σ} {b : β}
    (hset : ∀ i s, f (setVar i s) = f s) (hb : ∀ s, f s = b → f (body s).st = b) (is : List Int) (s : σ) (h : f s = b) :
    f (iterate setVar body is s).st = b := by
  induction is generalizing s with
  | nil => exact h
  | cons i is ih =>
    rw [iterate]
    exact keep_andThen (hb _ (by rw [hset]; exact h)) (fun s hs => ih s hs)

abbrev flag (s : RSt) : Bool := s.ignoreAll

theorem openR_flag {s s1 : RSt} {r : VarRef} (h : openR s r = .ok s1) : flag s1 = flag s := by
  unfold openR at h
  simp only [bind_ok, pure_ok] at h
  obtain ⟨_, _, _, _, rfl⟩ := h; rfl

theorem closeR_flag {s s1 : RSt} (h : closeR s = .ok s1) : flag s1 = flag s := by
  unfold closeR at h
  split at h
  · cases h
  · simp only [bind_ok, pure_ok] at h
    obtain ⟨_, _, rfl⟩ := h; rfl

theorem mapFields_flag (c : RCtx) (es : List Expr) (vals : List Val) (s : RSt) : flag (mapFields c es vals s).st = flag s :=
  keep_lift (f := flag) rfl (fun _ _ => rfl)

theorem inTable_flag {name : Option VarRef} {s : RSt} {g : RSt → Out RSt} {b : Bool} (hs : flag s = b)
    (h : ∀ s, flag s = b → flag (g s).st = b) : flag (inTable name s g).st = b := by
  unfold inTable
  split
  · exact h s hs
  · refine keep_lift (f := flag) hs fun s1 h1 => ?_
    refine keep_andThen (f := flag) (h s1 (by rw [openR_flag h1]; exact hs)) fun s2 h2 => ?_
    exact keep_lift (f := flag) h2 fun s3 h3 => by rw [← h2]; exact closeR_flag h3

theorem readBody_flag (c : RCtx) (vals : List PyNum) (b : LBody) (l : LSt) (x : Bool) (h : flag l.st = x) :
    flag (readBody c vals b l).st.st = x := by
  induction b generalizing l with
  | nil => exact h
  | seq a b iha ihb =>
    rw [readBody]
    exact keep_andThen (f := fun l : LSt => flag l.st) (iha l h) (fun l hl => ihb l hl)
  | expr e =>
    rw [readBody]
    split
    · exact h
    · exact keep_lift (f := fun l : LSt => flag l.st) h (fun _ _ => h)
  | pad => exact h
  | loop v a b body ih =>
    rw [readBody]
    refine keep_lift (f := fun l : LSt => flag l.st) h fun q _ => ?_
    obtain ⟨x', y'⟩ := q
    refine keep_andThen (f := fun l : LSt => flag l.st)
      (keep_iterate (f := fun l : LSt => flag l.st) (setVar := LSt.setVar v) (fun _ _ => rfl) (fun s hs => ih s hs) _ _ h)
      fun l hl => ?_
    show flag (LSt.st (Out.st (Out.ok (if x' ≤ y' then _ else _)))) = x
    simp only [Out.st]
    split
    · exact hl
    · exact hl

theorem readNamedBody_flag (c : RCtx) (vals : List PyNum) (b : LBody) (name : Option VarRef) (s : RSt) :
    flag (readNamedBody c vals b name s).st.st = flag s := by
  unfold readNamedBody
  split
  · exact readBody_flag _ _ _ _ _ rfl
  · refine keep_lift (f := fun l : LSt => flag l.st) rfl fun s1 h1 => ?_
    refine keep_andThen (f := fun l : LSt => flag l.st) (readBody_flag _ _ _ _ _ (openR_flag h1)) fun l hl => ?_
    exact keep_lift (f := fun l : LSt => flag l.st) hl fun s2 h2 => by rw [← hl]; exact closeR_flag h2

theorem takeRec_flag {α : Type} {c : RCtx} {s : RSt} {rd : List Str → Nat → Res (α × Nat)} {g : α → RSt → Out RSt}
    (hg : ∀ r s, flag (g r s).st = flag s) : flag (takeRec c s rd g).st = flag s := by
  unfold takeRec
  refine keep_lift (f := flag) rfl fun ofs _ => ?_
  refine keep_lift (f := flag) rfl fun q _ => ?_
  obtain ⟨r, ofs'⟩ := q
  exact hg _ _

theorem proceed_flag {s s1 : RSt} (h : s.proceed = some s1) : flag s1 = flag s := (Frame.proceed (a := true) (c := ⟨[], {}, {}, 0⟩) h).ign

theorem readAct_flag (c : RCtx) (act : Act) (s : RSt) : flag (readAct c act s).st = flag s := by
  cases act with
  | text k fs =>
    rw [readAct]
    refine takeRec_flag fun r s => ?_
    refine keep_lift (f := flag) rfl fun _ _ => keep_lift (f := flag) rfl fun _ _ => rfl
  | cont isHead k fs =>
    rw [readAct]
    refine takeRec_flag fun r s => ?_
    refine keep_lift (f := flag) rfl fun _ _ => keep_andThen (f := flag) (mapFields_flag _ _ _ _) fun s1 h1 => ?_
    show flag (if isHead = true then _ else _) = _
    split <;> exact h1
  | dir k fs =>
    rw [readAct]
    refine takeRec_flag fun r s => ?_
    exact keep_lift (f := flag) rfl fun _ _ => keep_andThen (f := flag) (mapFields_flag _ _ _ _) fun s1 h1 => h1
  | intg k fs nd =>
    rw [readAct]
    refine keep_lift (f := flag) rfl fun n _ => ?_
    split
    · refine takeRec_flag fun r s => ?_
      exact keep_lift (f := flag) rfl fun _ _ => keep_andThen (f := flag) (mapFields_flag _ _ _ _) fun s1 h1 => h1
    · rfl
  | tab1 k fs x y name =>
    rw [readAct]
    refine takeRec_flag fun r s => ?_
    refine keep_lift (f := flag) rfl fun _ _ => keep_andThen (f := flag) (mapFields_flag _ _ _ _) fun s1 h1 => ?_
    split
    · exact h1
    · rename_i s2 hp
      have h2 := (proceed_flag hp).trans h1
      refine keep_andThen (f := flag) (inTable_flag h2 fun s hs => by rw [mapFields_flag]; exact hs) fun s3 h3 => h3
  | tab2 k fs name =>
    rw [readAct]
    refine takeRec_flag fun r s => ?_
    refine keep_lift (f := flag) rfl fun _ _ => keep_andThen (f := flag) (mapFields_flag _ _ _ _) fun s1 h1 => ?_
    split
    · exact h1
    · rename_i s2 hp
      have h2 := (proceed_flag hp).trans h1
      refine keep_andThen (f := flag) (inTable_flag h2 fun s hs => by rw [mapFields_flag]; exact hs) fun s3 h3 => h3
  | list k fs body name =>
    rw [readAct]
    refine takeRec_flag fun r s => ?_
    refine keep_lift (f := flag) rfl fun _ _ => keep_andThen (f := flag) (mapFields_flag _ _ _ _) fun s1 h1 => ?_
    split
    · exact h1
    · rename_i s2 hp
      have h2 := (proceed_flag hp).trans h1
      have h3 := readNamedBody_flag c (r.vals.map PyNum.num) body name s2
      split
      · rename_i e l hl
        rw [hl] at h3
        exact h3.trans h2
      · rename_i l hl
        rw [hl] at h3
        split
        · exact h3.trans h2
        · exact h3.trans h2
  | send =>
    rw [readAct]
    exact keep_lift (f := flag) rfl fun _ _ => keep_lift (f := flag) rfl fun _ _ => rfl
  | stop =>
    rw [readAct]
    exact keep_lift (f := flag) rfl fun _ _ => rfl

theorem readProg_flag (c : RCtx) (p : Prog) (hp : NoLook p) (s : RSt) : flag (readProg c p s).st = flag s := by
  induction p generalizing s with
  | skip => rfl
  | seq a b iha ihb =>
    rw [readProg]
    exact keep_andThen (f := flag) (iha hp.1 s) fun s1 h1 => (ihb hp.2 s1).trans h1
  | act a =>
    rw [readProg]
    split
    · rfl
    · rename_i s1 h1
      rw [readAct_flag, proceed_flag h1]
  | sect r body ih =>
    rw [readProg]
    split
    · rfl
    · refine keep_lift (f := flag) rfl fun s1 h1 => ?_
      refine keep_andThen (f := flag) ((ih hp _).trans (show flag s1 = flag s from openR_flag h1)) fun s2 h2 => ?_
      refine keep_lift (f := flag) h2 fun cur _ => ?_
      exact keep_lift (f := flag) h2 fun s3 h3 => (closeR_flag h3).trans h2
  | loop v a b body ih =>
    rw [readProg]
    split
    · rfl
    · refine keep_lift (f := flag) rfl fun q _ => ?_
      obtain ⟨x, y⟩ := q
      refine keep_andThen (f := flag)
        (keep_iterate (f := flag) (setVar := RSt.setVar v) (fun _ _ => rfl) (fun s hs => (ih hp s).trans hs) _ _ rfl) fun l hl => ?_
      show flag (if x ≤ y then _ else _) = _
      split <;> exact hl
  | ite cond look thn els iht ihe =>
    obtain ⟨rfl, h1, h2⟩ := hp
    rw [readProg]
    split
    · rfl
    · refine keep_lift (f := flag) rfl fun t _ => ?_
      split
      · exact iht h1 s
      · exact ihe h2 s
  | abbr n e =>
    rw [readProg]
    split
    · rfl
    · exact keep_lift (f := flag) rfl fun _ _ => rfl

theorem readSection_flag (c : RCtx) (ia : Bool) (p : Prog) (hp : NoLook p) : flag (readSection c ia p).st = ia := by
  unfold readSection
  refine keep_andThen (f := flag) (readProg_flag c p hp _) fun s hs => ?_
  exact keep_lift (f := flag) hs fun _ _ => hs

/-- `parse` keeps the object if every section does -/
theorem parseMts_keep {x : PCtx} {a : PArgs} {mf : Int} (d : Dict Int (List Str))
    (h : ∀ o mt ls, (parseSec x a o mf mt ls).1 = o) (o : PObj) : (parseMts x a mf o d).1 = o := by
  induction d generalizing o with
  | nil => rfl
  | cons q d ih =>
    obtain ⟨mt, ls⟩ := q
    rw [parseMts]
    have h1 := h o mt ls
    split
    · rename_i o1 e hs; rw [hs] at h1; exact h1
    · rename_i o1 v hs
      rw [hs] at h1
      simp only at h1
      have h2 := ih o1
      split
      · rename_i o2 e hs2; rw [hs2] at h2; exact h2.trans h1
      · rename_i o2 v2 hs2; rw [hs2] at h2; exact h2.trans h1

theorem parseMfs_keep {x : PCtx} {a : PArgs} (d : MfDic)
    (h : ∀ o mf mt ls, (parseSec x a o mf mt ls).1 = o) (o : PObj) : (parseMfs x a o d).1 = o := by
  induction d generalizing o with
  | nil => rfl
  | cons q d ih =>
    obtain ⟨mf, m⟩ := q
    rw [parseMfs]
    have h1 := parseMts_keep (x := x) (a := a) (mf := mf) m (fun o mt ls => h o mf mt ls) o
    split
    · rename_i o1 e hs; rw [hs] at h1; exact h1
    · rename_i o1 v hs
      rw [hs] at h1
      simp only at h1
      have h2 := ih o1
      split
      · rename_i o2 e hs2; rw [hs2] at h2; exact h2.trans h1
      · rename_i o2 v2 hs2; rw [hs2] at h2; exact h2.trans h1

theorem parseSec_keep {x : PCtx} {a : PArgs} (hx : ∀ mf mt p, Selected x.trees mf mt p → NoLook p) (o : PObj)
    (mf mt : Int) (ls : List Str) : (parseSec x a o mf mt ls).1 = o := by
  unfold parseSec
  split
  · rfl
  · split
    · rfl
    · rename_i p hp
      split
      · rfl
      · split
        · rfl
        · rename_i send _
          have := readSection_flag ⟨ls ++ send, x.split.fields, x.po, x.fuel⟩ o.ignoreAll p
            (hx _ _ _ ((C57_selected _ _ _ _).1 hp))
          dsimp only
          split
          · rename_i s hs; rw [hs] at this; simp only [Out.st, flag] at this; cases o; simp_all
          · rename_i e s hs; rw [hs] at this; simp only [Out.st, flag] at this; cases o; simp_all

theorem parse_keep {x : PCtx} (hx : ∀ mf mt p, Selected x.trees mf mt p → NoLook p) (o : PObj) (a : PArgs) :
    (parse x o a).1 = o := by
  unfold parse
  split
  · rfl
  · exact parseMfs_keep _ (fun o mf mt ls => parseSec_keep hx o mf mt ls) o

/-- C30, partial, for recipes without lookahead: after any sequence of calls, successful or not, `parse` does the same
as on a new object.  Missing: recipes with lookahead, see `C30_fails`. -/
theorem C30_nolook_partial (x : PCtx) (hx : ∀ mf mt p, Selected x.trees mf mt p → NoLook p) (calls : List PArgs)
    (a : PArgs) : parse x (x.after x.fresh calls) a = parse x x.fresh a := by
  have : ∀ o, x.after o calls = o := by
    intro o
    unfold PCtx.after
    induction calls with
    | nil => rfl
    | cons b calls ih => rw [List.foldl_cons, parse_keep hx]; exact ih
  rw [this]

theorem parseSec_keep_ok {x : PCtx} {a : PArgs} (ha : a.nofail = false) {o o' : PObj} {mf mt : Int} {ls : List Str}
    {v : SecVal DDic} (h : parseSec x a o mf mt ls = (o', .ok v)) : o' = o := by
  unfold parseSec at h
  split at h
  · cases h
  · split at h
    · cases h; rfl
    · split at h
      · cases h; rfl
      · split at h
        · cases h
        · dsimp only at h
          split at h
          · rename_i s hs
            cases h
            unfold readSection at hs
            simp only [Out.andThen_ok, Out.lift_ok] at hs
            obtain ⟨s2, h2, cur, h3, h4⟩ := hs
            cases h4
            have := (readProg_frame h2).ign
            simp only at this ⊢
            rw [this]
          · simp [ha] at h

theorem parseMts_keep_ok {x : PCtx} {a : PArgs} (ha : a.nofail = false) {mf : Int} {d : Dict Int (List Str)} {o o' : PObj}
    {r : Dict Int (SecVal DDic)} (h : parseMts x a mf o d = (o', .ok r)) : o' = o := by
  induction d generalizing o r with
  | nil => cases h; rfl
  | cons q d ih =>
    obtain ⟨mt, ls⟩ := q
    rw [parseMts] at h
    split at h
    · cases h
    · rename_i o1 v h1
      split at h
      · cases h
      · rename_i o2 d2 h2
        cases h
        exact (ih h2).trans (parseSec_keep_ok ha h1)

theorem parse_keep_ok {x : PCtx} {a : PArgs} (ha : a.nofail = false) {o o' : PObj}
    {r : Dict Int (Dict Int (SecVal DDic))} (h : parse x o a = (o', .ok r)) : o' = o := by
  unfold parse at h
  split at h
  · cases h
  · rename_i d _
    clear * - ha h
    induction d generalizing o r with
    | nil => cases h; rfl
    | cons q d ih =>
      obtain ⟨mf, m⟩ := q
      rw [parseMfs] at h
      split at h
      · cases h
      · rename_i o1 v h1
        split at h
        · cases h
        · rename_i o2 d2 h2
          cases h
          exact (ih h2).trans (parseMts_keep_ok ha h1)

/-- C30, partial, for all recipes: earlier calls without `nofail` that succeeded have no effect.  Missing: failed calls
and `nofail`, see `C30_fails`. -/
theorem C30_success_partial (x : PCtx) (calls : List PArgs)
    (hc : ∀ b ∈ calls, b.nofail = false ∧ ∃ r, (parse x x.fresh b).2 = .ok r) (a : PArgs) :
    parse x (x.after x.fresh calls) a = parse x x.fresh a := by
  have : x.after x.fresh calls = x.fresh := by
    unfold PCtx.after
    induction calls with
    | nil => rfl
    | cons b calls ih =>
      obtain ⟨hn, r, hr⟩ := hc b List.mem_cons_self
      have e : (parse x x.fresh b).1 = x.fresh := by
        generalize hp : parse x x.fresh b = q at hr
        obtain ⟨o', r'⟩ := q
        simp only at hr; subst hr
        exact parse_keep_ok hn hp
      rw [List.foldl_cons, e]
      exact ih (fun b hb => hc b (List.mem_cons_of_mem _ hb))
  rw [this]

namespace Example

def tpid : Str := " a tape                                                              1 0  0".toList
def fend : Str := "        0.0        0.0          0          0          0          0 125 0  0".toList
def mend : Str := "        0.0        0.0          0          0          0          0   0 0  0".toList
def tend : Str := "        0.0        0.0          0          0          0          0  -1 0  0".toList
def tapeOf (ls : List Str) : List Str := [tpid] ++ ls ++ [send, fend, mend, tend]

def objCtx (p : Prog) : PCtx := { trees := [(3, .tree p)] }

/-- the section MF 3 / MT 1 of a result, if it is a list of lines -/
def sec31 : Res (Dict Int (Dict Int (SecVal DDic))) → Option (List Str)
  | .ok d => match dGet 3 d with
    | some m => match dGet 1 m with
      | some (.verb ls) => some ls
      | _ => none
    | none => none
  | .error _ => none

def isData : Res (Dict Int (Dict Int (SecVal DDic))) → Bool
  | .ok d => match dGet 3 d with
    | some m => match dGet 1 m with
      | some (.data _) => true
      | _ => false
    | none => false
  | .error _ => false

/-- **C29 fails**: the section is not returned as its lines: a SEND record is added. -/
theorem C29_fails :
    let r := parse (objCtx recipe) (objCtx recipe).fresh { lines := tapeOf [head, head, head], nofail := true }
    ((splitSections {} (tapeOf [head, head, head])).map fun d => (dGet 3 d).bind (dGet 1)).toOption =
      some (some [head, head, head]) ∧
    (sec31 r.2).map List.length = some 4 ∧ (sec31 r.2).map (List.take 3) = some [head, head, head] := by decide +kernel

/-- **C29 fails**: what is written for a result obtained with `nofail` can't be read again: there are two SEND records. -/
theorem C29_rewrite_fails :
    (match (parse (objCtx recipe) (objCtx recipe).fresh { lines := tapeOf [head, head, head], nofail := true }).2 with
    | .ok d => match writeTape { render := fun _ _ (_ : DDic) => none } d with
      | .ok ls => match splitSections {} ls with
        | .error .unexpectedControl => true
        | _ => false
      | .error _ => false
    | .error _ => false) = true := by decide +kernel

/-- LIST record with 7 numbers announced -/
def list7 : Str := "        0.0        0.0          0          0          7          7 125 3  1".toList

def listRecipe : Prog :=
  .seq (.act (.list {} [f, f, i 0, i 0, .var ⟨"N", []⟩, i 7]
    (.loop "k" (i 1) (.var ⟨"N", []⟩) (.expr (.var ⟨"B", [.var "k"]⟩))) none)) (.act .send)

/-- **C29 fails** for a section that ends within a list: the IndexError is no `ParserException` and is raised in spite of
`nofail`. -/
theorem C29_truncated_fails :
    (match (parse (objCtx listRecipe) (objCtx listRecipe).fresh { lines := tapeOf [list7], nofail := true }).2 with
    | .error .indexError => true
    | _ => false) = true := by decide +kernel

/-- with all numbers the same recipe is fine -/
example : isData (parse (objCtx listRecipe) (objCtx listRecipe).fresh
    { lines := tapeOf [list7, vals, vals], nofail := true }).2 = true := by decide +kernel

/-- `if N2 = 7 [lookahead=1]`, and after that a record with a fixed number -/
def memRecipe : Prog :=
  .seq lookRecipe (.seq (.act (.cont true {} [.var ⟨"ZA", []⟩, .var ⟨"AWR", []⟩, i 1, i 0, i 0, i 0])) (.act .send))

def goodHead : Str := " 1.001000+3 9.991673-1          1          0          0          0 125 3  1".toList
def badHead : Str := " 1.001000+3 9.991673-1          5          0          0          0 125 3  1".toList
def nonsense : Str := "   nonsense                                                        125 3  1".toList

/-- **C30 fails**: after a failed call the object accepts a tape that a new object refuses. -/
theorem C30_fails :
    let x := objCtx memRecipe
    (parse x x.fresh { lines := tapeOf [badHead] }).2.toBool = false ∧
    (parse x (x.after x.fresh [{ lines := tapeOf [nonsense] }]) { lines := tapeOf [badHead] }).2.toBool = true := by
  decide +kernel

/-- C30: the hypotheses of the partial results hold for these contexts -/
example : ∀ mf mt p, Selected (objCtx recipe).trees mf mt p → NoLook p := by
  intro mf mt p h
  have h' := (C57_selected _ _ _ _).2 h
  unfold responsible objCtx at h'
  simp only [dGet] at h'
  by_cases hm : (3 : Int) = mf
  · simp only [hm, if_true, Option.some.injEq] at h'
    subst h'
    simp [NoLook, recipe]
  · simp [hm] at h'

example : (parse (objCtx memRecipe) (objCtx memRecipe).fresh { lines := tapeOf [goodHead] }).2.toBool = true := by
  decide +kernel

/-- C27: a section excluded and the same section asked for -/
example : let x := objCtx memRecipe
    isData (parse x x.fresh { lines := tapeOf [goodHead], incl := some (.many [.tup [3, 1]]) }).2 = true ∧
    sec31 (parse x x.fresh { lines := tapeOf [goodHead], excl := some (.one 3) }).2 = some [goodHead] := by decide +kernel

/-- C57: a flavour -/
example : (match flavour [(3, .tree .skip), (8, .byMt [(-1, .act .send), (457, .skip)])]
      [(8, some 457, .act .stop), (9, none, .skip)] with
    | .ok t => match responsible t 8 457, responsible t 8 16, responsible t 3 1, responsible t 9 5 with
      | some (.act .stop), some (.act .send), some .skip, some .skip => true
      | _, _, _, _ => false
    | .error _ => false) = true := by decide +kernel

end Example

end Verif
