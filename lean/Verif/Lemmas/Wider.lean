import Verif.Props.Parse
import Verif.Lemmas.ReadStep

/-! Reading with more tolerance. -/

namespace Verif
open Spec

/-- every deviation tolerated with `a` is tolerated with `b` -/
structure Spec.Wider (a b : POpts) : Prop where
  fuzzy : a.fuzzy = true → b.fuzzy = true
  zero : a.ignoreZero = true → b.ignoreZero = true
  number : a.ignoreNumber = true → b.ignoreNumber = true
  varspec : a.ignoreVarspec = true → b.ignoreVarspec = true

namespace Wide

/-- the comparison of numbers is the same, or the expected values of deviating fields are numbers, or a TypeError is allowed -/
def Alike (ty : Bool) (a b : POpts) : Prop :=
  a.fuzzy = b.fuzzy ∨ (a.ignoreNumber = false ∧ a.ignoreVarspec = false ∧ a.ignoreAll = false) ∨ ty = true

def Plain : Val → Prop
  | .num _ | .lst _ => True
  | _ => False

theorem isClose_self (x : ℚ) : isClose x x = true := by
  unfold isClose
  rw [sub_self, abs_zero, decide_eq_true_eq]
  positivity

theorem close_lists : ∀ (l m : List PyNum), l.map PyNum.val = m.map PyNum.val → (l.zip m).all (fun p => isClose p.1.val p.2.val) = true
  | [], _, _ => rfl
  | _ :: _, [], h => by cases h
  | x :: l, y :: m, h => by
    simp only [List.map_cons, List.cons.injEq] at h
    simp only [List.zip_cons_cons, List.all_cons, Bool.and_eq_true]
    exact ⟨by rw [h.1]; exact isClose_self _, close_lists l m h.2⟩

theorem notClose_same {src exp : Val} (hp : Plain src) (h : src.ne exp = false) : src.notClose exp = .ok false := by
  cases src <;> simp only [Plain] at hp <;> cases exp <;> simp only [Val.ne, decide_eq_false_iff_not, not_not, Bool.true_eq_false] at h
  · simp only [Val.notClose, h, isClose_self]; rfl
  · simp only [Val.notClose, close_lists _ _ h]; rfl

theorem notClose_cases (src exp : Val) : src.notClose exp = .error .typeError ∨ ∃ m, src.notClose exp = .ok m := by
  unfold Val.notClose
  split
  · exact .inr ⟨_, rfl⟩
  · exact .inr ⟨_, rfl⟩
  · exact .inl rfl

theorem checkField_eq (a : POpts) (e : Expr) (src exp : Val) : checkField a e src exp =
    if src.len? ≠ exp.len? then .error .sizeMismatch
    else (if a.fuzzy = true then src.notClose exp else .ok (src.ne exp)).bind fun m =>
      if m = true then
        if (a.ignoreZero && exp.isZero) = true then .ok ()
        else if (a.ignoreNumber && e.hasDesired) = true then .ok ()
        else if (a.ignoreVarspec && e.hasIncons) = true then .ok ()
        else if (!a.ignoreAll) = true then .error .numberMismatch
        else .ok ()
      else .ok () := by
  unfold checkField
  by_cases hl : src.len? ≠ exp.len?
  · rw [if_pos hl, if_pos hl]
  · rw [if_neg hl, if_neg hl]
    cases a.fuzzy <;> rfl

theorem checkField_wider {a b : POpts} (hw : Wider a b) (hi : a.ignoreAll = b.ignoreAll) {ty : Bool} (hk : Alike ty a b) {e : Expr} {src exp : Val}
    (hp : Plain src) (h : checkField a e src exp = .ok ()) :
    checkField b e src exp = .ok () ∨ (ty = true ∧ checkField b e src exp = .error .typeError) := by
  rw [checkField_eq] at h ⊢
  by_cases hl : src.len? ≠ exp.len?
  · rw [if_pos hl] at h; cases h
  · rw [if_neg hl] at h ⊢
    obtain ⟨m, hm, h⟩ := bind_ok.1 h
    -- outcome of the comparison with `b`
    have hm' : (ty = true ∧ (if b.fuzzy = true then src.notClose exp else .ok (src.ne exp)) = .error .typeError) ∨
        ∃ m', (if b.fuzzy = true then src.notClose exp else .ok (src.ne exp)) = .ok m' ∧ (m = false → m' = false) := by
      by_cases hf : a.fuzzy = b.fuzzy
      · rw [hf] at hm; exact .inr ⟨m, hm, id⟩
      · have hb : b.fuzzy = true := by
          cases ha : a.fuzzy
          · cases hb : b.fuzzy
            · exact absurd (ha.trans hb.symm) hf
            · rfl
          · exact hw.fuzzy ha
        have ha : a.fuzzy = false := by
          cases ha : a.fuzzy
          · rfl
          · exact absurd (ha.trans hb.symm) hf
        simp only [ha, Bool.false_eq_true, if_false, Except.ok.injEq] at hm
        simp only [hb, if_true]
        cases m with
        | false => exact .inr ⟨false, notClose_same hp hm, id⟩
        | true =>
          rcases hk with hk | ⟨k1, k2, k3⟩ | hk
          · exact absurd hk hf
          · simp only [if_true, k1, k2, k3, Bool.false_and, Bool.false_eq_true, if_false, Bool.not_false] at h
            split at h
            · rename_i hz
              rw [Bool.and_eq_true] at hz
              cases exp <;> simp only [Val.isZero, Bool.false_eq_true, and_false] at hz
              cases src <;> simp only [Plain] at hp
              · exact .inr ⟨_, rfl, by simp⟩
              · simp [Val.len?] at hl
            · cases h
          · rcases notClose_cases src exp with hc | ⟨m', hc⟩
            · exact .inl ⟨hk, hc⟩
            · exact .inr ⟨m', hc, by simp⟩
    rcases hm' with ⟨ht, hm'⟩ | ⟨m', hm', hmm⟩
    · right
      rw [hm']
      exact ⟨ht, rfl⟩
    left
    rw [hm']
    show (if m' = true then _ else _) = _
    cases m' with
    | false => rfl
    | true =>
      have : m = true := by
        cases m with
        | true => rfl
        | false => exact absurd (hmm rfl) (by simp)
      subst this
      simp only [if_true] at h ⊢
      by_cases z1 : (b.ignoreZero && exp.isZero) = true
      · rw [if_pos z1]
      · rw [if_neg z1]
        by_cases z2 : (b.ignoreNumber && e.hasDesired) = true
        · rw [if_pos z2]
        · rw [if_neg z2]
          by_cases z3 : (b.ignoreVarspec && e.hasIncons) = true
          · rw [if_pos z3]
          · rw [if_neg z3, ← hi]
            rw [if_neg, if_neg, if_neg] at h
            · exact h
            · intro q; rw [Bool.and_eq_true] at q z3; exact z3 ⟨hw.varspec q.1, q.2⟩
            · intro q; rw [Bool.and_eq_true] at q z2; exact z2 ⟨hw.number q.1, q.2⟩
            · intro q; rw [Bool.and_eq_true] at q z1; exact z1 ⟨hw.zero q.1, q.2⟩

theorem checkField_all {a b : POpts} (hf : a.fuzzy = b.fuzzy) (ha : a.ignoreAll = true) (hb : b.ignoreAll = true) (e : Expr) (src exp : Val) :
    checkField a e src exp = checkField b e src exp := by
  unfold checkField
  rw [hf, ha, hb]
  simp

theorem checkField_fuzzy {a b : POpts} (hf : a.fuzzy = false) (hf' : b.fuzzy = true) (ha : a.ignoreAll = true) (hb : b.ignoreAll = true) (e : Expr)
    (src exp : Val) : checkField a e src exp = checkField b e src exp ∨ checkField b e src exp = .error .typeError := by
  rw [checkField_eq, checkField_eq]
  by_cases hl : src.len? ≠ exp.len?
  · rw [if_pos hl, if_pos hl]; exact .inl rfl
  · rw [if_neg hl, if_neg hl, hf, hf', ha, hb]
    rcases notClose_cases src exp with hc | ⟨m', hc⟩
    · right; simp only [if_true, hc]; rfl
    · left
      simp [hc, Except.bind]

/-! outcomes: the same, or the first one refuses, which is not allowed for `ia`, or the second one is a TypeError, which is allowed
for `ty` -/

def LeR {α : Type} (ty ia : Bool) (r r' : Res α) : Prop := r = r' ∨ (ia = false ∧ ∃ e, r = .error e) ∨ (ty = true ∧ r' = .error .typeError)
def Le {σ : Type} (ty ia : Bool) (o o' : Out σ) : Prop :=
  o = o' ∨ (ia = false ∧ ∃ e s, o = .err e s) ∨ (ty = true ∧ ∃ s, o' = .err .typeError s)

theorem LeR.refl {α : Type} {ty ia : Bool} (r : Res α) : LeR ty ia r r := .inl rfl
theorem Le.refl {σ : Type} {ty ia : Bool} (r : Out σ) : Le ty ia r r := .inl rfl

theorem Le.andThen {σ : Type} {ty ia : Bool} {o o' : Out σ} {f f' : σ → Out σ} (h : Le ty ia o o') (hf : ∀ s, o = .ok s → Le ty ia (f s) (f' s)) :
    Le ty ia (o.andThen f) (o'.andThen f') := by
  rcases h with rfl | ⟨hi, e, s, rfl⟩ | ⟨ht, s, rfl⟩
  · cases o with
    | ok s => exact hf s rfl
    | err e s => exact .refl _
  · exact .inr (.inl ⟨hi, e, s, rfl⟩)
  · exact .inr (.inr ⟨ht, s, rfl⟩)

theorem Le.lift {σ α : Type} {ty ia : Bool} {s : σ} {r r' : Res α} {f f' : α → Out σ} (h : LeR ty ia r r')
    (hf : ∀ a, r = .ok a → Le ty ia (f a) (f' a)) : Le ty ia (Out.lift s r f) (Out.lift s r' f') := by
  rcases h with rfl | ⟨hi, e, rfl⟩ | ⟨ht, rfl⟩
  · cases r with
    | ok a => exact hf a rfl
    | error e => exact .refl _
  · exact .inr (.inl ⟨hi, e, s, rfl⟩)
  · exact .inr (.inr ⟨ht, s, rfl⟩)

theorem mapOnce_le {fuel : Nat} {a b : POpts} (hw : Wider a b) (hi : a.ignoreAll = b.ignoreAll) {ty : Bool} (hk : Alike ty a b) {ups : List DDic} {lv : Dict Name Int}
    {fs : List (Expr × Val)} (hp : ∀ p ∈ fs, Plain p.2) (cur : DDic) (f : Bool) :
    LeR ty a.ignoreAll (mapOnce fuel a ups lv fs cur f) (mapOnce fuel b ups lv fs cur f) := by
  induction fs generalizing cur f with
  | nil => exact .refl _
  | cons p rest ih =>
    obtain ⟨e, src⟩ := p
    have ih := ih fun p hm => hp p (by simp [hm])
    rw [mapOnce.eq_def, mapOnce.eq_def]
    dsimp only
    rw [hi]
    split
    · rw [← hi]; exact ih _ _
    · exact .refl _
    · split
      · split
        · exact .refl _
        · rename_i v _ _ _ _
          cases hb : b.ignoreAll with
          | true =>
            have hg : checkField a e src v.c = checkField b e src v.c ∨ (ty = true ∧ checkField b e src v.c = .error .typeError) := by
              by_cases hf : a.fuzzy = b.fuzzy
              · exact .inl (checkField_all hf (hi.trans hb) hb _ _ _)
              · rcases hk with hk | ⟨_, _, hk⟩ | hk
                · exact absurd hk hf
                · rw [hi, hb] at hk; cases hk
                · have h1 : a.fuzzy = false := by
                    cases ha : a.fuzzy
                    · rfl
                    · exact absurd (ha.trans (hw.fuzzy ha).symm) hf
                  have h2 : b.fuzzy = true := by
                    cases hb : b.fuzzy
                    · exact absurd (h1.trans hb.symm) hf
                    · rfl
                  exact (checkField_fuzzy h1 h2 (hi.trans hb) hb e src v.c).imp id fun h => ⟨hk, h⟩
            rcases hg with hg | ⟨ht, hg⟩
            · rw [hg]
              split
              · exact .refl _
              · have := ih cur f
                rwa [hi, hb] at this
            · right; right
              rw [hg]
              exact ⟨ht, rfl⟩
          | false =>
            cases hc : checkField a e src v.c with
            | error err => exact .inr (.inl ⟨rfl, err, rfl⟩)
            | ok u =>
              rcases checkField_wider hw hi hk (hp (e, src) (by simp)) hc with hg | ⟨ht, hg⟩
              · rw [hg]
                have := ih cur f
                rwa [hi, hb] at this
              · rw [hg]; exact .inr (.inr ⟨ht, rfl⟩)
      · split
        · exact .refl _
        · split
          · exact .refl _
          · rw [← hi]; exact ih _ _

theorem mapTries_le {fuel : Nat} {a b : POpts} (hw : Wider a b) (hi : a.ignoreAll = b.ignoreAll) {ty : Bool} (hk : Alike ty a b) {ups : List DDic} {lv : Dict Name Int}
    {fs : List (Expr × Val)} (hp : ∀ p ∈ fs, Plain p.2) (n : Nat) (cur : DDic) :
    LeR ty a.ignoreAll (mapTries fuel a ups lv fs n cur) (mapTries fuel b ups lv fs n cur) := by
  induction n generalizing cur with
  | zero => exact .refl _
  | succ n ih =>
    simp only [mapTries]
    rcases mapOnce_le (fuel := fuel) (ups := ups) (lv := lv) hw hi hk hp cur false with h | ⟨hf, e, h⟩ | ⟨hf, h⟩
    · rw [h]
      split
      · exact .refl _
      · exact .refl _
      · exact ih _
    · rw [h]; exact .inr (.inl ⟨hf, e, rfl⟩)
    · right; right
      rw [h]
      exact ⟨hf, rfl⟩

variable {c : RCtx} {po : POpts}

/-- what has to hold for the options in a part with or without lookahead -/
structure Cmp (c : RCtx) (po : POpts) (ty ia look : Bool) : Prop where
  wider : Wider c.po po
  alike : c.po.fuzzy = po.fuzzy ∨ (c.po.ignoreNumber = false ∧ c.po.ignoreVarspec = false ∧ ia = false ∧ look = false) ∨ ty = true

theorem map_le {ty ia look : Bool} (hc : Cmp c po ty ia look) {s : RSt} (hs : s.ignoreAll = ia) {es : List Expr} {vals : List Val} (hv : ∀ v ∈ vals, Plain v)
    (cur : DDic) : LeR ty ia (mapRead c.fuel (s.po c) s.outer s.lv es vals cur) (mapRead c.fuel (s.po { c with po := po }) s.outer s.lv es vals cur) := by
  have := mapTries_le (fuel := c.fuel) (a := s.po c) (b := s.po { c with po := po }) (ups := s.outer) (lv := s.lv) (fs := es.zip vals)
    ⟨hc.wider.fuzzy, hc.wider.zero, hc.wider.number, hc.wider.varspec⟩ rfl
    (hc.alike.imp id (Or.imp (fun h => ⟨h.1, h.2.1, hs.trans h.2.2.1⟩) id)) (fun p hp => hv _ (List.of_mem_zip hp).2) 3 cur
  rw [show (s.po c).ignoreAll = ia from hs] at this
  exact this

theorem fields_le {ty ia look : Bool} (hc : Cmp c po ty ia look) {s : RSt} (hs : s.ignoreAll = ia) {es : List Expr} {vals : List Val} (hv : ∀ v ∈ vals, Plain v) :
    Le ty ia (mapFields c es vals s) (mapFields { c with po := po } es vals s) :=
  .lift (map_le hc hs hv _) fun _ _ => .refl _

theorem iterate_le {σ : Type} {ty ia : Bool} {flag : σ → Bool} {setVar : Int → σ → σ} (hset : ∀ i s, flag (setVar i s) = flag s) {f g : σ → Out σ}
    (hf : ∀ s, flag s = ia → Le ty ia (f s) (g s)) (hfr : ∀ s s', f s = .ok s' → flag s' = flag s) (is : List Int) (s : σ) (hs : flag s = ia) :
    Le ty ia (iterate setVar f is s) (iterate setVar g is s) := by
  induction is generalizing s with
  | nil => exact .refl _
  | cons i is ih =>
    refine .andThen (hf _ ((hset _ _).trans hs)) fun s1 h1 => ih s1 ?_
    rw [hfr _ _ h1, hset, hs]

theorem body_le {ty ia look : Bool} (hc : Cmp c po ty ia look) {vals : List PyNum} (b : LBody) (l : LSt) (hl : l.st.ignoreAll = ia) :
    Le ty ia (readBody c vals b l) (readBody { c with po := po } vals b l) := by
  induction b generalizing l with
  | nil => exact .refl _
  | pad => exact .refl _
  | seq a b iha ihb => exact .andThen (iha l hl) fun l1 h1 => ihb l1 ((readBody_frame (a := false) h1).ign.trans hl)
  | expr e =>
    simp only [readBody]
    split
    · exact .refl _
    · exact .lift (map_le hc hl (by simp [Plain]) _) fun _ _ => .refl _
  | loop v x y body ih =>
    simp only [readBody]
    refine .lift (.refl _) fun p _ => ?_
    exact .andThen (iterate_le (flag := fun l : LSt => l.st.ignoreAll) (setVar := LSt.setVar v) (fun _ _ => rfl) ih (fun s s' h => (readBody_frame (a := false) h).ign) _ _ hl) fun _ _ => .refl _

theorem named_le {ty ia look : Bool} (hc : Cmp c po ty ia look) {vals : List PyNum} (b : LBody) (name : Option VarRef) (s : RSt) (hs : s.ignoreAll = ia) :
    Le ty ia (readNamedBody c vals b name s) (readNamedBody { c with po := po } vals b name s) := by
  unfold readNamedBody
  cases name with
  | none => exact body_le hc b _ hs
  | some r =>
    refine .lift (.refl _) fun s1 h1 => ?_
    have : s1.ignoreAll = ia := by obtain ⟨_, _, _, _, rfl⟩ := openR_ok h1; exact hs
    exact .andThen (body_le hc b _ this) fun _ _ => .refl _

theorem inTable_le {ty ia : Bool} {name : Option VarRef} {s : RSt} (hs : s.ignoreAll = ia) {f g : RSt → Out RSt}
    (hf : ∀ s, s.ignoreAll = ia → Le ty ia (f s) (g s)) : Le ty ia (inTable name s f) (inTable name s g) := by
  unfold inTable
  cases name with
  | none => exact hf s hs
  | some r =>
    refine .lift (.refl _) fun s1 h1 => ?_
    have : s1.ignoreAll = ia := by obtain ⟨_, _, _, _, rfl⟩ := openR_ok h1; exact hs
    exact .andThen (hf _ this) fun _ _ => .refl _

theorem takeRec_le {α : Type} {ty ia : Bool} {s : RSt} (hs : s.ignoreAll = ia) {rd : List Str → Nat → Res (α × Nat)} {f g : α → RSt → Out RSt}
    (hf : ∀ r s, s.ignoreAll = ia → Le ty ia (f r s) (g r s)) : Le ty ia (takeRec c s rd f) (takeRec { c with po := po } s rd g) := by
  unfold takeRec
  exact .lift (.refl _) fun ofs _ => .lift (.refl _) fun p _ => hf _ _ hs

theorem vals_plain (r : ContRec) : ∀ v ∈ r.vals, Plain v := by
  intro v hv
  have slot : ∀ s : Slot, Plain s.toVal := fun s => by cases s <;> trivial
  simp only [ContRec.vals, List.mem_cons, List.not_mem_nil, or_false] at hv
  rcases hv with rfl | rfl | rfl | rfl | rfl | rfl
  · trivial
  · trivial
  · exact slot _
  · exact slot _
  · exact slot _
  · exact slot _

theorem fields_ign {s s' : RSt} {es : List Expr} {vals : List Val} (h : mapFields c es vals s = .ok s') : s'.ignoreAll = s.ignoreAll := by
  unfold mapFields at h
  rw [Out.lift_ok] at h
  obtain ⟨_, _, h⟩ := h
  cases h
  rfl

theorem proceed_ign {s s' : RSt} (h : s.proceed = some s') : s'.ignoreAll = s.ignoreAll := by
  unfold RSt.proceed at h
  split at h
  · cases h; rfl
  · split at h
    · cases h
    · cases h; rfl

theorem act_le {ty ia look : Bool} (hc : Cmp c po ty ia look) (a : Act) (s : RSt) (hs : s.ignoreAll = ia) :
    Le ty ia (readAct c a s) (readAct { c with po := po } a s) := by
  cases a with
  | text k fs =>
    simp only [readAct]
    exact takeRec_le hs fun _ _ _ => .refl _
  | cont hd k fs =>
    simp only [readAct]
    refine takeRec_le hs fun r s hs => .lift (.refl _) fun _ _ => ?_
    exact .andThen (fields_le hc hs (vals_plain r)) fun _ _ => .refl _
  | dir k fs =>
    simp only [readAct]
    refine takeRec_le hs fun r s hs => .lift (.refl _) fun _ _ => ?_
    refine .andThen (fields_le hc hs ?_) fun _ _ => .refl _
    intro v hv
    simp only [List.mem_cons, List.not_mem_nil, or_false] at hv
    rcases hv with rfl | rfl | rfl | rfl <;> trivial
  | intg k fs nd =>
    simp only [readAct]
    refine .lift (.refl _) fun n _ => ?_
    split
    · refine takeRec_le hs fun r s hs => .lift (.refl _) fun _ _ => ?_
      refine .andThen (fields_le hc hs ?_) fun _ _ => .refl _
      intro v hv
      simp only [List.mem_cons, List.not_mem_nil, or_false] at hv
      rcases hv with rfl | rfl | rfl <;> trivial
    · exact .refl _
  | tab1 k fs x y name =>
    simp only [readAct]
    refine takeRec_le hs fun r s hs => .lift (.refl _) fun _ _ => ?_
    refine .andThen (fields_le hc hs fun v hv => vals_plain _ v (List.mem_of_mem_take hv)) fun s1 h1 => ?_
    have h1 := (fields_ign h1).trans hs
    cases hp : s1.proceed with
    | none => exact .refl _
    | some s2 =>
      refine .andThen (inTable_le ((proceed_ign hp).trans h1) fun s hs => fields_le hc hs ?_) fun _ _ => .refl _
      intro v hv
      simp only [List.mem_cons, List.not_mem_nil, or_false] at hv
      rcases hv with rfl | rfl | rfl | rfl <;> trivial
  | tab2 k fs name =>
    simp only [readAct]
    refine takeRec_le hs fun r s hs => .lift (.refl _) fun _ _ => ?_
    refine .andThen (fields_le hc hs fun v hv => ?_) fun s1 h1 => ?_
    · rcases List.mem_append.1 hv with hv | hv
      · exact vals_plain _ v (List.mem_of_mem_take hv)
      · exact vals_plain _ v (List.mem_of_mem_drop hv)
    have h1 := (fields_ign h1).trans hs
    cases hp : s1.proceed with
    | none => exact .refl _
    | some s2 =>
      refine .andThen (inTable_le ((proceed_ign hp).trans h1) fun s hs => fields_le hc hs ?_) fun _ _ => .refl _
      intro v hv
      simp only [List.mem_cons, List.not_mem_nil, or_false] at hv
      rcases hv with rfl | rfl <;> trivial
  | list k fs body name =>
    simp only [readAct]
    refine takeRec_le hs fun r s hs => .lift (.refl _) fun _ _ => ?_
    refine .andThen (fields_le hc hs (vals_plain _)) fun s1 h1 => ?_
    have h1 := (fields_ign h1).trans hs
    cases hp : s1.proceed with
    | none => exact .refl _
    | some s2 =>
      rcases named_le hc (vals := r.vals.map PyNum.num) body name s2 ((proceed_ign hp).trans h1) with h | ⟨hi, e, l, h⟩ | ⟨ht, l, h⟩
      · dsimp only
        rw [h]
        exact .refl _
      · refine .inr (.inl ⟨hi, e, l.st, ?_⟩)
        dsimp only
        rw [h]
      · refine .inr (.inr ⟨ht, l.st, ?_⟩)
        dsimp only
        rw [h]
  | send => exact .refl _
  | stop => exact .refl _

theorem prog_le {ty ia : Bool} {look : Bool} (p : Prog) (hp : look = false → NoLook p) (hc : Cmp c po ty ia look) (s : RSt) (hs : s.ignoreAll = ia) :
    Le ty ia (readProg c p s) (readProg { c with po := po } p s) := by
  induction p generalizing s ia with
  | skip => exact .refl _
  | abbr n e => exact .refl _
  | seq a b iha ihb =>
    exact .andThen (iha (fun h => (hp h).1) hc s hs) fun s1 h1 => ihb (fun h => (hp h).2) hc s1 ((readProg_frame h1).ign.trans hs)
  | act a =>
    simp only [readProg]
    cases hq : s.proceed with
    | none => exact .refl _
    | some s1 => exact act_le hc a s1 ((proceed_ign hq).trans hs)
  | sect r body ih =>
    simp only [readProg]
    split
    · exact .refl _
    · refine .lift (.refl _) fun s1 h1 => ?_
      have : s1.ignoreAll = ia := by obtain ⟨_, _, _, _, rfl⟩ := openR_ok h1; exact hs
      exact .andThen (ih hp hc _ this) fun _ _ => .refl _
  | loop v a b body ih =>
    simp only [readProg]
    split
    · exact .refl _
    · refine .lift (.refl _) fun q _ => ?_
      exact .andThen (iterate_le (flag := fun s : RSt => s.ignoreAll) (setVar := RSt.setVar v) (fun _ _ => rfl) (fun s hs => ih hp hc s hs)
        (fun s s' h => (readProg_frame h).ign) _ _ hs) fun _ _ => .refl _
  | ite cond lk t e iht ihe =>
    have hb : ∀ x : Bool, Le ty ia (if x then readProg c t s else readProg c e s)
        (if x then readProg { c with po := po } t s else readProg { c with po := po } e s) := by
      intro x
      cases x with
      | true => exact iht (fun h => (hp h).2.1) hc s hs
      | false => exact ihe (fun h => (hp h).2.2) hc s hs
    rw [readProg.eq_def, readProg.eq_def]
    dsimp only
    split
    · exact .refl _
    · cases lk with
      | none => exact .lift (.refl _) fun x _ => hb x
      | some n =>
        refine .lift (.refl _) fun k _ => ?_
        cases look with
        | false => cases (hp rfl).1
        | true =>
          have hc' : Cmp c po ty true true := ⟨hc.wider, hc.alike.imp id (Or.imp (fun h => by cases h.2.2.2) id)⟩
          rcases iht (fun h => (hp h).2.1) hc' { s with look := some k, ignoreAll := true } rfl with h | ⟨h, _⟩ | ⟨ht, s', h⟩
          · rw [← h]
            split
            · exact .lift (.refl _) fun x _ => hb x
            · exact .lift (.refl _) fun x _ => hb x
            · exact .refl _
          · cases h
          · right; right
            rw [h]
            exact ⟨ht, s', rfl⟩

end Wide

/-- C84: What has been read with some options is also read if more deviations are tolerated, with the same result.  If
only `fuzzy_matching` is switched on, there must be no lookahead, and no tolerance for fields marked by `?`. -/
theorem readSection_wider {c : RCtx} {po : POpts} (hw : Wider c.po po) {p : Prog}
    (hk : c.po.fuzzy = po.fuzzy ∨ (NoLook p ∧ c.po.ignoreNumber = false ∧ c.po.ignoreVarspec = false)) {s : RSt}
    (h : readSection c false p = .ok s) : readSection { c with po := po } false p = .ok s := by
  unfold readSection at h ⊢
  rw [Out.andThen_ok] at h
  obtain ⟨s1, h1, h2⟩ := h
  rw [Out.andThen_ok]
  refine ⟨s1, ?_, h2⟩
  rw [← h1]
  rcases hk with hk | ⟨k1, k2, k3⟩
  · rcases Wide.prog_le (c := c) (po := po) (ty := false) (ia := false) (look := true) p (by simp) ⟨hw, .inl hk⟩ { cur := initWork [], ignoreAll := false } rfl with g | ⟨_, e, t, g⟩ | ⟨g, _⟩
    · exact g.symm
    · rw [h1] at g; cases g
    · cases g
  · rcases Wide.prog_le (c := c) (po := po) (ty := false) (ia := false) (look := false) p (fun _ => k1) ⟨hw, .inr (.inl ⟨k2, k3, rfl, rfl⟩)⟩ { cur := initWork [], ignoreAll := false } rfl with g | ⟨_, e, t, g⟩ | ⟨g, _⟩
    · exact g.symm
    · rw [h1] at g; cases g
    · cases g

/-- C85: with any options in the first run and any recipe, the only other outcome is a TypeError. -/
theorem readSection_wider_type {c : RCtx} {po : POpts} (hw : Wider c.po po) {p : Prog} {s : RSt} (h : readSection c false p = .ok s) :
    readSection { c with po := po } false p = .ok s ∨ ∃ s', readSection { c with po := po } false p = .err .typeError s' := by
  unfold readSection at h ⊢
  rw [Out.andThen_ok] at h
  obtain ⟨s1, h1, h2⟩ := h
  rcases Wide.prog_le (c := c) (po := po) (ty := true) (ia := false) (look := true) p (by simp) ⟨hw, .inr (.inr rfl)⟩ { cur := initWork [], ignoreAll := false } rfl with
    g | ⟨_, e, t, g⟩ | ⟨_, s', g⟩
  · left
    rw [Out.andThen_ok]
    exact ⟨s1, g ▸ h1, h2⟩
  · rw [h1] at g; cases g
  · right
    rw [g]
    exact ⟨s', rfl⟩

end Verif
