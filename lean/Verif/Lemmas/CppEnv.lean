import Verif.Lemmas.CppGen

/-! Conditions and loop bounds: variables of the current block and of the ones around it. -/

namespace Verif
open Spec

/-- the variables known to `Γ` that have been read are declared, and have the kinds given by `Γ` -/
def GoodV (Γ : Kinds) (b : CScope) : Prop :=
  ∀ n k ar t, Γ n = some (k, ar) → dGet (n, ar) b.vars = some t → (n, ar) ∈ b.defs ∧ GoodT ar t ∧ DeepT k ar t.toPy

theorem GoodB.vars {Γ : Kinds} {b : CScope} (h : GoodB Γ b) : GoodV Γ b := by
  intro n k ar t hn ht
  obtain ⟨h1, h2⟩ := h _ _ ht
  simp only [hn] at h2
  exact ⟨h1, h2.2⟩

/-- the dictionaries of the interpreter and the blocks of the compiled parser, innermost first -/
def Pairs (Γ : Kinds) (ps : List (DDic × CScope)) : Prop :=
  ∀ p ∈ ps, TypedD Γ p.1 ∧ GoodV Γ p.2 ∧ AgreeB Γ p.1 p.2

/-- all dictionaries but the outermost one have a reference to the next one -/
def Linked : List DDic → Prop
  | [] => True
  | [_] => True
  | d :: e :: l => dHas .up d = true ∧ Linked (e :: l)

theorem findScope_has {n : Name} {d x : DDic} {us : List DDic} (h : findScope true n d us = some x) :
    x ∈ d :: us ∧ dHas (.var n) x = true := by
  induction us generalizing d with
  | nil =>
    simp only [findScope] at h
    split at h
    · rename_i hh; cases h; exact ⟨by simp, hh⟩
    · cases h
  | cons u us ih =>
    simp only [findScope] at h
    split at h
    · rename_i hh; cases h; exact ⟨by simp, hh⟩
    · split at h
      · obtain ⟨a, b⟩ := ih h
        exact ⟨List.mem_cons_of_mem _ a, b⟩
      · cases h

theorem findScope_linked {n : Name} {d x : DDic} {us : List DDic} (hl : Linked (d :: us)) (hx : x ∈ d :: us)
    (hn : dHas (.var n) x = true) : ∃ y, findScope true n d us = some y := by
  induction us generalizing d with
  | nil =>
    rw [List.mem_singleton] at hx
    subst hx
    exact ⟨x, by simp [findScope, hn]⟩
  | cons u us ih =>
    simp only [findScope]
    split
    · exact ⟨_, rfl⟩
    · rename_i hd
      rw [hl.1]
      simp only [Bool.and_true, if_true]
      refine ih hl.2 ?_
      rcases List.mem_cons.1 hx with rfl | hx
      · exact absurd hn hd
      · exact hx

/-- a variable with a value is declared -/
theorem has_defs {Γ : Kinds} {d : DDic} {b : CScope} (h : TypedD Γ d ∧ GoodV Γ b ∧ AgreeB Γ d b) {n : Name} {k : CKind} {ar : Nat}
    (hn : Γ n = some (k, ar)) (hd : dHas (.var n) d = true) : (n, ar) ∈ b.defs := by
  obtain ⟨v, hv⟩ := Option.isSome_iff_exists.1 hd
  obtain ⟨is, w, hl, hw⟩ := deep_some (h.1 n k ar v hn hv)
  have : look d n is = some w := by unfold look; rw [hv]; exact hw
  rw [h.2.2 n k ar hn is hl] at this
  unfold clook at this
  cases hb : dGet (n, ar) b.vars with
  | none => rw [hb] at this; cases this
  | some t => exact (h.2.1 _ _ _ _ hn hb).1

/-- the value of a variable is in one of the pairs -/
def ValAt (Γ : Kinds) (ps : List (DDic × CScope)) (lv : Dict Name Int) (r : VarRef) (w : Val) : Prop :=
  ∃ is, r.idx.mapM (idxVal lv) = .ok is ∧ ∃ p ∈ ps, r.key ∈ p.2.defs ∧ look p.1 r.name is = some w

theorem py_at {Γ : Kinds} {ps : List (DDic × CScope)} (hps : Pairs Γ ps) {d : DDic} {us : List DDic}
    (he : ps.map Prod.fst = d :: us) {lv : Dict Name Int} {r : VarRef} {k : CKind} (hl : dGet r.name lv = none)
    (hΓ : Γ r.name = some (k, r.idx.length)) {w : Val} (h : getVarval ⟨d, us, lv⟩ true r = .ok w) : ValAt Γ ps lv r w := by
  unfold getVarval at h
  split at h
  · cases h
  · rw [hl] at h
    dsimp only at h
    cases hf : findScope true r.name d us with
    | none => rw [hf] at h; cases h
    | some x =>
      rw [hf] at h
      dsimp only at h
      obtain ⟨hx, hn⟩ := findScope_has hf
      rw [← he] at hx
      obtain ⟨p, hp, rfl⟩ := List.mem_map.1 hx
      cases hv : dGet (.var r.name) p.1 with
      | none => rw [hv] at h; cases h
      | some v =>
        rw [hv] at h
        simp only [bind_ok] at h
        obtain ⟨is, his, h⟩ := h
        exact ⟨is, his, p, hp, has_defs (hps p hp) hΓ hn, by unfold look; rw [hv]; exact find_some.2 h⟩

theorem blockOf_mem {k : VKey} {bs : List CScope} {b : CScope} (h : blockOf k bs = some b) : b ∈ bs ∧ k ∈ b.defs := by
  induction bs with
  | nil => cases h
  | cons x xs ih =>
    simp only [blockOf] at h
    split at h
    · rename_i hk; cases h; exact ⟨by simp, hk⟩
    · exact ⟨List.mem_cons_of_mem _ (ih h).1, (ih h).2⟩

theorem c_at {Γ : Kinds} {ps : List (DDic × CScope)} (hps : Pairs Γ ps) {s : FunSt} (he : ps.map Prod.snd = s.blocks)
    {r : VarRef} {k : CKind} (hl : dGet r.name s.lv = none) (hΓ : Γ r.name = some (k, r.idx.length)) {w : Val}
    (h : readRef s r = .ok w) : ValAt Γ ps s.lv r w := by
  unfold readRef at h
  rw [hl] at h
  dsimp only at h
  cases hb : blockOf r.key s.blocks with
  | none => rw [hb] at h; cases h
  | some b =>
    rw [hb] at h
    simp only [cbind_ok'] at h
    obtain ⟨is, his, h⟩ := h
    rw [cIdxs_ok] at his
    obtain ⟨hm, hk⟩ := blockOf_mem hb
    rw [← he] at hm
    obtain ⟨p, hp, rfl⟩ := List.mem_map.1 hm
    refine ⟨is, his, p, hp, hk, ?_⟩
    have hlen := idxs_length his
    split at h
    · rename_i t ht
      have := (hps p hp).2.1 _ _ _ _ hΓ ht
      rw [(hps p hp).2.2 _ _ _ hΓ is hlen]
      unfold clook
      unfold VarRef.key at ht
      rw [ht]
      exact find_some.2 ((vget_toPy (by rw [hlen]; exact this.2.1)).1 h)
    · split at h <;> cases h

theorem uniq_pair {ps : List (DDic × CScope)} {key : VKey}
    (hu : (((ps.map fun p => p.2.defs)).filter (·.contains key)).length ≤ 1) {p q : DDic × CScope} (hp : p ∈ ps) (hq : q ∈ ps)
    (h1 : key ∈ p.2.defs) (h2 : key ∈ q.2.defs) : p = q := by
  induction ps with
  | nil => cases hp
  | cons x xs ih =>
    rw [List.map_cons, List.filter_cons] at hu
    by_cases hx : key ∈ x.2.defs
    · rw [if_pos (by simpa using hx)] at hu
      have hnil : ((xs.map fun p => p.2.defs).filter (·.contains key)) = [] := by
        rw [← List.length_eq_zero_iff]; simp only [List.length_cons] at hu; omega
      have hno : ∀ y ∈ xs, key ∉ y.2.defs := by
        intro y hy hc
        have : y.2.defs ∈ (xs.map fun p => p.2.defs).filter (·.contains key) :=
          List.mem_filter.2 ⟨List.mem_map.2 ⟨y, hy, rfl⟩, by simpa using hc⟩
        rw [hnil] at this; cases this
      rcases List.mem_cons.1 hp with rfl | hp
      · rcases List.mem_cons.1 hq with rfl | hq
        · rfl
        · exact absurd h2 (hno q hq)
      · exact absurd h1 (hno p hp)
    · rw [if_neg (by simpa using hx)] at hu
      rcases List.mem_cons.1 hp with rfl | hp
      · exact absurd h1 hx
      · rcases List.mem_cons.1 hq with rfl | hq
        · exact absurd h2 hx
        · exact ih hu hp hq

/-- what is in one of the pairs is found by the interpreter -/
theorem at_py {Γ : Kinds} {ps : List (DDic × CScope)} (hps : Pairs Γ ps) {d : DDic} {us : List DDic}
    (he : ps.map Prod.fst = d :: us) (hlk : Linked (d :: us)) {lv : Dict Name Int} {r : VarRef} {k : CKind}
    (hl : dGet r.name lv = none) (hΓ : Γ r.name = some (k, r.idx.length))
    (hu : (((ps.map fun p => p.2.defs)).filter (·.contains r.key)).length ≤ 1) {w : Val} (h : ValAt Γ ps lv r w) :
    getVarval ⟨d, us, lv⟩ true r = .ok w := by
  obtain ⟨is, his, p, hp, hkey, hw⟩ := h
  unfold look at hw
  cases hv : dGet (.var r.name) p.1 with
  | none => rw [hv] at hw; cases hw
  | some v =>
    rw [hv] at hw
    have hn : dHas (.var r.name) p.1 = true := by unfold dHas; rw [hv]; rfl
    obtain ⟨y, hy⟩ := findScope_linked hlk (by rw [← he]; exact List.mem_map.2 ⟨p, hp, rfl⟩) hn
    obtain ⟨hym, hyn⟩ := findScope_has hy
    rw [← he] at hym
    obtain ⟨q, hq, rfl⟩ := List.mem_map.1 hym
    have hqp := uniq_pair hu hq hp (has_defs (hps q hq) hΓ hyn) hkey
    subst hqp
    unfold getVarval
    have : dHas r.name lv = false := by unfold dHas; rw [hl]; rfl
    simp only [this, Bool.and_false, Bool.false_eq_true, if_false, hl, hy, hv, his]
    exact find_some.1 hw

/-- `did_read_var` tells whether the interpreter finds a value -/
theorem didRead_py {Γ : Kinds} {ps : List (DDic × CScope)} (hps : Pairs Γ ps) {s : FunSt} (he : ps.map Prod.snd = s.blocks)
    {d : DDic} {us : List DDic} (he' : ps.map Prod.fst = d :: us)
    {r : VarRef} {k : CKind} (hl : dGet r.name s.lv = none) (hΓ : Γ r.name = some (k, r.idx.length))
    (hu : (((ps.map fun p => p.2.defs)).filter (·.contains r.key)).length ≤ 1) (h : didRead s r = .ok false) (w : Val) :
    getVarval ⟨d, us, s.lv⟩ true r ≠ .ok w := by
  intro hg
  obtain ⟨is, his, p, hp, hkey, hw⟩ := py_at hps he' hl hΓ hg
  unfold didRead at h
  rw [hl] at h
  dsimp only at h
  cases hb : blockOf r.key s.blocks with
  | none => rw [hb] at h; cases h
  | some b =>
    rw [hb] at h
    simp only [cbind_ok'] at h
    obtain ⟨js, hjs, h⟩ := h
    rw [cIdxs_ok, his] at hjs
    cases hjs
    obtain ⟨hm, hk⟩ := blockOf_mem hb
    rw [← he] at hm
    obtain ⟨q, hq, rfl⟩ := List.mem_map.1 hm
    have hqp := uniq_pair hu hq hp hk hkey
    subst hqp
    have hlen := idxs_length his
    rw [(hps q hq).2.2 _ _ _ hΓ is hlen] at hw
    unfold clook at hw
    split at h
    · rename_i t ht
      have hgood := (hps q hq).2.1 _ _ _ _ hΓ ht
      unfold VarRef.key at ht
      rw [ht] at hw
      have := (vhas_toPy (t := t) (is := is) (by rw [hlen]; exact hgood.2.1)).2 ⟨w, find_some.1 hw⟩
      simp only [CRes.ok.injEq] at h
      rw [this] at h; cases h
    · rename_i ht
      unfold VarRef.key at ht
      rw [ht] at hw; cases hw

/-! ### expressions -/

/-- integers stay integers, other numbers stay other numbers -/
def SameNum (x y : PyNum) : Prop := x.val = y.val ∧ (x.isInt ↔ y.isInt)

theorem sameNum_int {n : Int} {y : PyNum} (h : SameNum (.int n) y) : y = .int n := by
  obtain ⟨h1, h2⟩ := h
  cases y with
  | int m => simp only [PyNum.val, Int.cast_inj] at h1; rw [h1]
  | num v => exact (h2.1 trivial).elim

theorem sameNum_num {v : Num} {y : PyNum} (h : SameNum (.num v) y) : ∃ u, y = .num u ∧ u.val = v.val := by
  obtain ⟨h1, h2⟩ := h
  cases y with
  | int m => exact (h2.2 trivial).elim
  | num u => exact ⟨u, rfl, h1.symm⟩

theorem arith_same {pop : PyNum → PyNum → Res PyNum} {cop : PyNum → PyNum → CRes PyNum} {x x' y y' z z' : PyNum}
    (hint : ∀ a b z z', pop (.int a) (.int b) = .ok z → cop (.int a) (.int b) = .ok z' → SameNum z z')
    (hflt : ∀ x y x' y' z z', (¬ (x.isInt ∧ y.isInt)) → SameNum x x' → SameNum y y' → pop x y = .ok z → cop x' y' = .ok z' → SameNum z z')
    (hx : SameNum x x') (hy : SameNum y y') (h : pop x y = .ok z) (h' : cop x' y' = .ok z') : SameNum z z' := by
  by_cases hi : x.isInt ∧ y.isInt
  · cases x with
    | num v => exact hi.1.elim
    | int a =>
      cases y with
      | num v => exact hi.2.elim
      | int b =>
        rw [sameNum_int hx, sameNum_int hy] at h'
        exact hint a b z z' h h'
  · exact hflt x y x' y' z z' hi hx hy h h'

/-- results that are not integers: both are floats -/
theorem flt_same {pop : PyNum → PyNum → Res PyNum} {cop : PyNum → PyNum → CRes PyNum} {f : ℚ → ℚ → ℚ}
    (hp : ∀ x y z, pop x y = .ok z → z.val = f x.val y.val ∧ (¬ (x.isInt ∧ y.isInt) → ¬ z.isInt))
    (hc : ∀ x y z, ¬ (x.isInt ∧ y.isInt) → cop x y = .ok z → z.val = f x.val y.val ∧ ¬ z.isInt) :
    ∀ x y x' y' z z', (¬ (x.isInt ∧ y.isInt)) → SameNum x x' → SameNum y y' → pop x y = .ok z → cop x' y' = .ok z' → SameNum z z' := by
  intro x y x' y' z z' hi hx hy h h'
  obtain ⟨p1, p2⟩ := hp x y z h
  obtain ⟨c1, c2⟩ := hc x' y' z' (by rw [← hx.2, ← hy.2]; exact hi) h'
  refine ⟨by rw [p1, c1, hx.1, hy.1], ?_⟩
  exact ⟨fun h => absurd h (p2 hi), fun h => absurd h c2⟩

theorem cArith_flt {i : Int → Int → CRes PyNum} {d : ℚ → ℚ → CRes PyNum} {x y z : PyNum} (hi : ¬ (x.isInt ∧ y.isInt))
    (h : cArith i d x y = .ok z) : d x.val y.val = .ok z := by
  unfold cArith at h
  split at h
  · exact absurd ⟨trivial, trivial⟩ hi
  · exact h

theorem add_same {x x' y y' z z' : PyNum} (hx : SameNum x x') (hy : SameNum y y') (h : pAdd x y = .ok z) (h' : cAdd x' y' = .ok z') :
    SameNum z z' := by
  refine arith_same ?_ (flt_same (f := fun a b => a + b) ?_ ?_) hx hy h h'
  · intro a b z z' h h'
    simp only [pAdd, Except.ok.injEq] at h
    simp only [cAdd, cArith] at h'
    rw [← h, cInt_ok h']
    exact ⟨rfl, Iff.rfl⟩
  · intro x y z h
    refine ⟨pAdd_val h, fun hi => ?_⟩
    unfold pAdd at h
    split at h
    · exact absurd ⟨trivial, trivial⟩ hi
    · simp only [bind_ok, pure_ok] at h
      obtain ⟨_, _, _, _, rfl⟩ := h
      exact fun h => h
  · intro x y z hi h
    have := cArith_flt hi h
    cases this
    exact ⟨rfl, fun h => h⟩

theorem sub_same {x x' y y' z z' : PyNum} (hx : SameNum x x') (hy : SameNum y y') (h : pSub x y = .ok z) (h' : cSub x' y' = .ok z') :
    SameNum z z' := by
  refine arith_same ?_ (flt_same (f := fun a b => a - b) ?_ ?_) hx hy h h'
  · intro a b z z' h h'
    simp only [pSub, Except.ok.injEq] at h
    simp only [cSub, cArith] at h'
    rw [← h, cInt_ok h']
    exact ⟨rfl, Iff.rfl⟩
  · intro x y z h
    refine ⟨pSub_val h, fun hi => ?_⟩
    unfold pSub at h
    split at h
    · exact absurd ⟨trivial, trivial⟩ hi
    · simp only [bind_ok, pure_ok] at h
      obtain ⟨_, _, _, _, rfl⟩ := h
      exact fun h => h
  · intro x y z hi h
    have := cArith_flt hi h
    cases this
    exact ⟨rfl, fun h => h⟩

theorem mul_same {x x' y y' z z' : PyNum} (hx : SameNum x x') (hy : SameNum y y') (h : pMul x y = .ok z) (h' : cMul x' y' = .ok z') :
    SameNum z z' := by
  refine arith_same ?_ (flt_same (f := fun a b => a * b) ?_ ?_) hx hy h h'
  · intro a b z z' h h'
    simp only [pMul, Except.ok.injEq] at h
    simp only [cMul, cArith] at h'
    rw [← h, cInt_ok h']
    exact ⟨rfl, Iff.rfl⟩
  · intro x y z h
    refine ⟨pMul_val h, fun hi => ?_⟩
    unfold pMul at h
    split at h
    · exact absurd ⟨trivial, trivial⟩ hi
    · simp only [bind_ok, pure_ok] at h
      obtain ⟨_, _, _, _, rfl⟩ := h
      exact fun h => h
  · intro x y z hi h
    have := cArith_flt hi h
    cases this
    exact ⟨rfl, fun h => h⟩

theorem div_same {x x' y y' z z' : PyNum} (hx : SameNum x x') (hy : SameNum y y') (h : pDiv true x y = .ok z)
    (h' : cDiv x' y' = .ok z') : SameNum z z' := by
  refine arith_same ?_ (flt_same (f := fun a b => a / b) ?_ ?_) hx hy h h'
  · intro a b z z' h h'
    simp only [pDiv] at h
    simp only [cDiv, cArith] at h'
    split at h
    · cases h
    · rename_i hb
      rw [if_neg hb] at h'
      split at h
      · rename_i hm
        cases h
        rw [cInt_ok h']
        have hd : b ∣ a := Int.dvd_of_emod_eq_zero hm
        rw [Int.tdiv_eq_ediv_of_dvd hd]
        exact ⟨rfl, Iff.rfl⟩
      · simp at h
  · intro x y z h
    refine ⟨(pDiv_val h).2, fun hi => ?_⟩
    unfold pDiv at h
    split at h
    · exact absurd ⟨trivial, trivial⟩ hi
    · simp only [bind_ok] at h
      obtain ⟨_, _, _, _, h⟩ := h
      split at h
      · cases h
      · rw [pure_ok] at h; subst h; exact fun h => h
  · intro x y z hi h
    have := cArith_flt hi h
    split at this
    · cases this
    · cases this
      exact ⟨rfl, fun h => h⟩

theorem neg_same {x x' z z' : PyNum} (hx : SameNum x x') (h : pNeg x = .ok z) (h' : cNeg x' = .ok z') : SameNum z z' := by
  cases x with
  | int a =>
    rw [sameNum_int hx] at h'
    simp only [pNeg, Except.ok.injEq] at h
    simp only [cNeg] at h'
    rw [← h, cInt_ok h']
    exact ⟨rfl, Iff.rfl⟩
  | num v =>
    obtain ⟨u, rfl, hu⟩ := sameNum_num hx
    have := pNeg_val h
    simp only [cNeg, dbl, CRes.ok.injEq] at h'
    unfold pNeg at h
    simp only [bind_ok, pure_ok] at h
    obtain ⟨a, ha, rfl⟩ := h
    subst h'
    refine ⟨?_, Iff.rfl⟩
    rw [this]
    show -v.val = -u.val
    rw [hu]

/-- an expression whose variables have the same values in both has the same value in both -/
theorem evC_py {s : FunSt} {env : Env} {rec : Expr → Res Lin} {e : Expr} (hm : e.noMod = true)
    (hr : ∀ r ∈ e.vars, ∀ w w', readRef s r = .ok w → getVarval env true r = .ok w' → w' = w)
    (habb : ∀ r ∈ e.vars, ∀ e', getVarval env true r ≠ .ok (.abb e'))
    {y : PyNum} (h : evC s e = .ok y) {v : Lin} (h' : evalWith env ⟨true, true, false⟩ rec e = .ok v) :
    (∃ z, v.c = .num z ∧ SameNum z y) ∧ v.k.val = 0 := by
  have hnum : ∀ {v : Val} {z : PyNum}, cNum v = .ok z → v = .num z := by
    intro v z h; cases v <;> simp only [cNum, CRes.ok.injEq, reduceCtorEq] at h; rw [h]
  have hvar : ∀ (r : VarRef) (y : PyNum) (v : Lin), (∀ w w', readRef s r = .ok w → getVarval env true r = .ok w' → w' = w) →
      (∀ e', getVarval env true r ≠ .ok (.abb e')) →
      (do cNum (← readRef s r)) = .ok y → evalVar env ⟨true, true, false⟩ rec r = .ok v →
      (∃ z, v.c = .num z ∧ SameNum z y) ∧ v.k.val = 0 := by
    intro r y v hr ha h h'
    simp only [cbind_ok'] at h
    obtain ⟨w, hw, h⟩ := h
    rcases evalVar_cases h' with ⟨e, hg, _⟩ | ⟨w', hg, _, rfl⟩ | ⟨hf, _⟩
    · exact absurd hg (ha e)
    · rw [hr w w' hw hg, hnum h]
      exact ⟨⟨y, rfl, rfl, Iff.rfl⟩, by simp [PyNum.val]⟩
    · cases hf
  have hlit : ∀ (x y : PyNum), (match x with | .int n => cInt n | .num v => dbl v.val) = CRes.ok y → SameNum x y := by
    intro x y h
    cases x with
    | int n => rw [cInt_ok h]; exact ⟨rfl, Iff.rfl⟩
    | num v => simp only [dbl, CRes.ok.injEq] at h; rw [← h]; exact ⟨rfl, Iff.rfl⟩
  have hunk : ∀ v : Lin, v.k.val = 0 → v.unk = false := by intro v h; simp [Lin.unk, h]
  induction e generalizing y v with
  | num x =>
    simp only [evalWith, Except.ok.injEq] at h'
    subst h'
    exact ⟨⟨x, rfl, hlit x y (by cases x <;> simpa only [evC] using h)⟩, by simp [PyNum.val]⟩
  | desired x =>
    simp only [evalWith, Except.ok.injEq] at h'
    subst h'
    exact ⟨⟨x, rfl, hlit x y (by cases x <;> simpa only [evC] using h)⟩, by simp [PyNum.val]⟩
  | var r => exact hvar r y v (hr r (by simp [Expr.vars])) (habb r (by simp [Expr.vars])) h h'
  | incons r => exact hvar r y v (hr r (by simp [Expr.vars])) (habb r (by simp [Expr.vars])) h h'
  | neg e ih =>
    simp only [evC, cbind_ok'] at h
    obtain ⟨y1, hy1, h⟩ := h
    simp only [evalWith, bind_ok] at h'
    obtain ⟨v1, hv1, h'⟩ := h'
    obtain ⟨⟨z1, hz1, hs1⟩, hk1⟩ := ih hm hr habb hy1 hv1
    unfold linNeg at h'
    simp only [bind_ok, pure_ok, hz1, Val.scalar, Except.ok.injEq, exists_eq_left'] at h'
    obtain ⟨z, hz, k, hk, rfl⟩ := h'
    exact ⟨⟨z, rfl, neg_same hs1 hz h⟩, by rw [pNeg_val hk, hk1]; simp⟩
  | add a b i1 i2 =>
    simp only [Expr.noMod, Bool.and_eq_true] at hm
    simp only [Expr.vars, List.mem_append] at hr habb
    simp only [evC, cbind_ok'] at h
    obtain ⟨y1, hy1, y2, hy2, h⟩ := h
    simp only [evalWith, bind_ok] at h'
    obtain ⟨v1, hv1, v2, hv2, h'⟩ := h'
    obtain ⟨⟨z1, hz1, hs1⟩, hk1⟩ := i1 hm.1 (fun r h => hr r (.inl h)) (fun r h => habb r (.inl h)) hy1 hv1
    obtain ⟨⟨z2, hz2, hs2⟩, hk2⟩ := i2 hm.2 (fun r h => hr r (.inr h)) (fun r h => habb r (.inr h)) hy2 hv2
    unfold linAddSub at h'
    rw [hunk v1 hk1, hunk v2 hk2] at h'
    simp only [Bool.and_self, Bool.false_eq_true, if_false, bind_ok, pure_ok, hz1, hz2, Val.scalar, Except.ok.injEq, exists_eq_left'] at h'
    obtain ⟨z, hz, k, hk, rfl⟩ := h'
    exact ⟨⟨z, rfl, add_same hs1 hs2 hz h⟩, by rw [pAdd_val hk, hk1, hk2]; simp⟩
  | sub a b i1 i2 =>
    simp only [Expr.noMod, Bool.and_eq_true] at hm
    simp only [Expr.vars, List.mem_append] at hr habb
    simp only [evC, cbind_ok'] at h
    obtain ⟨y1, hy1, y2, hy2, h⟩ := h
    simp only [evalWith, bind_ok] at h'
    obtain ⟨v1, hv1, v2, hv2, h'⟩ := h'
    obtain ⟨⟨z1, hz1, hs1⟩, hk1⟩ := i1 hm.1 (fun r h => hr r (.inl h)) (fun r h => habb r (.inl h)) hy1 hv1
    obtain ⟨⟨z2, hz2, hs2⟩, hk2⟩ := i2 hm.2 (fun r h => hr r (.inr h)) (fun r h => habb r (.inr h)) hy2 hv2
    unfold linAddSub at h'
    rw [hunk v1 hk1, hunk v2 hk2] at h'
    simp only [Bool.and_self, Bool.false_eq_true, if_false, bind_ok, pure_ok, hz1, hz2, Val.scalar, Except.ok.injEq, exists_eq_left'] at h'
    obtain ⟨z, hz, k, hk, rfl⟩ := h'
    exact ⟨⟨z, rfl, sub_same hs1 hs2 hz h⟩, by rw [pSub_val hk, hk1, hk2]; simp⟩
  | mul a b i1 i2 =>
    simp only [Expr.noMod, Bool.and_eq_true] at hm
    simp only [Expr.vars, List.mem_append] at hr habb
    simp only [evC, cbind_ok'] at h
    obtain ⟨y1, hy1, y2, hy2, h⟩ := h
    simp only [evalWith, bind_ok] at h'
    obtain ⟨v1, hv1, v2, hv2, h'⟩ := h'
    obtain ⟨⟨z1, hz1, hs1⟩, hk1⟩ := i1 hm.1 (fun r h => hr r (.inl h)) (fun r h => habb r (.inl h)) hy1 hv1
    obtain ⟨⟨z2, hz2, hs2⟩, hk2⟩ := i2 hm.2 (fun r h => hr r (.inr h)) (fun r h => habb r (.inr h)) hy2 hv2
    unfold linMul at h'
    rw [hunk v1 hk1, hunk v2 hk2] at h'
    simp only [Bool.and_self, Bool.false_eq_true, if_false, Bool.not_false, if_true, bind_ok, pure_ok, hz1, hz2, Val.scalar,
      Except.ok.injEq, exists_eq_left'] at h'
    obtain ⟨z, hz, k, hk, rfl⟩ := h'
    exact ⟨⟨z, rfl, mul_same hs1 hs2 hz h⟩, by rw [pMul_val hk, hk2]; simp⟩
  | div a b i1 i2 =>
    simp only [Expr.noMod, Bool.and_eq_true] at hm
    simp only [Expr.vars, List.mem_append] at hr habb
    simp only [evC, cbind_ok'] at h
    obtain ⟨y1, hy1, y2, hy2, h⟩ := h
    simp only [evalWith, bind_ok] at h'
    obtain ⟨v1, hv1, v2, hv2, h'⟩ := h'
    obtain ⟨⟨z1, hz1, hs1⟩, hk1⟩ := i1 hm.1 (fun r h => hr r (.inl h)) (fun r h => habb r (.inl h)) hy1 hv1
    obtain ⟨⟨z2, hz2, hs2⟩, hk2⟩ := i2 hm.2 (fun r h => hr r (.inr h)) (fun r h => habb r (.inr h)) hy2 hv2
    unfold linDiv at h'
    rw [hunk v2 hk2] at h'
    simp only [Bool.false_eq_true, if_false, bind_ok, pure_ok, hz1, hz2, Val.scalar, Except.ok.injEq, exists_eq_left'] at h'
    obtain ⟨z, hz, k, hk, rfl⟩ := h'
    exact ⟨⟨z, rfl, div_same hs1 hs2 hz h⟩, by rw [(pDiv_val hk).2, hk1]; simp⟩
  | mod a b => simp [Expr.noMod] at hm

/-- an expression is only undefined because a variable is -/
theorem evalWith_notFound {env : Env} {rec : Expr → Res Lin} {e : Expr} {o : EvalOpts} (hm : o.acceptMissing = false)
    (habb : ∀ r ∈ e.vars, ∀ e', getVarval env o.lookUp r ≠ .ok (.abb e'))
    (h : evalWith env o rec e = .error .variableNotFound) :
    ∃ r ∈ e.vars, getVarval env o.lookUp r = .error .variableNotFound := by
  have hvar : ∀ r, (∀ e', getVarval env o.lookUp r ≠ .ok (.abb e')) → evalVar env o rec r = .error .variableNotFound →
      getVarval env o.lookUp r = .error .variableNotFound := by
    intro r ha h
    unfold evalVar at h
    dsimp only at h
    rw [hm] at h
    cases hg : getVarval env o.lookUp r with
    | ok v =>
      rw [hg] at h
      cases v <;> simp only [reduceCtorEq] at h
      exact absurd hg (ha _)
    | error e =>
      rw [hg] at h
      cases e <;> simp_all
  have hbin : ∀ (f : Lin → Lin → Res Lin) (x y : Res Lin), (∀ a b, f a b ≠ .error .variableNotFound) →
      (do f (← x) (← y)) = .error .variableNotFound → x = .error .variableNotFound ∨ y = .error .variableNotFound := by
    intro f x y hf h
    cases x with
    | error e => left; exact h
    | ok a =>
      cases y with
      | error e => right; exact h
      | ok b => exact absurd h (hf a b)
  have harith : ∀ x : PyNum, x.arith ≠ .error .variableNotFound := by
    intro x h; unfold PyNum.arith at h; split at h <;> cases h
  have hsc : ∀ v : Val, v.scalar ≠ .error .variableNotFound := by
    intro v h; unfold Val.scalar at h; split at h <;> cases h
  have hb : ∀ {α β : Type} (x : Res α) (f : α → Res β), x ≠ .error .variableNotFound →
      (∀ a, x = .ok a → f a ≠ .error .variableNotFound) → (x >>= f) ≠ .error .variableNotFound := by
    intro α β x f h1 h2 h
    cases x with
    | error e => exact h1 (by cases h; rfl)
    | ok a => exact h2 a rfl h
  have hop2 : ∀ (x y : PyNum) (f : ℚ → ℚ → Res PyNum), (∀ a b, f a b ≠ .error .variableNotFound) →
      (do f (← x.arith) (← y.arith)) ≠ .error .variableNotFound := fun x y f hf =>
    hb _ _ (harith x) fun a _ => hb _ _ (harith y) fun b _ => hf a b
  have hadd : ∀ x y, pAdd x y ≠ .error .variableNotFound := by
    intro x y; unfold pAdd; split
    · simp
    · exact hop2 _ _ (fun a b => pure _) (by simp [pure, Except.pure])
  have hsub : ∀ x y, pSub x y ≠ .error .variableNotFound := by
    intro x y; unfold pSub; split
    · simp
    · exact hop2 _ _ (fun a b => pure _) (by simp [pure, Except.pure])
  have hmul : ∀ x y, pMul x y ≠ .error .variableNotFound := by
    intro x y; unfold pMul; split
    · simp
    · exact hop2 _ _ (fun a b => pure _) (by simp [pure, Except.pure])
  have hdiv : ∀ c x y, pDiv c x y ≠ .error .variableNotFound := by
    intro c x y; unfold pDiv; split
    · repeat (split; · simp)
      simp
    · exact hop2 _ _ (fun a b => if b = 0 then _ else pure _) (by intro a b; split <;> simp [pure, Except.pure])
  have hmod : ∀ x y, pMod x y ≠ .error .variableNotFound := by
    intro x y; unfold pMod; split
    · split <;> simp
    · refine hb _ _ (harith _) fun a _ => hb _ _ (harith _) fun b _ => ?_
      split <;> simp [pure, Except.pure]
  have hneg : ∀ x, pNeg x ≠ .error .variableNotFound := by
    intro x; unfold pNeg; split
    · simp
    · exact hb _ _ (harith _) fun a _ => by simp [pure, Except.pure]
  induction e with
  | num x => cases h
  | desired x => cases h
  | var r => exact ⟨r, by simp [Expr.vars], hvar r (habb r (by simp [Expr.vars])) h⟩
  | incons r => exact ⟨r, by simp [Expr.vars], hvar r (habb r (by simp [Expr.vars])) h⟩
  | neg e ih =>
    refine ih habb ?_
    simp only [evalWith] at h
    cases hx : evalWith env o rec e with
    | error e => rw [hx] at h; exact h
    | ok a =>
      rw [hx] at h
      refine absurd h ?_
      show linNeg a ≠ _
      unfold linNeg
      exact hb _ _ (hsc _) fun a _ => hb _ _ (hneg _) fun b _ => hb _ _ (hneg _) fun b _ => by simp [pure, Except.pure]
  | add a b i1 i2 =>
    simp only [Expr.vars, List.mem_append] at habb ⊢
    have := hbin (linAddSub pAdd) _ _ (by
      intro a b
      unfold linAddSub
      split
      · simp
      · exact hb _ _ (hsc _) fun a _ => hb _ _ (hsc _) fun b _ => hb _ _ (hadd _ _) fun b _ => hb _ _ (hadd _ _) fun b _ => by
          simp [pure, Except.pure]) h
    rcases this with h | h
    · obtain ⟨r, hr, hg⟩ := i1 (fun r h => habb r (.inl h)) h
      exact ⟨r, .inl hr, hg⟩
    · obtain ⟨r, hr, hg⟩ := i2 (fun r h => habb r (.inr h)) h
      exact ⟨r, .inr hr, hg⟩
  | sub a b i1 i2 =>
    simp only [Expr.vars, List.mem_append] at habb ⊢
    have := hbin (linAddSub pSub) _ _ (by
      intro a b
      unfold linAddSub
      split
      · simp
      · exact hb _ _ (hsc _) fun a _ => hb _ _ (hsc _) fun b _ => hb _ _ (hsub _ _) fun b _ => hb _ _ (hsub _ _) fun b _ => by
          simp [pure, Except.pure]) h
    rcases this with h | h
    · obtain ⟨r, hr, hg⟩ := i1 (fun r h => habb r (.inl h)) h
      exact ⟨r, .inl hr, hg⟩
    · obtain ⟨r, hr, hg⟩ := i2 (fun r h => habb r (.inr h)) h
      exact ⟨r, .inr hr, hg⟩
  | mul a b i1 i2 =>
    simp only [Expr.vars, List.mem_append] at habb ⊢
    have := hbin linMul _ _ (by
      intro a b
      unfold linMul
      split
      · simp
      · split
        all_goals
          exact hb _ _ (hsc _) fun a _ => hb _ _ (hsc _) fun b _ => hb _ _ (hmul _ _) fun b _ => hb _ _ (hmul _ _) fun b _ => by
            simp [pure, Except.pure]) h
    rcases this with h | h
    · obtain ⟨r, hr, hg⟩ := i1 (fun r h => habb r (.inl h)) h
      exact ⟨r, .inl hr, hg⟩
    · obtain ⟨r, hr, hg⟩ := i2 (fun r h => habb r (.inr h)) h
      exact ⟨r, .inr hr, hg⟩
  | div a b i1 i2 =>
    simp only [Expr.vars, List.mem_append] at habb ⊢
    have := hbin (linDiv o.castInt) _ _ (by
      intro a b
      unfold linDiv
      split
      · simp
      · exact hb _ _ (hsc _) fun a _ => hb _ _ (hsc _) fun b _ => hb _ _ (hdiv _ _ _) fun b _ => hb _ _ (hdiv _ _ _) fun b _ => by
          simp [pure, Except.pure]) h
    rcases this with h | h
    · obtain ⟨r, hr, hg⟩ := i1 (fun r h => habb r (.inl h)) h
      exact ⟨r, .inl hr, hg⟩
    · obtain ⟨r, hr, hg⟩ := i2 (fun r h => habb r (.inr h)) h
      exact ⟨r, .inr hr, hg⟩
  | mod a b i1 i2 =>
    simp only [Expr.vars, List.mem_append] at habb ⊢
    have := hbin linMod _ _ (by
      intro a b
      unfold linMod
      split
      · simp
      · exact hb _ _ (hsc _) fun a _ => hb _ _ (hsc _) fun b _ => hb _ _ (hmod _ _) fun b _ => by simp [pure, Except.pure]) h
    rcases this with h | h
    · obtain ⟨r, hr, hg⟩ := i1 (fun r h => habb r (.inl h)) h
      exact ⟨r, .inl hr, hg⟩
    · obtain ⟨r, hr, hg⟩ := i2 (fun r h => habb r (.inr h)) h
      exact ⟨r, .inr hr, hg⟩

/-- all variables of an expression with a value have values -/
theorem evalWith_reads {env : Env} {rec : Expr → Res Lin} {e : Expr} {o : EvalOpts} (hm : o.acceptMissing = false) {v : Lin}
    (h : evalWith env o rec e = .ok v) : ∀ r ∈ e.vars, ∃ w, getVarval env o.lookUp r = .ok w := by
  have hvar : ∀ r v, evalVar env o rec r = .ok v → ∃ w, getVarval env o.lookUp r = .ok w := by
    intro r v h
    rcases evalVar_cases h with ⟨e, hg, _⟩ | ⟨w', hg, _, rfl⟩ | ⟨hf, _⟩
    · exact ⟨_, hg⟩
    · exact ⟨_, hg⟩
    · rw [hm] at hf; cases hf
  induction e generalizing v with
  | num x => simp [Expr.vars]
  | desired x => simp [Expr.vars]
  | var r => simp only [Expr.vars, List.mem_singleton, forall_eq]; exact hvar r v h
  | incons r => simp only [Expr.vars, List.mem_singleton, forall_eq]; exact hvar r v h
  | neg e ih =>
    simp only [evalWith, bind_ok] at h
    obtain ⟨v1, hv1, h⟩ := h
    exact ih hv1
  | _ a b i1 i2 =>
    simp only [evalWith, bind_ok] at h
    obtain ⟨v1, hv1, v2, hv2, h⟩ := h
    simp only [Expr.vars, List.mem_append]
    rintro r (hr | hr)
    · exact i1 hv1 r hr
    · exact i2 hv2 r hr

theorem evalKnown_with {fuel : Nat} {env : Env} {lu ci : Bool} {e : Expr} : ∃ rec, 
    evalKnown fuel env lu ci e = (do return (← evalWith env ⟨lu, ci, false⟩ rec e).c) := by
  unfold evalKnown
  cases fuel with
  | zero => exact ⟨_, rfl⟩
  | succ n => exact ⟨_, rfl⟩

/-! ### conditions and bounds -/

/-- the state of both parsers, as far as conditions and loop bounds depend on it -/
structure Envs (Γ : Kinds) (L : List Name) (ps : List (DDic × CScope)) (d : DDic) (us : List DDic) (s : FunSt) : Prop where
  pairs : Pairs Γ ps
  fst : ps.map Prod.fst = d :: us
  snd : ps.map Prod.snd = s.blocks
  lnk : Linked (d :: us)
  lv : LvOk L s.lv

/-- numbers stay the same -/
def GrowN (Γ : Kinds) (d d' : DDic) : Prop :=
  ∀ n k ar, Γ n = some (k, ar) → k.isNum = true → ∀ is w, is.length = ar → look d n is = some w → look d' n is = some w

theorem GrowN.refl (Γ : Kinds) (d : DDic) : GrowN Γ d d := fun _ _ _ _ _ _ _ _ h => h
theorem GrowN.trans {Γ : Kinds} {a b c : DDic} (h1 : GrowN Γ a b) (h2 : GrowN Γ b c) : GrowN Γ a c :=
  fun n k ar hn hk is w hl h => h2 n k ar hn hk is w hl (h1 n k ar hn hk is w hl h)
theorem GrowD.growN {Γ : Kinds} {a b : DDic} (h : GrowD Γ a b) : GrowN Γ a b :=
  fun n k ar hn _ is w hl hw => h n k ar hn is w hl hw

/-- the blocks at a later time -/
inductive Later (Γ : Kinds) : List (DDic × CScope) → List (DDic × CScope) → Prop
  | mk {d d' b b' l} : GrowN Γ d d' → b'.defs = b.defs → Later Γ ((d, b) :: l) ((d', b') :: l)

theorem boundRef_cases {Γ : Kinds} {L : List Name} {Ds : List (List VKey)} {r : VarRef} (h : boundRefOk Γ L Ds r = true) :
    (r.name ∈ L ∧ r.idx = []) ∨ (r.name ∉ L ∧ ∃ k, Γ r.name = some (k, r.idx.length) ∧ k.isNum = true ∧
      (Ds.filter (·.contains r.key)).length ≤ 1) := by
  unfold boundRefOk at h
  split at h
  · rename_i hL
    exact .inl ⟨by simpa using hL, by simpa using h⟩
  · rename_i hL
    right
    refine ⟨by simpa using hL, ?_⟩
    simp only [Bool.and_eq_true, decide_eq_true_eq] at h
    obtain ⟨h1, h2⟩ := h
    split at h1
    · rename_i k ar hΓ
      simp only [Bool.and_eq_true, decide_eq_true_eq] at h1
      exact ⟨k, by rw [hΓ, h1.2], h1.1, h2⟩
    · cases h1

theorem at_kind {Γ : Kinds} {ps : List (DDic × CScope)} (hps : Pairs Γ ps) {lv : Dict Name Int} {r : VarRef} {k : CKind}
    (hΓ : Γ r.name = some (k, r.idx.length)) {w : Val} (h : ValAt Γ ps lv r w) : KindVal k w := by
  obtain ⟨is, his, p, hp, _, hw⟩ := h
  unfold look at hw
  cases hv : dGet (.var r.name) p.1 with
  | none => rw [hv] at hw; cases hw
  | some v =>
    rw [hv] at hw
    exact deep_find ((hps p hp).1 _ _ _ _ hΓ hv) (idxs_length his) hw

theorem bound_abb {Γ : Kinds} {L : List Name} {ps : List (DDic × CScope)} {d : DDic} {us : List DDic} {s : FunSt}
    (h : Envs Γ L ps d us s) {r : VarRef} {Ds : List (List VKey)} (hr : boundRefOk Γ L Ds r = true) (e : Expr) :
    getVarval ⟨d, us, s.lv⟩ true r ≠ .ok (.abb e) := by
  intro hg
  rcases boundRef_cases hr with ⟨hL, _⟩ | ⟨hL, k, hΓ, _, _⟩
  · obtain ⟨i, hi⟩ := h.lv.1 _ hL
    unfold getVarval at hg
    split at hg
    · cases hg
    · rw [hi] at hg; cases hg
  · exact kind_not_abb (at_kind h.pairs hΓ (py_at h.pairs h.fst (h.lv.2 _ hL) hΓ hg)) e rfl

theorem mapM_idx_mono {lv lv' : Dict Name Int} (hm : ∀ n i, dGet n lv = some i → dGet n lv' = some i) {l : List Idx}
    {is : List Int} (h : l.mapM (idxVal lv) = .ok is) : l.mapM (idxVal lv') = .ok is := by
  induction l generalizing is with
  | nil => exact h
  | cons a l ih =>
    simp only [List.mapM_cons, bind_ok, pure_ok] at h ⊢
    obtain ⟨x, hx, xs, hxs, rfl⟩ := h
    refine ⟨x, ?_, xs, ih hxs, rfl⟩
    unfold idxVal at hx ⊢
    split at hx
    · split at hx
      · rename_i hd; cases hx; simp only [hm _ _ hd]
      · cases hx
    · exact hx

/-- a variable of a bound, found by the interpreter, and used later by the compiled parser -/
theorem bound_later {Γ : Kinds} {L L' : List Name} {ps ps' : List (DDic × CScope)} {d d' : DDic} {us us' : List DDic} {s s' : FunSt}
    (h : Envs Γ L ps d us s) (h' : Envs Γ L' ps' d' us' s') (hl : Later Γ ps ps')
    (hlv : ∀ n i, dGet n s.lv = some i → dGet n s'.lv = some i) (hno : ∀ n, n ∉ L → Γ n ≠ none → n ∉ L')
    {r : VarRef} (hr : boundRefOk Γ L (ps.map fun p => p.2.defs) r = true) {w w' : Val}
    (hg : getVarval ⟨d, us, s.lv⟩ true r = .ok w) (hc : readRef s' r = .ok w') : w = w' := by
  rcases boundRef_cases hr with ⟨hL, hidx⟩ | ⟨hL, k, hΓ, hk, hu⟩
  · obtain ⟨i, hi⟩ := h.lv.1 _ hL
    unfold getVarval at hg
    split at hg
    · cases hg
    · rw [hi] at hg; cases hg
      unfold readRef at hc
      rw [hlv _ _ hi] at hc
      simp only [hidx, if_true, CRes.ok.injEq] at hc
      exact hc
  · obtain ⟨is, his, p, hp, hkey, hw⟩ := py_at h.pairs h.fst (h.lv.2 _ hL) hΓ hg
    obtain ⟨is', his', q, hq, hkey', hw'⟩ := c_at h'.pairs h'.snd (h'.lv.2 _ (hno _ hL (by rw [hΓ]; simp))) hΓ hc
    rw [mapM_idx_mono hlv his] at his'
    cases his'
    cases hl with
    | @mk dd dd' b b' l hgr hdef =>
      have hlen := idxs_length his
      have hu' : ((((dd', b') :: l).map fun p => p.2.defs).filter (·.contains r.key)).length ≤ 1 := by
        simpa only [List.map_cons, hdef] using hu
      rcases List.mem_cons.1 hp with rfl | hp
      · have := uniq_pair hu' hq (List.mem_cons_self) hkey' (by rw [hdef]; exact hkey)
        subst this
        have := hgr _ _ _ hΓ hk _ _ hlen hw
        rw [this] at hw'
        cases hw'; rfl
      · have := uniq_pair hu' hq (List.mem_cons_of_mem _ hp) hkey' hkey
        subst this
        rw [hw] at hw'
        cases hw'; rfl

/-- the value of a bound -/
theorem bound_val {Γ : Kinds} {L L' : List Name} {ps ps' : List (DDic × CScope)} {d d' : DDic} {us us' : List DDic} {s s' : FunSt}
    (h : Envs Γ L ps d us s) (h' : Envs Γ L' ps' d' us' s') (hl : Later Γ ps ps')
    (hlv : ∀ n i, dGet n s.lv = some i → dGet n s'.lv = some i) (hno : ∀ n, n ∉ L → Γ n ≠ none → n ∉ L')
    {e : Expr} (he : boundOk Γ L (ps.map fun p => p.2.defs) e = true) {v : Val} {y : PyNum} {fuel : Nat}
    (hp : evalKnown fuel ⟨d, us, s.lv⟩ true true e = .ok v) (hc : evC s' e = .ok y) : ∃ z, v = .num z ∧ SameNum z y := by
  unfold boundOk at he
  simp only [Bool.and_eq_true, List.all_eq_true] at he
  obtain ⟨rec, hrec⟩ := evalKnown_with (fuel := fuel) (env := ⟨d, us, s.lv⟩) (lu := true) (ci := true) (e := e)
  rw [hrec] at hp
  simp only [bind_ok, pure_ok] at hp
  obtain ⟨a, ha, rfl⟩ := hp
  exact (evC_py he.1 (fun r hr w w' h1 h2 => bound_later h h' hl hlv hno (he.2 r hr) h2 h1)
    (fun r hr e' => bound_abb h (he.2 r hr) e') hc ha).1

theorem Envs.later {Γ : Kinds} {L : List Name} {ps : List (DDic × CScope)} {d : DDic} {us : List DDic} {s : FunSt}
    (h : Envs Γ L ps d us s) : Later Γ ps ps := by
  cases ps with
  | nil => have := h.fst; cases this
  | cons p ps => exact .mk (GrowN.refl _ _) rfl

/-- what the compiled parser can evaluate, the interpreter finds -/
theorem bound_found {Γ : Kinds} {L : List Name} {ps : List (DDic × CScope)} {d : DDic} {us : List DDic} {s : FunSt}
    (h : Envs Γ L ps d us s) {e : Expr} (he : boundOk Γ L (ps.map fun p => p.2.defs) e = true) {y : PyNum} {fuel : Nat}
    (hc : evC s e = .ok y) : evalKnown fuel ⟨d, us, s.lv⟩ true true e ≠ .error .variableNotFound := by
  intro hp
  unfold boundOk at he
  simp only [Bool.and_eq_true, List.all_eq_true] at he
  obtain ⟨rec, hrec⟩ := evalKnown_with (fuel := fuel) (env := ⟨d, us, s.lv⟩) (lu := true) (ci := true) (e := e)
  rw [hrec] at hp
  have : evalWith ⟨d, us, s.lv⟩ ⟨true, true, false⟩ rec e = .error .variableNotFound := by
    cases hx : evalWith ⟨d, us, s.lv⟩ ⟨true, true, false⟩ rec e with
    | ok a => rw [hx] at hp; cases hp
    | error e => rw [hx] at hp; cases hp; rfl
  obtain ⟨r, hr, hg⟩ := evalWith_notFound rfl (fun r hr e' => bound_abb h (he.2 r hr) e') this
  obtain ⟨z, hz⟩ := evC_reads hc r hr
  dsimp only at hg
  rcases boundRef_cases (he.2 r hr) with ⟨hL, hidx⟩ | ⟨hL, k, hΓ, hk, hu⟩
  · obtain ⟨i, hi⟩ := h.lv.1 _ hL
    unfold getVarval at hg
    split at hg
    · cases hg
    · rw [hi] at hg; cases hg
  · have := at_py h.pairs h.fst h.lnk (h.lv.2 _ hL) hΓ hu (c_at h.pairs h.snd (h.lv.2 _ hL) hΓ hz)
    rw [this] at hg; cases hg

theorem mem_dedup_of {r : VarRef} {l : List VarRef} (h : r ∈ sortVars (dedupVars l)) : r ∈ l := by
  rw [mem_sortVars] at h
  exact mem_dedupVars h

theorem allRead_false {s : FunSt} {l : List VarRef} (h : allRead s l = .ok false) : ∃ r ∈ l, didRead s r = .ok false := by
  induction l with
  | nil => cases h
  | cons r l ih =>
    simp only [allRead, cbind_ok'] at h
    obtain ⟨b, hb, h⟩ := h
    cases b with
    | true =>
      simp only [if_true] at h
      obtain ⟨x, hx, hd⟩ := ih h
      exact ⟨x, List.mem_cons_of_mem _ hx, hd⟩
    | false => exact ⟨r, by simp, hb⟩

/-- conditions -/
theorem cond_agree {Γ : Kinds} {L : List Name} {ps : List (DDic × CScope)} {d : DDic} {us : List DDic} {s : FunSt}
    (h : Envs Γ L ps d us s) {c : Cond} (hc : condOk Γ L (ps.map fun p => p.2.defs) c = true) {fuel : Nat} {t t' : Bool}
    (hp : evalCond fuel ⟨d, us, s.lv⟩ c = .ok t) (hcc : condC s c = .ok t') : t = t' := by
  induction c generalizing t t' with
  | cmp r a b =>
    simp only [condOk, Bool.and_eq_true] at hc
    simp only [condC, cbind_ok'] at hcc
    obtain ⟨q, hq, hcc⟩ := hcc
    cases q with
    | false =>
      simp only [Bool.false_eq_true, if_false, CRes.ok.injEq] at hcc
      subst hcc
      obtain ⟨x, hx, hd⟩ := allRead_false hq
      have hx := mem_dedup_of hx
      have hb := hc.1
      unfold boundOk at hb
      simp only [Bool.and_eq_true, List.all_eq_true] at hb
      have hno : ∀ w, getVarval ⟨d, us, s.lv⟩ true x ≠ .ok w := by
        rcases boundRef_cases (hb.2 x hx) with ⟨hL, hidx⟩ | ⟨hL, k, hΓ, hk, hu⟩
        · obtain ⟨i, hi⟩ := h.lv.1 _ hL
          unfold didRead at hd
          rw [hi] at hd; cases hd
        · exact didRead_py h.pairs h.snd h.fst (h.lv.2 _ hL) hΓ hu hd
      unfold evalCond at hp
      split at hp
      · cases hp; rfl
      · cases hp
      · rename_i x' y' heq
        simp only [bind_ok, pure_ok] at heq
        obtain ⟨v, hv, _⟩ := heq
        obtain ⟨rec, hrec⟩ := evalKnown_with (fuel := fuel) (env := ⟨d, us, s.lv⟩) (lu := true) (ci := true) (e := a)
        rw [hrec] at hv
        simp only [bind_ok, pure_ok] at hv
        obtain ⟨u, hu, _⟩ := hv
        obtain ⟨w, hw⟩ := evalWith_reads rfl hu x hx
        exact absurd hw (hno w)
    | true =>
      simp only [if_true, cbind_ok'] at hcc
      obtain ⟨x, hx, y, hy, hcc⟩ := hcc
      cases hcc
      unfold evalCond at hp
      split at hp
      · rename_i heq
        exfalso
        cases h1 : evalKnown fuel ⟨d, us, s.lv⟩ true true a with
        | error e => rw [h1] at heq; cases heq; exact bound_found h hc.1 hx h1
        | ok u =>
          rw [h1] at heq
          cases h2 : evalKnown fuel ⟨d, us, s.lv⟩ true true b with
          | error e => rw [h2] at heq; cases heq; exact bound_found h hc.2 hy h2
          | ok u => rw [h2] at heq; cases heq
      · cases hp
      · rename_i x' y' heq
        simp only [bind_ok, pure_ok, Prod.mk.injEq] at heq
        obtain ⟨v, hv, v', hv', rfl, rfl⟩ := heq
        obtain ⟨z, rfl, hz⟩ := bound_val h h h.later (fun _ _ h => h) (fun _ h _ => h) hc.1 hv hx
        obtain ⟨z', rfl, hz'⟩ := bound_val h h h.later (fun _ _ h => h) (fun _ h _ => h) hc.2 hv' hy
        simp only [relHolds, Except.ok.injEq, hz.1, hz'.1] at hp
        rw [← hp]
        rfl
  | and a b i1 i2 =>
    simp only [condOk, Bool.and_eq_true] at hc
    simp only [condC, cbind_ok'] at hcc
    obtain ⟨q, hq, hcc⟩ := hcc
    simp only [evalCond, bind_ok] at hp
    obtain ⟨q', hq', hp⟩ := hp
    have := i1 hc.1 hq' hq
    subst this
    cases q' with
    | true => simp only [if_true, Bool.true_eq_false, if_false] at hcc hp; exact i2 hc.2 hp hcc
    | false => simp only [if_true, Bool.false_eq_true, if_false, pure_ok, CRes.ok.injEq] at hcc hp; rw [← hcc, ← hp]
  | or a b i1 i2 =>
    simp only [condOk, Bool.and_eq_true] at hc
    simp only [condC, cbind_ok'] at hcc
    obtain ⟨q, hq, hcc⟩ := hcc
    simp only [evalCond, bind_ok] at hp
    obtain ⟨q', hq', hp⟩ := hp
    have := i1 hc.1 hq' hq
    subst this
    cases q' with
    | true => simp only [if_true, pure_ok, CRes.ok.injEq] at hcc hp; rw [← hcc, ← hp]
    | false => simp only [Bool.false_eq_true, if_false] at hcc hp; exact i2 hc.2 hp hcc

theorem start_nonneg {L : List Name} {s : FunSt} (hL : LvOk L s.lv) (hlv : ∀ n i, dGet n s.lv = some i → 0 ≤ i) {e : Expr}
    (he : startOk L e = true) {y : PyNum} (hy : evC s e = .ok y) : ∃ n : Int, y = .int n ∧ 0 ≤ n := by
  induction e generalizing y with
  | num x =>
    cases x with
    | int n => simp only [evC] at hy; exact ⟨n, cInt_ok hy, by simpa [startOk] using he⟩
    | num v => simp [startOk] at he
  | var r =>
    simp only [startOk, List.contains_eq_mem, decide_eq_true_eq] at he
    obtain ⟨i, hi⟩ := hL.1 _ he
    simp only [evC, cbind_ok'] at hy
    obtain ⟨w, hw, hy⟩ := hy
    unfold readRef at hw
    rw [hi] at hw
    dsimp only at hw
    split at hw
    · cases hw
      simp only [cNum, CRes.ok.injEq] at hy
      exact ⟨i, hy.symm, hlv _ _ hi⟩
    · cases hw
  | add a b i1 i2 =>
    simp only [startOk, Bool.and_eq_true] at he
    simp only [evC, cbind_ok'] at hy
    obtain ⟨y1, h1, y2, h2, hy⟩ := hy
    obtain ⟨n1, rfl, p1⟩ := i1 he.1 h1
    obtain ⟨n2, rfl, p2⟩ := i2 he.2 h2
    simp only [cAdd, cArith] at hy
    exact ⟨n1 + n2, cInt_ok hy, by omega⟩
  | _ => simp [startOk] at he

/-! ### loops -/

theorem intRange_nil {a b : Int} (h : b < a) : intRange a b = [] := by
  unfold intRange
  have : (b + 1 - a).toNat = 0 := by omega
  rw [this]; rfl

/-- a loop in both parsers -/
theorem for_agree {σ τ : Type} {R : τ → σ → Prop} {Rin : Int → τ → σ → Prop} {setP : Int → τ → τ} {setC : Option Int → σ → σ}
    {stop : σ → CRes PyNum} {bodyC : σ → CRes σ} {bodyP : τ → Out τ} {P : τ → Prop} {a y : Int}
    (hset : ∀ i t s, a ≤ i → R t s → Rin i (setP i t) (setC (some i) s))
    (hstop : ∀ i t s z, Rin i t s → stop s = .ok z → z.val = y)
    (hbody : ∀ i t s t' s', Rin i t s → P t → bodyP t = .ok t' → bodyC s = .ok s' → R t' s')
    {n : Nat} {i : Int} {t t' : τ} {s s' : σ} (hi : a ≤ i) (hR : R t s) (hP : AllIter setP bodyP P (intRange i y) t)
    (hp : iterate setP bodyP (intRange i y) t = .ok t') (hc : runFor setC stop bodyC n i s = .ok s') :
    ∃ s'', s' = setC none s'' ∧ R t' s'' := by
  induction n generalizing i t s with
  | zero => cases hc
  | succ n ih =>
    simp only [runFor, cbind_ok'] at hc
    obtain ⟨z, hz, hc⟩ := hc
    have hz := hstop i _ _ z (hset i t s hi hR) hz
    rw [hz] at hc
    by_cases hy : i ≤ y
    · rw [if_pos (by exact_mod_cast hy)] at hc
      simp only [cbind_ok'] at hc
      obtain ⟨s2, hs2, hc⟩ := hc
      split at hc
      · rw [intRange_cons hy] at hp hP
        simp only [iterate] at hp
        cases hb : bodyP (setP i t) with
        | err e u => rw [hb] at hp; cases hp
        | ok t2 =>
          rw [hb] at hp
          simp only [Out.andThen] at hp
          exact ih (by omega) (hbody i _ _ _ _ (hset i t s hi hR) hP.1 hb hs2) (hP.2 _ hb) hp hc
      · cases hc
    · rw [if_neg (by exact_mod_cast hy)] at hc
      rw [intRange_nil (by omega)] at hp
      simp only [iterate, Out.ok.injEq] at hp
      cases hc
      exact ⟨s, rfl, hp ▸ hR⟩

end Verif
