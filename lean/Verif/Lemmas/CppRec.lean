import Verif.Lemmas.CppPy
import Verif.Props.Trafo

/-! What the code for the fields of a record does, compared with the dictionary of the Python parser behind the record. -/

namespace Verif
open Spec

/-! ### values of solutions -/

mutual
/-- the variables of a tree -/
def X.toks : X → List XVar
  | .num _ => []
  | .var v => [v]
  | .add l | .mul l => toksL l
  | .sub a b | .div a b | .mod a b => a.toks ++ b.toks
  | .neg a => a.toks
def toksL : List X → List XVar
  | [] => []
  | x :: xs => x.toks ++ toksL xs
end

mutual
/-- no division, no modulo -/
def X.divFree : X → Bool
  | .num _ | .var _ => true
  | .add l | .mul l => divFreeL l
  | .sub a b => a.divFree && b.divFree
  | .div _ _ | .mod _ _ => false
  | .neg a => a.divFree
def divFreeL : List X → Bool
  | [] => true
  | x :: xs => x.divFree && divFreeL xs
end

theorem cInt_ok {n : Int} {z : PyNum} (h : cInt n = .ok z) : z = .int n := by
  unfold cInt at h; split at h <;> cases h; rfl

theorem cAdd_val {x y z : PyNum} (h : cAdd x y = .ok z) : z.val = x.val + y.val ∧ (x.isInt → y.isInt → z.isInt) := by
  unfold cAdd cArith at h
  split at h
  · rw [cInt_ok h]; exact ⟨by simp [PyNum.val], fun _ _ => trivial⟩
  · rename_i hne
    cases h
    refine ⟨rfl, fun h1 h2 => ?_⟩
    cases x <;> cases y <;> simp only [PyNum.isInt] at h1 h2
    exact absurd rfl (hne _ _ rfl)

theorem cSub_val {x y z : PyNum} (h : cSub x y = .ok z) : z.val = x.val - y.val ∧ (x.isInt → y.isInt → z.isInt) := by
  unfold cSub cArith at h
  split at h
  · rw [cInt_ok h]; exact ⟨by simp [PyNum.val], fun _ _ => trivial⟩
  · rename_i hne
    cases h
    refine ⟨rfl, fun h1 h2 => ?_⟩
    cases x <;> cases y <;> simp only [PyNum.isInt] at h1 h2
    exact absurd rfl (hne _ _ rfl)

theorem cMul_val {x y z : PyNum} (h : cMul x y = .ok z) : z.val = x.val * y.val ∧ (x.isInt → y.isInt → z.isInt) := by
  unfold cMul cArith at h
  split at h
  · rw [cInt_ok h]; exact ⟨by simp [PyNum.val], fun _ _ => trivial⟩
  · rename_i hne
    cases h
    refine ⟨rfl, fun h1 h2 => ?_⟩
    cases x <;> cases y <;> simp only [PyNum.isInt] at h1 h2
    exact absurd rfl (hne _ _ rfl)

theorem cNeg_val {x z : PyNum} (h : cNeg x = .ok z) : z.val = -x.val ∧ (x.isInt → z.isInt) := by
  cases x with
  | int a => simp only [cNeg] at h; rw [cInt_ok h]; exact ⟨by simp [PyNum.val], fun _ => trivial⟩
  | num x => simp only [cNeg, dbl, CRes.ok.injEq] at h; subst h; exact ⟨rfl, fun h => h.elim⟩

/-- what is known about an evaluated tree -/
def Exact (σ : XVar → CRes PyNum) (x : X) (z : PyNum) : Prop :=
  (∀ ρ : XEnv, (∀ t ∈ x.toks, ∀ y, σ t = .ok y → ρ.val t = y.val) → xval ρ x = some z.val) ∧
  (∀ t ∈ x.toks, ∃ y, σ t = .ok y) ∧ ((∀ t ∈ x.toks, ∀ y, σ t = .ok y → y.isInt) → z.isInt)

mutual
theorem evX_exact (σ : XVar → CRes PyNum) : ∀ (x : X) (z : PyNum), x.divFree = true → evX σ x = .ok z → Exact σ x z
  | .num t, z, _, h => by
    simp only [evX] at h
    split at h
    · rename_i n hn
      rw [cInt_ok h]
      refine ⟨fun ρ _ => ?_, by simp [X.toks], fun _ => trivial⟩
      simp only [xval, litVal, hn, PyNum.val]
    · cases h
  | .var v, z, _, h => by
    simp only [evX] at h
    refine ⟨fun ρ hρ => ?_, fun t ht => ?_, fun hi => ?_⟩
    · simp only [xval, hρ v (by simp [X.toks]) z h]
    · simp only [X.toks, List.mem_singleton] at ht; subst ht; exact ⟨z, h⟩
    · exact hi v (by simp [X.toks]) z h
  | .add [], z, _, h => by simp [evX] at h
  | .mul [], z, _, h => by simp [evX] at h
  | .add (x :: xs), z, hd, h => by
    simp only [X.divFree, divFreeL, Bool.and_eq_true] at hd
    simp only [evX, cbind_ok'] at h
    obtain ⟨a, ha, h⟩ := h
    obtain ⟨g1, g2, g3⟩ := evX_exact σ x a hd.1 ha
    obtain ⟨b, e1, e2, e3⟩ := evSum_exact σ xs a z hd.2 h
    simp only [Exact, X.toks, toksL, List.mem_append]
    refine ⟨fun ρ hρ => ?_, fun t ht => ?_, fun hi => ?_⟩
    · simp only [xval, xsum, g1 ρ fun t ht => hρ t (.inl ht), e1.1 ρ fun t ht => hρ t (.inr ht), Option.bind_some, e1.2]
    · rcases ht with ht | ht
      · exact g2 t ht
      · exact e2 t ht
    · exact e3 (g3 fun t ht => hi t (.inl ht)) fun t ht => hi t (.inr ht)
  | .mul (x :: xs), z, hd, h => by
    simp only [X.divFree, divFreeL, Bool.and_eq_true] at hd
    simp only [evX, cbind_ok'] at h
    obtain ⟨a, ha, h⟩ := h
    obtain ⟨g1, g2, g3⟩ := evX_exact σ x a hd.1 ha
    obtain ⟨b, e1, e2, e3⟩ := evProd_exact σ xs a z hd.2 h
    simp only [Exact, X.toks, toksL, List.mem_append]
    refine ⟨fun ρ hρ => ?_, fun t ht => ?_, fun hi => ?_⟩
    · simp only [xval, xprod, g1 ρ fun t ht => hρ t (.inl ht), e1.1 ρ fun t ht => hρ t (.inr ht), Option.bind_some, e1.2]
    · rcases ht with ht | ht
      · exact g2 t ht
      · exact e2 t ht
    · exact e3 (g3 fun t ht => hi t (.inl ht)) fun t ht => hi t (.inr ht)
  | .sub a b, z, hd, h => by
    simp only [X.divFree, Bool.and_eq_true] at hd
    simp only [evX, cbind_ok'] at h
    obtain ⟨p, hp, q, hq, h⟩ := h
    obtain ⟨g1, g2, g3⟩ := evX_exact σ a p hd.1 hp
    obtain ⟨e1, e2, e3⟩ := evX_exact σ b q hd.2 hq
    simp only [Exact, X.toks, List.mem_append]
    refine ⟨fun ρ hρ => ?_, fun t ht => ?_, fun hi => ?_⟩
    · simp only [xval, g1 ρ fun t ht => hρ t (.inl ht), e1 ρ fun t ht => hρ t (.inr ht), Option.bind_some, (cSub_val h).1]
    · rcases ht with ht | ht
      · exact g2 t ht
      · exact e2 t ht
    · exact (cSub_val h).2 (g3 fun t ht => hi t (.inl ht)) (e3 fun t ht => hi t (.inr ht))
  | .div a b, z, hd, h => by simp [X.divFree] at hd
  | .mod a b, z, hd, h => by simp [X.divFree] at hd
  | .neg a, z, hd, h => by
    simp only [X.divFree] at hd
    simp only [evX, cbind_ok'] at h
    obtain ⟨p, hp, h⟩ := h
    obtain ⟨g1, g2, g3⟩ := evX_exact σ a p hd hp
    refine ⟨fun ρ hρ => ?_, g2, fun hi => (cNeg_val h).2 (g3 hi)⟩
    simp only [xval, g1 ρ hρ, Option.bind_some, (cNeg_val h).1]
theorem evSum_exact (σ : XVar → CRes PyNum) : ∀ (l : List X) (acc z : PyNum), divFreeL l = true → evSum σ acc l = .ok z →
    ∃ b : ℚ, ((∀ ρ : XEnv, (∀ t ∈ toksL l, ∀ y, σ t = .ok y → ρ.val t = y.val) → xsum ρ l = some b) ∧ z.val = acc.val + b) ∧
    (∀ t ∈ toksL l, ∃ y, σ t = .ok y) ∧ (acc.isInt → (∀ t ∈ toksL l, ∀ y, σ t = .ok y → y.isInt) → z.isInt)
  | [], acc, z, _, h => by
    simp only [evSum, CRes.ok.injEq] at h; subst h
    exact ⟨0, ⟨fun _ _ => rfl, by simp⟩, by simp [toksL], fun h _ => h⟩
  | x :: xs, acc, z, hd, h => by
    simp only [divFreeL, Bool.and_eq_true] at hd
    simp only [evSum, cbind_ok'] at h
    obtain ⟨p, hp, q, hq, h⟩ := h
    obtain ⟨g1, g2, g3⟩ := evX_exact σ x p hd.1 hp
    obtain ⟨b, e1, e2, e3⟩ := evSum_exact σ xs q z hd.2 h
    simp only [toksL, List.mem_append]
    refine ⟨p.val + b, ⟨fun ρ hρ => ?_, ?_⟩, fun t ht => ?_, fun ha hi => ?_⟩
    · simp only [xsum, g1 ρ fun t ht => hρ t (.inl ht), e1.1 ρ fun t ht => hρ t (.inr ht), Option.bind_some]
    · rw [e1.2, (cAdd_val hq).1]; ring
    · rcases ht with ht | ht
      · exact g2 t ht
      · exact e2 t ht
    · exact e3 ((cAdd_val hq).2 ha (g3 fun t ht => hi t (.inl ht))) fun t ht => hi t (.inr ht)
theorem evProd_exact (σ : XVar → CRes PyNum) : ∀ (l : List X) (acc z : PyNum), divFreeL l = true → evProd σ acc l = .ok z →
    ∃ b : ℚ, ((∀ ρ : XEnv, (∀ t ∈ toksL l, ∀ y, σ t = .ok y → ρ.val t = y.val) → xprod ρ l = some b) ∧ z.val = acc.val * b) ∧
    (∀ t ∈ toksL l, ∃ y, σ t = .ok y) ∧ (acc.isInt → (∀ t ∈ toksL l, ∀ y, σ t = .ok y → y.isInt) → z.isInt)
  | [], acc, z, _, h => by
    simp only [evProd, CRes.ok.injEq] at h; subst h
    exact ⟨1, ⟨fun _ _ => rfl, by simp⟩, by simp [toksL], fun h _ => h⟩
  | x :: xs, acc, z, hd, h => by
    simp only [divFreeL, Bool.and_eq_true] at hd
    simp only [evProd, cbind_ok'] at h
    obtain ⟨p, hp, q, hq, h⟩ := h
    obtain ⟨g1, g2, g3⟩ := evX_exact σ x p hd.1 hp
    obtain ⟨b, e1, e2, e3⟩ := evProd_exact σ xs q z hd.2 h
    simp only [toksL, List.mem_append]
    refine ⟨p.val * b, ⟨fun ρ hρ => ?_, ?_⟩, fun t ht => ?_, fun ha hi => ?_⟩
    · simp only [xprod, g1 ρ fun t ht => hρ t (.inl ht), e1.1 ρ fun t ht => hρ t (.inr ht), Option.bind_some]
    · rw [e1.2, (cMul_val hq).1]; ring
    · rcases ht with ht | ht
      · exact g2 t ht
      · exact e2 t ht
    · exact e3 ((cMul_val hq).2 ha (g3 fun t ht => hi t (.inl ht))) fun t ht => hi t (.inr ht)
end

/-- solutions that C++ computes exactly: without division, or a quotient of such ones for an integer -/
def solShape (k : CKind) (x : X) : Bool :=
  x.divFree || (decide (k = .int) && match x with
    | .div a b => a.divFree && b.divFree
    | _ => false)

/-- the value of a solution: if it is known to be a number of kind `k`, then C++ computes this number -/
theorem evX_sol {σ : XVar → CRes PyNum} {k : CKind} (hk : k.isNum = true) {x : X} {z : PyNum} (hs : solShape k x = true)
    (hi : k = .int → ∀ t ∈ x.toks, ∀ y, σ t = .ok y → y.isInt) (h : evX σ x = .ok z) :
    (∀ t ∈ x.toks, ∃ y, σ t = .ok y) ∧
    ∃ q, (∀ ρ : XEnv, (∀ t ∈ x.toks, ∀ y, σ t = .ok y → ρ.val t = y.val) → xval ρ x = some q) ∧
      ∀ w y, KindVal k w → w = .num y → y.val = q → toKind k (.num z) = .ok w := by
  unfold solShape at hs
  rw [Bool.or_eq_true] at hs
  by_cases hd : x.divFree = true
  · obtain ⟨g1, g2, g3⟩ := evX_exact σ x z hd h
    refine ⟨g2, z.val, g1, ?_⟩
    rintro w y hw rfl hy
    cases k <;> simp only [CKind.isNum, Bool.false_eq_true] at hk
    · obtain ⟨q, hq⟩ := hw
      cases hq
      have hy' : q = z.val := hy
      rw [hy']; rfl
    · obtain ⟨n, hn⟩ := hw
      cases hn
      have := g3 (hi rfl)
      cases z with
      | int m => simp only [PyNum.val, Int.cast_inj] at hy; subst hy; rfl
      | num z => exact this.elim
  · rcases hs with hs | hs
    · exact absurd hs hd
    · simp only [Bool.and_eq_true, decide_eq_true_eq] at hs
      obtain ⟨rfl, hs⟩ := hs
      cases x with
      | div a b =>
        simp only [Bool.and_eq_true] at hs
        simp only [X.toks, List.mem_append] at hi ⊢
        simp only [evX, cbind_ok'] at h
        obtain ⟨p, hp, q, hq, h⟩ := h
        obtain ⟨g1, g2, g3⟩ := evX_exact σ a p hs.1 hp
        obtain ⟨e1, e2, e3⟩ := evX_exact σ b q hs.2 hq
        have ip := g3 fun t ht => hi trivial t (.inl ht)
        have iq := e3 fun t ht => hi trivial t (.inr ht)
        cases p with
        | num p => exact ip.elim
        | int p =>
          cases q with
          | num q => exact iq.elim
          | int q =>
            simp only [cDiv, cArith] at h
            split at h
            · cases h
            · rename_i h0
              have h0' : (q : ℚ) ≠ 0 := by exact_mod_cast h0
              rw [cInt_ok h]
              refine ⟨fun t ht => ht.elim (g2 t) (e2 t), (p : ℚ) / q, fun ρ hρ => ?_, ?_⟩
              · simp only [xval, g1 ρ fun t ht => hρ t (.inl ht), e1 ρ fun t ht => hρ t (.inr ht), Option.bind_some, PyNum.val, if_neg h0']
              · rintro w y ⟨n, rfl⟩ hy hv
                cases hy
                simp only [PyNum.val] at hv
                rw [eq_div_iff h0'] at hv
                have : n * q = p := by exact_mod_cast hv
                simp only [toKind, ← this, Int.mul_tdiv_cancel _ h0]
      | _ => simp at hs

/-! ### variables -/

theorem cIdxs_ok {lv : Dict Name Int} {l : List Idx} {is : List Int} : cIdxs lv l = .ok is ↔ l.mapM (idxVal lv) = .ok is := by
  induction l generalizing is with
  | nil => simp [cIdxs, pure, Except.pure]
  | cons i l ih =>
    simp only [cIdxs, List.mapM_cons, cbind_ok', bind_ok, pure_ok]
    constructor
    · rintro ⟨n, hn, ns, hns, h⟩
      cases h
      refine ⟨n, ?_, ns, ih.1 hns, rfl⟩
      unfold cIdx at hn
      split at hn <;> cases hn
      assumption
    · rintro ⟨n, hn, ns, hns, rfl⟩
      exact ⟨n, by unfold cIdx; rw [hn], ns, ih.2 hns, rfl⟩

/-- the value of a C++ variable at indices -/
def clook (b : CScope) (n : Name) (ar : Nat) (is : List Int) : Option Val := find ((dGet (n, ar) b.vars).map CTree.toPy) is

/-- the variables of a block that have been read are declared, and have the kinds given by `Γ`; there are no variables that
`Γ` does not know, but for MAT, MF and MT -/
def GoodB (Γ : Kinds) (b : CScope) : Prop :=
  ∀ key t, dGet key b.vars = some t → key ∈ b.defs ∧
    match Γ key.1 with
    | none => key ∈ ([("MAT", 0), ("MF", 0), ("MT", 0)] : List VKey)
    | some (k, ar) => ar = key.2 ∧ GoodT key.2 t ∧ DeepT k key.2 t.toPy

/-- what is stored is in the dictionary -/
def SoundB (Γ : Kinds) (d : DDic) (b : CScope) : Prop :=
  ∀ n k ar, Γ n = some (k, ar) → ∀ is w, is.length = ar → clook b n ar is = some w → look d n is = some w

/-- what has been stored stays -/
def GrowB (Γ : Kinds) (b b' : CScope) : Prop :=
  (∀ n k ar, Γ n = some (k, ar) → ∀ is w, is.length = ar → clook b n ar is = some w → clook b' n ar is = some w) ∧
  (∀ key, Γ key.1 = none → dGet key b'.vars = dGet key b.vars) ∧ b'.pd = b.pd ∧ b'.defs = b.defs

theorem GrowB.refl (Γ : Kinds) (b : CScope) : GrowB Γ b b := ⟨fun _ _ _ _ _ _ _ h => h, fun _ _ => rfl, rfl, rfl⟩
theorem GrowB.trans {Γ : Kinds} {a b c : CScope} (h1 : GrowB Γ a b) (h2 : GrowB Γ b c) : GrowB Γ a c :=
  ⟨fun n k ar hn is w hl h => h2.1 n k ar hn is w hl (h1.1 n k ar hn is w hl h),
   fun key h => (h2.2.1 key h).trans (h1.2.1 key h), h2.2.2.1.trans h1.2.2.1, h2.2.2.2.trans h1.2.2.2⟩

/-- reading a variable that is declared in the current block -/
theorem readRef_cur {Γ : Kinds} {s : FunSt} {r : VarRef} {k : CKind} {w : Val} (hg : GoodB Γ s.cur)
    (hl : dGet r.name s.lv = none) (hΓ : Γ r.name = some (k, r.idx.length)) (hd : r.key ∈ s.cur.defs)
    (h : readRef s r = .ok w) : ∃ is, r.idx.mapM (idxVal s.lv) = .ok is ∧ clook s.cur r.name r.idx.length is = some w := by
  unfold readRef at h
  rw [hl] at h
  simp only [FunSt.blocks, blockOf, if_pos hd, cbind_ok'] at h
  obtain ⟨is, his, h⟩ := h
  rw [cIdxs_ok] at his
  refine ⟨is, his, ?_⟩
  split at h
  · rename_i t ht
    have := (hg _ _ ht).2
    simp only [VarRef.key, hΓ] at this
    unfold clook
    unfold VarRef.key at ht
    rw [ht]
    have hlen := idxs_length his
    exact find_some.2 ((vget_toPy (by rw [hlen]; exact this.2.1)).1 h)
  · split at h <;> cases h

/-- the value that C++ reads is the one in the dictionary -/
theorem readRef_sound {Γ : Kinds} {d : DDic} {s : FunSt} {r : VarRef} {k : CKind} {w : Val} (hg : GoodB Γ s.cur)
    (hs : SoundB Γ d s.cur) (hr : RefOk Γ s.lv k r) (hd : dGet r.name s.lv = none → r.key ∈ s.cur.defs)
    (h : readRef s r = .ok w) : refVal d s.lv r = some w := by
  rcases hr with ⟨i, hi, hidx⟩ | ⟨hl, hΓ⟩
  · unfold readRef at h
    rw [hi] at h
    simp only [hidx, if_true, CRes.ok.injEq] at h
    unfold refVal; rw [hi, ← h]
  · obtain ⟨is, his, hw⟩ := readRef_cur hg hl hΓ (hd hl) h
    unfold refVal; rw [hl]; dsimp only; rw [his]
    exact hs _ _ _ hΓ is w (idxs_length his) hw

theorem evC_reads {s : FunSt} {e : Expr} {y : PyNum} (h : evC s e = .ok y) : ∀ r ∈ e.vars, ∃ z, readRef s r = .ok (.num z) := by
  have hnum : ∀ {v : Val} {z : PyNum}, cNum v = .ok z → v = .num z := by
    intro v z h; cases v <;> simp only [cNum, CRes.ok.injEq, reduceCtorEq] at h; rw [h]
  induction e generalizing y with
  | num x => simp [Expr.vars]
  | desired x => simp [Expr.vars]
  | var r =>
    simp only [evC, cbind_ok'] at h
    obtain ⟨v, hv, h⟩ := h
    simp only [Expr.vars, List.mem_singleton, forall_eq]
    exact ⟨y, by rw [hv, hnum h]⟩
  | incons r =>
    simp only [evC, cbind_ok'] at h
    obtain ⟨v, hv, h⟩ := h
    simp only [Expr.vars, List.mem_singleton, forall_eq]
    exact ⟨y, by rw [hv, hnum h]⟩
  | neg e ih =>
    simp only [evC, cbind_ok'] at h
    obtain ⟨a, ha, _⟩ := h
    exact ih ha
  | add a b i1 i2 | sub a b i1 i2 | mul a b i1 i2 | div a b i1 i2 | mod a b i1 i2 =>
    simp only [evC, cbind_ok'] at h
    obtain ⟨p, hp, q, hq, _⟩ := h
    simp only [Expr.vars, List.mem_append]
    rintro r (hr | hr)
    · exact i1 hp r hr
    · exact i2 hq r hr

theorem tokVal_ok {s : FunSt} {e : Expr} {src : Val} {t : XVar} {z : PyNum} (h : tokVal s e src t = .ok z) :
    (t = cppVal ∧ src = .num z) ∨ ∃ r ∈ e.vars, r.xvar = t ∧ readRef s r = .ok (.num z) := by
  have hnum : ∀ {v : Val} {z : PyNum}, cNum v = .ok z → v = .num z := by
    intro v z h; cases v <;> simp only [cNum, CRes.ok.injEq, reduceCtorEq] at h; rw [h]
  unfold tokVal at h
  split at h
  · rename_i ht; exact .inl ⟨ht, hnum h⟩
  · split at h
    · rename_i r hr
      simp only [cbind_ok'] at h
      obtain ⟨v, hv, h⟩ := h
      refine .inr ⟨r, List.mem_of_find?_eq_some hr, by simpa using List.find?_some hr, ?_⟩
      rw [hv, hnum h]
    · cases h

theorem solVal_num {s : FunSt} {e : Expr} {y : PyNum} {sol : X} {x : Val} (h : solVal s e (.num y) sol = .ok x) :
    ∃ z, x = .num z ∧ evX (tokVal s e (.num y)) sol = .ok z := by
  unfold solVal at h
  split at h
  · rename_i t
    split at h
    · rename_i ht
      cases h
      exact ⟨y, rfl, by simp only [evX, tokVal, if_pos ht, cNum]⟩
    · simp only [cbind_ok'] at h
      obtain ⟨z, hz, h⟩ := h
      cases h
      exact ⟨z, rfl, hz⟩
  · simp only [cbind_ok'] at h
    obtain ⟨z, hz, h⟩ := h
    cases h
    exact ⟨z, rfl, hz⟩

/-! ### one piece -/

/-- conditions on the code for a field -/
structure PieceStat (Γ : Kinds) (depth : Nat) (lv : Dict Name Int) (D : List VKey) (p : Piece) : Prop where
  field : FieldOk Γ lv p.kind p.e
  defs : ∀ r ∈ p.e.vars, dGet r.name lv = none → r.key ∈ D ∧ ∀ i, Idx.num i ∈ r.idx → 0 ≤ i
  inj : ∀ r ∈ p.e.vars, ∀ r' ∈ p.e.vars, r.name = r'.name → r = r'
  cpp : ∀ r ∈ p.e.vars, r.xvar.name ≠ cppVal.name
  op : match p.op with
    | .check => p.e.vars = []
    | .refuse _ _ => True
    | .put g v sol => v ∈ p.e.vars ∧ (dGet v.name lv ≠ none → g = true) ∧ (dGet v.name lv = none →
        (∀ r ∈ p.e.vars, dGet r.name lv = none → r = v ∨ r.xvar ∈ sol.toks) ∧
        (p.kind.isNum = true → solShape p.kind sol = true ∧ ∃ x l, p.e.toX = some x ∧ varAssign true depth x v.xvar = .ok (l, sol)) ∧
        (p.kind.isNum = false → sol = .var cppVal))

theorem toX_good {S : XVar → Prop} {e : Expr} {x : X} (h : e.toX = some x) (hS : ∀ r ∈ e.vars, S r.xvar) : x.Good S := by
  induction e generalizing x with
  | num v =>
    cases v with
    | int n => simp only [Expr.toX] at h; split at h <;> cases h; trivial
    | num v => simp [Expr.toX] at h
  | desired v => simp [Expr.toX] at h
  | var r => simp only [Expr.toX, Option.some.injEq] at h; subst h; exact hS r (by simp [Expr.vars])
  | incons r => simp only [Expr.toX, Option.some.injEq] at h; subst h; exact hS r (by simp [Expr.vars])
  | neg e ih =>
    simp only [Expr.toX] at h
    cases ha : e.toX with
    | none => rw [ha] at h; cases h
    | some a => rw [ha] at h; cases h; exact ih (x := a) ha hS
  | add a b i1 i2 | sub a b i1 i2 | mul a b i1 i2 | div a b i1 i2 | mod a b i1 i2 =>
    simp only [Expr.vars, List.mem_append] at hS
    simp only [Expr.toX] at h
    cases ha : a.toX with
    | none => rw [ha] at h; cases h
    | some x1 =>
      cases hb : b.toX with
      | none => rw [ha, hb] at h; cases h
      | some x2 =>
        rw [ha, hb] at h; cases h
        have g1 := i1 ha fun r hr => hS r (.inl hr)
        have g2 := i2 hb fun r hr => hS r (.inr hr)
        simp [X.Good, GoodL, g1, g2]

/-- the solution is the value in the dictionary -/
theorem sol_sound {Γ : Kinds} {depth : Nat} {D : List VKey} {d : DDic} {s : FunSt} {p : Piece} (hp : PieceStat Γ depth s.lv D p)
    (hD : s.cur.defs = D) (hg : GoodB Γ s.cur) (ht : TypedD Γ d) (hs : SoundB Γ d s.cur) {src : Val} (hk : KindVal p.kind src)
    (hh : FieldHolds d s.lv p.kind p.e src) {g : Bool} {v : VarRef} {sol : X} (hop : p.op = .put g v sol)
    (hl : dGet v.name s.lv = none) {x w : Val} (h1 : solVal s p.e src sol = .ok x) (h2 : toKind p.kind x = .ok w) :
    refVal d s.lv v = some w ∧ KindVal p.kind w ∧ ∀ t ∈ sol.toks, t ≠ cppVal → ∃ r ∈ p.e.vars, r.xvar = t ∧ ∃ z, readRef s r = .ok (.num z) := by
  obtain ⟨hfield, hdefs, hinj, hcpp, hpo⟩ := hp
  rw [hop] at hpo
  obtain ⟨hv, -, hpo⟩ := hpo
  obtain ⟨-, hnum, hnon⟩ := hpo hl
  cases hkn : p.kind.isNum with
  | false =>
    rw [hnon hkn] at h1 ⊢
    simp only [solVal, if_true, CRes.ok.injEq] at h1
    subst h1
    have hw : w = src := by
      cases hkk : p.kind <;> rw [hkk] at hk h2 hkn <;> simp only [CKind.isNum, Bool.true_eq_false] at hkn <;> obtain ⟨_, rfl⟩ := hk <;>
        simp only [toKind, CRes.ok.injEq] at h2 <;> exact h2.symm
    subst hw
    refine ⟨?_, hk, ?_⟩
    · rcases hh with hh | ⟨hn, _⟩ | ⟨_, hh⟩
      · rw [hh] at hv; cases hv
      · rw [hkn] at hn; cases hn
      · rcases hfield.2 with h | ⟨hn, _⟩ | ⟨_, r, he, _⟩
        · rw [h] at hv; cases hv
        · rw [hkn] at hn; cases hn
        · have : v = r := by rcases he with he | he <;> rw [he] at hv <;> simpa [Expr.vars] using hv
          subst this
          exact hh v he
    · intro t ht hne
      simp only [X.toks, List.mem_singleton] at ht
      exact absurd ht hne
  | true =>
    obtain ⟨hshape, x0, l, hx0, hva⟩ := hnum hkn
    obtain ⟨y, rfl⟩ := kind_num hkn hk
    obtain ⟨z, rfl, hz⟩ := solVal_num h1
    have hsnd : ∀ r ∈ p.e.vars, ∀ z, readRef s r = .ok (.num z) → refVal d s.lv r = some (.num z) := fun r hr z hz =>
      readRef_sound hg hs (hfield.1 r hr) (fun hl => by rw [hD]; exact (hdefs r hr hl).1) hz
    obtain ⟨htok, q, hq, hval⟩ := evX_sol hkn hshape (fun hki t htk u hu => by
      rcases tokVal_ok hu with ⟨_, h⟩ | ⟨r, hr, _, hrr⟩
      · rw [hki] at hk; obtain ⟨n, hn⟩ := hk; cases hn; cases h; trivial
      · have := hsnd r hr u hrr
        rcases hfield.1 r hr with ⟨i, hi, _⟩ | ⟨hl, hΓ⟩
        · unfold refVal at this; rw [hi] at this; cases this; trivial
        · rw [hki] at hΓ
          obtain ⟨n, hn⟩ := refVal_kind ht hl hΓ this
          cases hn; trivial) hz
    -- values of the variables, `c` for the ones without
    let ρ : ℚ → XEnv := fun c => ⟨fun t => if t = cppVal then y.val else match p.e.vars.find? (fun r => r.xvar = t) with
      | some r => (match refVal d s.lv r with | some (.num z) => z.val | _ => c)
      | none => c, fun _ _ => none⟩
    have hρ : ∀ c, ∀ r ∈ p.e.vars, (ρ c).val r.xvar = match refVal d s.lv r with | some (.num z) => z.val | _ => c := by
      intro c r hr
      have hne : r.xvar ≠ cppVal := fun h => hcpp r hr (by rw [h])
      simp only [ρ, if_neg hne]
      cases hf : p.e.vars.find? (fun r' => r'.xvar = r.xvar) with
      | none =>
        have := List.find?_eq_none.1 hf r hr
        simp at this
      | some r' =>
        have h1 := List.mem_of_find?_eq_some hf
        have h2 : r'.xvar = r.xvar := by simpa using List.find?_some hf
        have h3 : r'.name = r.name := by
          have := congrArg XVar.name h2
          simp only [VarRef.xvar] at this
          exact String.toList_injective this
        rw [hinj r' h1 r hr h3]
    have hq' : ∀ c, xval (ρ c) sol = some q := fun c => hq (ρ c) fun t ht u hu => by
      rcases tokVal_ok hu with ⟨rfl, h⟩ | ⟨r, hr, rfl, hrr⟩
      · cases h; simp only [ρ, if_true]
      · rw [hρ c r hr, hsnd r hr u hrr]
    have hfit : ∀ c, xval (ρ c) x0 = some ((ρ c).val cppVal) := by
      intro c
      have e : (ρ c).val cppVal = y.val := by simp only [ρ, if_true]
      rw [e]
      rcases hh with hh | ⟨_, y', hy, hh⟩ | ⟨hn, _⟩
      · rw [hh] at hv; cases hv
      · cases hy
        refine hh x0 (ρ c) hx0 fun r hr z hz => ?_
        rw [hρ c r hr, hz]
      · rw [hkn] at hn; cases hn
    let S : XVar → Prop := fun t => t = cppVal ∨ ∃ r ∈ p.e.vars, t = r.xvar
    have hS : OneIdx S := by
      rintro a b (rfl | ⟨r, hr, rfl⟩) (rfl | ⟨r', hr', rfl⟩) hn
      · rfl
      · exact absurd hn.symm (hcpp r' hr')
      · exact absurd hn (hcpp r hr)
      · rw [hinj r hr r' hr' (String.toList_injective hn)]
    have huniq := (C63_partial S hS depth x0 v.xvar (toX_good hx0 fun r hr => .inr ⟨r, hr, rfl⟩) (.inr ⟨v, hv, rfl⟩) (.inl rfl)
      (fun h => hcpp v hv (by rw [h])) l sol hva).2.2.2.2
    have hvq : ∀ c, (ρ c).val v.xvar = q := fun c => huniq (ρ c) q (hq' c) (hfit c)
    have hΓ : Γ v.name = some (p.kind, v.idx.length) := by
      rcases hfield.1 v hv with ⟨i, hi, _⟩ | ⟨_, hΓ⟩
      · rw [hl] at hi; cases hi
      · exact hΓ
    have hsome : ∃ u, refVal d s.lv v = some (.num u) := by
      by_contra hne
      have : ∀ c, (ρ c).val v.xvar = c := by
        intro c
        rw [hρ c v hv]
        cases hr : refVal d s.lv v with
        | none => rfl
        | some w =>
          cases w with
          | num u => exact absurd ⟨u, hr⟩ hne
          | _ => rfl
      have e1 := (this 0).symm.trans (hvq 0)
      have e2 := (this 1).symm.trans (hvq 1)
      rw [← e1] at e2
      norm_num at e2
    obtain ⟨u, hu⟩ := hsome
    have huq : u.val = q := by
      have := hvq 0
      rw [hρ 0 v hv, hu] at this
      exact this
    have hku := refVal_kind ht hl hΓ hu
    have := hval _ u hku rfl huq
    rw [this] at h2
    cases h2
    refine ⟨hu, hku, fun t ht hne => ?_⟩
    obtain ⟨u', hu'⟩ := htok t ht
    rcases tokVal_ok hu' with ⟨h, _⟩ | ⟨r, hr, hrt, hrr⟩
    · exact absurd h hne
    · exact ⟨r, hr, hrt, u', hrr⟩

/-- a variable that has been read -/
def HasB (b : CScope) (lv : Dict Name Int) (r : VarRef) : Prop :=
  ∃ is w, r.idx.mapM (idxVal lv) = .ok is ∧ clook b r.name r.idx.length is = some w

theorem idx_nonneg {lv : Dict Name Int} (hlv : ∀ n i, dGet n lv = some i → 0 ≤ i) {l : List Idx}
    (hl : ∀ i, Idx.num i ∈ l → 0 ≤ i) {is : List Int} (h : l.mapM (idxVal lv) = .ok is) : ∀ i ∈ is, 0 ≤ i := by
  induction l generalizing is with
  | nil => simp [pure, Except.pure] at h; subst h; simp
  | cons a l ih =>
    simp only [List.mapM_cons, bind_ok, pure_ok] at h
    obtain ⟨n, hn, ns, hns, rfl⟩ := h
    intro i hi
    rcases List.mem_cons.1 hi with rfl | hi
    · cases a with
      | var m =>
        simp only [idxVal] at hn
        split at hn <;> cases hn
        rename_i hm; exact hlv _ _ hm
      | num m => simp only [idxVal, Except.ok.injEq] at hn; subst hn; exact hl _ (by simp)
    · exact ih (fun i hi => hl i (List.mem_cons_of_mem _ hi)) hns i hi

theorem assign_step {Γ : Kinds} {d : DDic} {s s' : FunSt} {v : VarRef} {w : Val} {k : CKind}
    (hlv : ∀ n i, dGet n s.lv = some i → 0 ≤ i) (hidx : ∀ i, Idx.num i ∈ v.idx → 0 ≤ i) (hΓ : Γ v.name = some (k, v.idx.length))
    (hl : dGet v.name s.lv = none) (hd : v.key ∈ s.cur.defs) (hg : GoodB Γ s.cur) (hs : SoundB Γ d s.cur)
    (hk : KindVal k w) (hw : refVal d s.lv v = some w) (h : assign s v w = .ok s') :
    (∃ b, s' = { s with cur := b }) ∧ GoodB Γ s'.cur ∧ SoundB Γ d s'.cur ∧ GrowB Γ s.cur s'.cur ∧ HasB s'.cur s.lv v := by
  unfold assign at h
  simp only [cbind_ok'] at h
  obtain ⟨is, his, t, ht, h⟩ := h
  cases h
  rw [cIdxs_ok] at his
  have hlen := idxs_length his
  have hgood : ∀ x, dGet v.key s.cur.vars = some x → GoodT is.length x ∧ DeepT k is.length x.toPy := by
    intro x hx
    have := (hg _ _ hx).2
    simp only [VarRef.key, hΓ] at this
    rw [hlen]; exact this.2
  obtain ⟨g1, g2⟩ := vput_good (idx_nonneg hlv hidx his) (fun x hx => (hgood x hx).1) ht
  have hdeep : DeepT k is.length t.toPy := setArr_deep (fun u hu => by
    cases hx : dGet v.key s.cur.vars with
    | none => rw [hx] at hu; cases hu
    | some x => rw [hx] at hu; cases hu; exact (hgood x hx).2) hk g2
  have hlw : look d v.name is = some w := by
    unfold refVal at hw; rw [hl] at hw; dsimp only at hw; rw [his] at hw; exact hw
  have hfind : ∀ js : List Int, js.length = v.idx.length →
      clook { s.cur with vars := dSet v.key t s.cur.vars } v.name v.idx.length js
        = if js = is then some w else clook s.cur v.name v.idx.length js := by
    intro js hjs
    unfold clook
    have e : ((v.name, v.idx.length) : VKey) = v.key := rfl
    rw [e, dGet_dSet_self]
    exact find_setArr g2 (by omega)
  have hother : ∀ (key : VKey), key ≠ v.key → dGet key (dSet v.key t s.cur.vars) = dGet key s.cur.vars :=
    fun key hne => dGet_dSet_ne (Ne.symm hne) _ _
  refine ⟨⟨_, rfl⟩, ?_, ?_, ⟨?_, ?_, rfl, rfl⟩, ⟨is, w, his, ?_⟩⟩
  · intro key x hx
    dsimp only at hx
    by_cases e : key = v.key
    · subst e
      rw [dGet_dSet_self] at hx; cases hx
      refine ⟨hd, ?_⟩
      simp only [VarRef.key, hΓ, true_and]
      rw [← hlen]; exact ⟨g1, hdeep⟩
    · rw [hother key e] at hx
      exact hg key x hx
  · intro n k' ar hn js u hjs hu
    by_cases e : (n, ar) = v.key
    · cases e
      rw [hfind js hjs] at hu
      split at hu
      · rename_i e; cases hu; rw [e]; exact hlw
      · exact hs _ _ _ hn js u hjs hu
    · unfold clook at hu
      dsimp only at hu
      rw [hother _ e] at hu
      exact hs n k' ar hn js u hjs hu
  · intro n k' ar hn js u hjs hu
    by_cases e : (n, ar) = v.key
    · cases e
      rw [hfind js hjs]
      split
      · rename_i e
        have := hs _ _ _ hn js u hjs hu
        rw [e, hlw] at this
        exact this
      · exact hu
    · unfold clook
      dsimp only
      rw [hother _ e]
      exact hu
  · intro key hkey
    refine hother key ?_
    rintro rfl
    simp only [VarRef.key, hΓ, reduceCtorEq] at hkey
  · rw [hfind is hlen, if_pos rfl]

theorem HasB.mono {Γ : Kinds} {b b' : CScope} {lv : Dict Name Int} {k : CKind} {r : VarRef} (hg : GrowB Γ b b')
    (hΓ : Γ r.name = some (k, r.idx.length)) (h : HasB b lv r) : HasB b' lv r := by
  obtain ⟨is, w, his, hw⟩ := h
  exact ⟨is, w, his, hg.1 _ _ _ hΓ is w (idxs_length his) hw⟩

theorem piece_step {Γ : Kinds} {depth : Nat} {D : List VKey} {d : DDic} {c : FunCtx} {rd : Nat → CKind → CRes Val} {s s' : FunSt}
    {p : Piece} (hlv : ∀ n i, dGet n s.lv = some i → 0 ≤ i) (hp : PieceStat Γ depth s.lv D p)
    (hD : s.cur.defs = D) (hg : GoodB Γ s.cur) (ht : TypedD Γ d) (hs : SoundB Γ d s.cur)
    (hsrc : ∀ src, rd p.fld p.kind = .ok src → KindVal p.kind src ∧ FieldHolds d s.lv p.kind p.e src)
    (h : runPiece c rd s p = .ok s') :
    (∃ b, s' = { s with cur := b }) ∧ GoodB Γ s'.cur ∧ SoundB Γ d s'.cur ∧ GrowB Γ s.cur s'.cur ∧
    ∀ r ∈ p.e.vars, dGet r.name s.lv = none → HasB s'.cur s.lv r := by
  unfold runPiece at h
  simp only [cbind_ok'] at h
  obtain ⟨src, hrd, h⟩ := h
  obtain ⟨hk, hh⟩ := hsrc src hrd
  have hread : ∀ r ∈ p.e.vars, dGet r.name s.lv = none → (∃ z, readRef s r = .ok z) → HasB s.cur s.lv r := by
    rintro r hr hl ⟨z, hz⟩
    rcases hp.field.1 r hr with ⟨i, hi, _⟩ | ⟨_, hΓ⟩
    · rw [hl] at hi; cases hi
    · obtain ⟨is, his, hw⟩ := readRef_cur hg hl hΓ (by rw [hD]; exact (hp.defs r hr hl).1) hz
      exact ⟨is, _, his, hw⟩
  have hval : ∀ u, validateField c s p.e src = .ok u → ∀ r ∈ p.e.vars, dGet r.name s.lv = none → HasB s.cur s.lv r := by
    intro u hu r hr hl
    unfold validateField at hu
    split at hu
    · simp only [cbind_ok'] at hu
      obtain ⟨y, hy, _⟩ := hu
      obtain ⟨z, hz⟩ := evC_reads hy r hr
      exact hread r hr hl ⟨_, hz⟩
    · cases hu
  have hsame : ∀ u, validateField c s p.e src = .ok u → s' = s →
      (∃ b, s' = { s with cur := b }) ∧ GoodB Γ s'.cur ∧ SoundB Γ d s'.cur ∧ GrowB Γ s.cur s'.cur ∧
      ∀ r ∈ p.e.vars, dGet r.name s.lv = none → HasB s'.cur s.lv r := by
    rintro u hu rfl
    exact ⟨⟨s'.cur, rfl⟩, hg, hs, .refl _ _, hval u hu⟩
  split at h
  · simp only [cbind_ok'] at h
    obtain ⟨u, hu, h⟩ := h
    cases h
    exact hsame u hu rfl
  · rename_i g v sol hop
    simp only [cbind_ok'] at h
    obtain ⟨known, hkn, h⟩ := h
    split at h
    · simp only [cbind_ok'] at h
      obtain ⟨u, hu, h⟩ := h
      cases h
      exact hsame u hu rfl
    · rename_i hnk
      simp only [cbind_ok'] at h
      obtain ⟨x, hx, w, hw, h⟩ := h
      have hpo := hp.op
      rw [hop] at hpo
      obtain ⟨hv, hgd, hpo⟩ := hpo
      have hl : dGet v.name s.lv = none := by
        cases hl : dGet v.name s.lv with
        | none => rfl
        | some i =>
          exfalso
          rw [hgd (by rw [hl]; simp)] at hkn
          simp only [if_true, didRead, hl, CRes.ok.injEq] at hkn
          exact hnk hkn.symm
      obtain ⟨e1, e2, e3⟩ := sol_sound hp hD hg ht hs hk hh hop hl hx hw
      have hΓ : Γ v.name = some (p.kind, v.idx.length) := by
        rcases hp.field.1 v hv with ⟨i, hi, _⟩ | ⟨_, hΓ⟩
        · rw [hl] at hi; cases hi
        · exact hΓ
      obtain ⟨a1, a2, a3, a4, a5⟩ := assign_step hlv (hp.defs v hv hl).2 hΓ hl (by rw [hD]; exact (hp.defs v hv hl).1) hg hs e2 e1 h
      refine ⟨a1, a2, a3, a4, fun r hr hrl => ?_⟩
      rcases (hpo hl).1 r hr hrl with rfl | hmem
      · exact a5
      · have hne : r.xvar ≠ cppVal := fun h => hp.cpp r hr (by rw [h])
        obtain ⟨r', hr', hx', z, hz⟩ := e3 _ hmem hne
        have hrr : r' = r := hp.inj r' hr' r hr (String.toList_injective (congrArg XVar.name hx'))
        subst hrr
        have hΓ' : Γ r'.name = some (p.kind, r'.idx.length) := by
          rcases hp.field.1 r' hr with ⟨i, hi, _⟩ | ⟨_, hΓ⟩
          · rw [hrl] at hi; cases hi
          · exact hΓ
        exact (hread r' hr hrl ⟨_, hz⟩).mono a4 hΓ'
  · simp only [cbind_ok'] at h
    obtain ⟨known, hkn, h⟩ := h
    split at h
    · simp only [cbind_ok'] at h
      obtain ⟨u, hu, h⟩ := h
      cases h
      exact hsame u hu rfl
    · cases h

theorem pieces_step {Γ : Kinds} {depth : Nat} {D : List VKey} {d : DDic} {c : FunCtx} {rd : Nat → CKind → CRes Val} {ps : List Piece}
    {s s' : FunSt} (hlv : ∀ n i, dGet n s.lv = some i → 0 ≤ i) (hp : ∀ p ∈ ps, PieceStat Γ depth s.lv D p)
    (hD : s.cur.defs = D) (hg : GoodB Γ s.cur) (ht : TypedD Γ d) (hs : SoundB Γ d s.cur)
    (hsrc : ∀ p ∈ ps, ∀ src, rd p.fld p.kind = .ok src → KindVal p.kind src ∧ FieldHolds d s.lv p.kind p.e src)
    (h : runPieces c rd ps s = .ok s') :
    (∃ b, s' = { s with cur := b }) ∧ GoodB Γ s'.cur ∧ SoundB Γ d s'.cur ∧ GrowB Γ s.cur s'.cur ∧
    ∀ p ∈ ps, ∀ r ∈ p.e.vars, dGet r.name s.lv = none → HasB s'.cur s.lv r := by
  induction ps generalizing s with
  | nil =>
    simp only [runPieces, CRes.ok.injEq] at h; subst h
    exact ⟨⟨s.cur, rfl⟩, hg, hs, .refl _ _, by simp⟩
  | cons p ps ih =>
    simp only [runPieces, cbind_ok'] at h
    obtain ⟨s1, h1, h⟩ := h
    obtain ⟨⟨b, rfl⟩, a2, a3, a4, a5⟩ := piece_step hlv (hp p (by simp)) hD hg ht hs (hsrc p (by simp)) h1
    have hD' : b.defs = D := a4.2.2.2.trans hD
    obtain ⟨⟨b', rfl⟩, e2, e3, e4, e5⟩ := ih (s := { s with cur := b }) hlv (fun q hq => hp q (List.mem_cons_of_mem _ hq)) hD' a2 a3
      (fun q hq => hsrc q (List.mem_cons_of_mem _ hq)) h
    refine ⟨⟨b', rfl⟩, e2, e3, a4.trans e4, fun q hq r hr hl => ?_⟩
    rcases List.mem_cons.1 hq with rfl | hq
    · have hΓ : Γ r.name = some (q.kind, r.idx.length) := by
        rcases (hp q (by simp)).field.1 r hr with ⟨i, hi, _⟩ | ⟨_, hΓ⟩
        · rw [hl] at hi; cases hi
        · exact hΓ
      exact (a5 r hr hl).mono e4 hΓ
    · exact e5 q hq r hr hl

/-- both have the same values -/
def AgreeB (Γ : Kinds) (d : DDic) (b : CScope) : Prop :=
  ∀ n k ar, Γ n = some (k, ar) → ∀ is, is.length = ar → look d n is = clook b n ar is

/-- the fields of a record: after both parsers have read them, the same variables have the same values -/
theorem record_agree {Γ : Kinds} {depth fuel : Nat} {po : POpts} (hst : Strict po) (hi : po.ignoreAll = false)
    {D : List VKey} {d d' : DDic} {ups : List DDic} {c : FunCtx}
    {rd : Nat → CKind → CRes Val} {ps : List Piece} {s s' : FunSt} {es : List Expr} {vals : List Val}
    (hlv : ∀ n i, dGet n s.lv = some i → 0 ≤ i) (hp : ∀ p ∈ ps, PieceStat Γ depth s.lv D p)
    (hD : s.cur.defs = D) (hg : GoodB Γ s.cur) (ht : TypedD Γ d) (hag : AgreeB Γ d s.cur)
    (hfs : ∀ f ∈ es.zip vals, ∃ p ∈ ps, p.e = f.1 ∧ KindVal p.kind f.2)
    (hsrc : ∀ p ∈ ps, ∀ src, rd p.fld p.kind = .ok src → KindVal p.kind src ∧ (p.e, src) ∈ es.zip vals)
    (hpy : mapRead fuel po ups s.lv es vals d = .ok d') (hcpp : runPieces c rd ps s = .ok s') :
    (∃ b, s' = { s with cur := b }) ∧ GoodB Γ s'.cur ∧ TypedD Γ d' ∧ AgreeB Γ d' s'.cur ∧ GrowB Γ s.cur s'.cur ∧
    GrowD Γ d d' ∧ FrameD Γ d d' := by
  obtain ⟨t1, t2, t3, t4, t5⟩ := mapRead_look hst hi (fun f hf => by
    obtain ⟨p, hps, he, hk⟩ := hfs f hf
    exact ⟨p.kind, by rw [← he]; exact (hp p hps).field, hk⟩) ht hpy
  have hs : SoundB Γ d' s.cur := fun n k ar hn is w hl hw => t2 n k ar hn is w hl (by rw [hag n k ar hn is hl]; exact hw)
  obtain ⟨a1, a2, a3, a4, a5⟩ := pieces_step (d := d') hlv hp hD hg t1 hs (fun p hps src hsr =>
    ⟨(hsrc p hps src hsr).1, t5 _ (hsrc p hps src hsr).2 _ (hp p hps).field (hsrc p hps src hsr).1⟩) hcpp
  refine ⟨a1, a2, t1, ?_, a4, t2, t3⟩
  intro n k ar hn is hl
  cases hc : clook s'.cur n ar is with
  | some w => exact a3 n k ar hn is w hl hc
  | none =>
    cases hd : look d' n is with
    | none => rfl
    | some w =>
      exfalso
      rcases t4 n k ar hn is w hl hd with h | ⟨r, hr, rfl, his, hrl⟩
      · rw [hag n k ar hn is hl] at h
        rw [a4.1 n k ar hn is w hl h] at hc; cases hc
      · obtain ⟨f, hf, hr⟩ := List.mem_flatMap.1 hr
        obtain ⟨p, hps, he, _⟩ := hfs f hf
        rw [← he] at hr
        obtain ⟨js, u, hjs, hu⟩ := a5 p hps r hr hrl
        rw [his] at hjs; cases hjs
        have hΓ : Γ r.name = some (p.kind, r.idx.length) := by
          rcases (hp p hps).field.1 r hr with ⟨i, hi, _⟩ | ⟨_, hΓ⟩
          · rw [hrl] at hi; cases hi
          · exact hΓ
        rw [hn] at hΓ; cases hΓ
        rw [hu] at hc; cases hc

end Verif
