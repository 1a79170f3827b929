import Verif.Model.Trafo
import Verif.Lemmas.Digits
import Mathlib.Tactic.Ring
import Mathlib.Tactic.FieldSimp

/-! Values of expression trees and what the transformations of the compiler do to them. -/

namespace Verif

/-- values of variables, and what the modulo operator does -/
structure Spec.XEnv where
  val : XVar → ℚ
  mo : ℚ → ℚ → Option ℚ

/-- the value of a number token -/
def Spec.litVal (t : Str) : ℚ :=
  match pyInt t with
  | some n => n
  | none => match pyFloat t with
    | some d => d.toRat
    | none => 0

open Spec

mutual
/-- The value of an expression, none if a divisor is zero. -/
def Spec.xval (ρ : XEnv) : X → Option ℚ
  | .num t => some (litVal t)
  | .var v => some (ρ.val v)
  | .add l => Spec.xsum ρ l
  | .mul l => Spec.xprod ρ l
  | .sub a b => (Spec.xval ρ a).bind fun x => (Spec.xval ρ b).bind fun y => some (x - y)
  | .div a b => (Spec.xval ρ a).bind fun x => (Spec.xval ρ b).bind fun y => if y = 0 then none else some (x / y)
  | .mod a b => (Spec.xval ρ a).bind fun x => (Spec.xval ρ b).bind fun y => ρ.mo x y
  | .neg a => (Spec.xval ρ a).bind fun x => some (-x)
def Spec.xsum (ρ : XEnv) : List X → Option ℚ
  | [] => some 0
  | x :: xs => (Spec.xval ρ x).bind fun a => (Spec.xsum ρ xs).bind fun b => some (a + b)
def Spec.xprod (ρ : XEnv) : List X → Option ℚ
  | [] => some 1
  | x :: xs => (Spec.xval ρ x).bind fun a => (Spec.xprod ρ xs).bind fun b => some (a * b)
end

mutual
/-- all variables have the property, and no sum is empty -/
def X.Good (S : XVar → Prop) : X → Prop
  | .num _ => True
  | .var v => S v
  | .add l => l ≠ [] ∧ GoodL S l
  | .mul l => GoodL S l
  | .sub a b => a.Good S ∧ b.Good S
  | .div a b => a.Good S ∧ b.Good S
  | .mod a b => a.Good S ∧ b.Good S
  | .neg a => a.Good S
def GoodL (S : XVar → Prop) : List X → Prop
  | [] => True
  | x :: xs => x.Good S ∧ GoodL S xs
end

theorem GoodL_iff {S : XVar → Prop} {l : List X} : GoodL S l ↔ ∀ x ∈ l, x.Good S := by
  induction l with
  | nil => simp [GoodL]
  | cons x xs ih => simp [GoodL, ih]

/-- tokens of the same name are the same variable -/
def OneIdx (S : XVar → Prop) : Prop := ∀ v w, S v → S w → v.name = w.name → v = w

mutual
theorem eqv_eq {S : XVar → Prop} (hS : OneIdx S) : ∀ (a b : X), a.Good S → b.Good S → a.eqv b = true → a = b
  | .num t, b, ha, hb, h => by
    cases b <;> simp only [X.eqv, Bool.false_eq_true, beq_iff_eq] at h
    rw [h]
  | .var v, b, ha, hb, h => by
    cases b <;> simp only [X.eqv, Bool.false_eq_true, beq_iff_eq] at h
    rw [hS _ _ ha hb h]
  | .add l, b, ha, hb, h => by
    cases b <;> simp only [X.eqv, Bool.false_eq_true] at h
    rw [eqvL_eq hS l _ ha.2 hb.2 h]
  | .mul l, b, ha, hb, h => by
    cases b <;> simp only [X.eqv, Bool.false_eq_true] at h
    rw [eqvL_eq hS l _ ha hb h]
  | .sub a1 a2, b, ha, hb, h => by
    cases b <;> simp only [X.eqv, Bool.false_eq_true, Bool.and_eq_true] at h
    rw [eqv_eq hS a1 _ ha.1 hb.1 h.1, eqv_eq hS a2 _ ha.2 hb.2 h.2]
  | .div a1 a2, b, ha, hb, h => by
    cases b <;> simp only [X.eqv, Bool.false_eq_true, Bool.and_eq_true] at h
    rw [eqv_eq hS a1 _ ha.1 hb.1 h.1, eqv_eq hS a2 _ ha.2 hb.2 h.2]
  | .mod a1 a2, b, ha, hb, h => by
    cases b <;> simp only [X.eqv, Bool.false_eq_true, Bool.and_eq_true] at h
    rw [eqv_eq hS a1 _ ha.1 hb.1 h.1, eqv_eq hS a2 _ ha.2 hb.2 h.2]
  | .neg a1, b, ha, hb, h => by
    cases b <;> simp only [X.eqv, Bool.false_eq_true] at h
    rw [eqv_eq hS a1 _ ha (by simpa [X.Good] using hb) h]
theorem eqvL_eq {S : XVar → Prop} (hS : OneIdx S) : ∀ (l m : List X), GoodL S l → GoodL S m → eqvL l m = true → l = m
  | [], m, _, _, h => by
    cases m with
    | nil => rfl
    | cons y ys => simp [eqvL] at h
  | x :: xs, m, hl, hm, h => by
    cases m with
    | nil => simp [eqvL] at h
    | cons y ys =>
      simp only [eqvL, Bool.and_eq_true] at h
      rw [eqv_eq hS x y hl.1 hm.1 h.1, eqvL_eq hS xs ys hl.2 hm.2 h.2]
end

/-- `y` has no new variables and the value of `x` -/
def Same (S : XVar → Prop) (x y : X) : Prop := x.Good S → y.Good S ∧ ∀ ρ, xval ρ y = xval ρ x

def SameL (S : XVar → Prop) (l m : List X) : Prop :=
  GoodL S l → GoodL S m ∧ (l ≠ [] → m ≠ []) ∧ ∀ ρ, xsum ρ m = xsum ρ l ∧ xprod ρ m = xprod ρ l

theorem Same.refl {S : XVar → Prop} (x : X) : Same S x x := fun h => ⟨h, fun _ => rfl⟩

theorem Same.trans' {S : XVar → Prop} {x y z : X} (h1 : Same S x y) (h2 : Same S y z) : Same S x z := fun h =>
  ⟨(h2 (h1 h).1).1, fun ρ => by rw [(h2 (h1 h).1).2, (h1 h).2]⟩

mutual
/-- rewriting all nodes, children first, keeps the value if rewriting a node does -/
theorem trans_same {S : XVar → Prop} {f : X → X} (hf : ∀ x, Same S x (f x)) : ∀ x : X, Same S x (x.trans f)
  | .num t => hf _
  | .var v => hf _
  | .add l => fun h => by
    obtain ⟨h1, h2, h3⟩ := transL_same hf l h.2
    obtain ⟨h4, h5⟩ := hf (.add (transL f l)) ⟨h2 h.1, h1⟩
    exact ⟨h4, fun ρ => by rw [X.trans, h5]; exact (h3 ρ).1⟩
  | .mul l => fun h => by
    obtain ⟨h1, h2, h3⟩ := transL_same hf l h
    obtain ⟨h4, h5⟩ := hf (.mul (transL f l)) h1
    exact ⟨h4, fun ρ => by rw [X.trans, h5]; exact (h3 ρ).2⟩
  | .sub a b => fun h => by
    obtain ⟨h1, h2⟩ := trans_same hf a h.1
    obtain ⟨h3, h4⟩ := trans_same hf b h.2
    obtain ⟨h5, h6⟩ := hf (.sub (a.trans f) (b.trans f)) ⟨h1, h3⟩
    exact ⟨h5, fun ρ => by rw [X.trans, h6, xval, xval, h2, h4]⟩
  | .div a b => fun h => by
    obtain ⟨h1, h2⟩ := trans_same hf a h.1
    obtain ⟨h3, h4⟩ := trans_same hf b h.2
    obtain ⟨h5, h6⟩ := hf (.div (a.trans f) (b.trans f)) ⟨h1, h3⟩
    exact ⟨h5, fun ρ => by rw [X.trans, h6, xval, xval, h2, h4]⟩
  | .mod a b => fun h => by
    obtain ⟨h1, h2⟩ := trans_same hf a h.1
    obtain ⟨h3, h4⟩ := trans_same hf b h.2
    obtain ⟨h5, h6⟩ := hf (.mod (a.trans f) (b.trans f)) ⟨h1, h3⟩
    exact ⟨h5, fun ρ => by rw [X.trans, h6, xval, xval, h2, h4]⟩
  | .neg a => fun h => by
    obtain ⟨h1, h2⟩ := trans_same hf a h
    obtain ⟨h5, h6⟩ := hf (.neg (a.trans f)) h1
    exact ⟨h5, fun ρ => by rw [X.trans, h6, xval, xval, h2]⟩
theorem transL_same {S : XVar → Prop} {f : X → X} (hf : ∀ x, Same S x (f x)) : ∀ l : List X, SameL S l (transL f l)
  | [] => fun _ => ⟨trivial, fun h => h, fun _ => ⟨rfl, rfl⟩⟩
  | x :: xs => fun h => by
    obtain ⟨h1, h2⟩ := trans_same hf x h.1
    obtain ⟨h3, _, h4⟩ := transL_same hf xs h.2
    refine ⟨⟨h1, h3⟩, fun _ => by simp [transL], fun ρ => ⟨?_, ?_⟩⟩
    · rw [transL, xsum, xsum, h2, (h4 ρ).1]
    · rw [transL, xprod, xprod, h2, (h4 ρ).2]
end

theorem bind_ok_inv {ε α β : Type} {x : Except ε α} {f : α → Except ε β} {b : β} (h : (x >>= f) = .ok b) :
    ∃ a, x = .ok a ∧ f a = .ok b := by
  cases x with
  | error e => cases h
  | ok a => exact ⟨a, rfl, h⟩

mutual
theorem transM_same {S : XVar → Prop} {f : X → Except XErr X} (hf : ∀ x y, f x = .ok y → Same S x y) :
    ∀ (x y : X), x.transM f = .ok y → Same S x y
  | .num t, y, h => hf _ _ h
  | .var v, y, h => hf _ _ h
  | .add l, y, h => fun hg => by
    obtain ⟨m, hm, h⟩ := bind_ok_inv h
    obtain ⟨h1, h2, h3⟩ := transML_same hf l m hm hg.2
    obtain ⟨h4, h5⟩ := hf _ _ h ⟨h2 hg.1, h1⟩
    exact ⟨h4, fun ρ => by rw [h5]; exact (h3 ρ).1⟩
  | .mul l, y, h => fun hg => by
    obtain ⟨m, hm, h⟩ := bind_ok_inv h
    obtain ⟨h1, h2, h3⟩ := transML_same hf l m hm hg
    obtain ⟨h4, h5⟩ := hf _ _ h h1
    exact ⟨h4, fun ρ => by rw [h5]; exact (h3 ρ).2⟩
  | .sub a b, y, h => fun hg => by
    obtain ⟨a', ha, h⟩ := bind_ok_inv h
    obtain ⟨b', hb, h⟩ := bind_ok_inv h
    obtain ⟨h1, h2⟩ := transM_same hf a a' ha hg.1
    obtain ⟨h3, h4⟩ := transM_same hf b b' hb hg.2
    obtain ⟨h5, h6⟩ := hf _ _ h ⟨h1, h3⟩
    exact ⟨h5, fun ρ => by rw [h6, xval, xval, h2, h4]⟩
  | .div a b, y, h => fun hg => by
    obtain ⟨a', ha, h⟩ := bind_ok_inv h
    obtain ⟨b', hb, h⟩ := bind_ok_inv h
    obtain ⟨h1, h2⟩ := transM_same hf a a' ha hg.1
    obtain ⟨h3, h4⟩ := transM_same hf b b' hb hg.2
    obtain ⟨h5, h6⟩ := hf _ _ h ⟨h1, h3⟩
    exact ⟨h5, fun ρ => by rw [h6, xval, xval, h2, h4]⟩
  | .mod a b, y, h => fun hg => by
    obtain ⟨a', ha, h⟩ := bind_ok_inv h
    obtain ⟨b', hb, h⟩ := bind_ok_inv h
    obtain ⟨h1, h2⟩ := transM_same hf a a' ha hg.1
    obtain ⟨h3, h4⟩ := transM_same hf b b' hb hg.2
    obtain ⟨h5, h6⟩ := hf _ _ h ⟨h1, h3⟩
    exact ⟨h5, fun ρ => by rw [h6, xval, xval, h2, h4]⟩
  | .neg a, y, h => fun hg => by
    obtain ⟨a', ha, h⟩ := bind_ok_inv h
    obtain ⟨h1, h2⟩ := transM_same hf a a' ha hg
    obtain ⟨h5, h6⟩ := hf _ _ h h1
    exact ⟨h5, fun ρ => by rw [h6, xval, xval, h2]⟩
theorem transML_same {S : XVar → Prop} {f : X → Except XErr X} (hf : ∀ x y, f x = .ok y → Same S x y) :
    ∀ (l m : List X), transML f l = .ok m → SameL S l m
  | [], m, h => by
    cases h
    exact fun _ => ⟨trivial, fun h => h, fun _ => ⟨rfl, rfl⟩⟩
  | x :: xs, m, h => fun hg => by
    obtain ⟨x', hx, h⟩ := bind_ok_inv h
    obtain ⟨xs', hxs, h⟩ := bind_ok_inv h
    cases h
    obtain ⟨h1, h2⟩ := transM_same hf x x' hx hg.1
    obtain ⟨h3, _, h4⟩ := transML_same hf xs xs' hxs hg.2
    refine ⟨⟨h1, h3⟩, fun _ => by simp, fun ρ => ⟨?_, ?_⟩⟩
    · rw [xsum, xsum, h2, (h4 ρ).1]
    · rw [xprod, xprod, h2, (h4 ρ).2]
end

/-! The single steps -/

theorem elimSub_same {S : XVar → Prop} (x : X) : Same S x (elimSub x) := by
  cases x with
  | sub a b =>
    intro h
    refine ⟨⟨by simp, h.1, h.2, trivial⟩, fun ρ => ?_⟩
    simp only [elimSub, xval, xsum]
    cases xval ρ a with
    | none => rfl
    | some x => cases xval ρ b with
      | none => rfl
      | some y => simp [sub_eq_add_neg]
  | _ => exact Same.refl _

theorem litVal_int (n : Int) : litVal (intStr n) = n := by
  have : pyInt (intStr n) = some n := by
    have := pyInt_intStr_rjust n 0
    simpa [rjust] using this
  simp [litVal, this]

theorem elimNeg_same {S : XVar → Prop} (x : X) : Same S x (elimNeg x) := by
  cases x with
  | neg a =>
    intro h
    refine ⟨⟨trivial, h, trivial⟩, fun ρ => ?_⟩
    simp only [elimNeg, xval, xprod]
    have : litVal ['-', '1'] = -1 := by
      rw [← (by decide +kernel : intStr (-1) = ['-', '1']), litVal_int]
      norm_num
    rw [this]
    cases xval ρ a with
    | none => rfl
    | some x => simp
  | _ => exact Same.refl _

theorem lit_one : litVal ['1'] = 1 := (litVal_int 1).trans (by norm_num)

theorem divOut_same {S : XVar → Prop} (x : X) : Same S x (divOut x) := by
  cases x with
  | div a b =>
    intro h
    refine ⟨⟨h.1, ⟨trivial, h.2⟩, trivial⟩, fun ρ => ?_⟩
    simp only [divOut, xval, xprod, lit_one]
    cases xval ρ a with
    | none => rfl
    | some x => cases xval ρ b with
      | none => rfl
      | some y =>
        simp only [Option.bind_some]
        split
        · rfl
        · simp [div_eq_mul_inv]
  | _ => exact Same.refl _

theorem xsum_append (ρ : XEnv) (l m : List X) :
    xsum ρ (l ++ m) = (xsum ρ l).bind fun a => (xsum ρ m).bind fun b => some (a + b) := by
  induction l with
  | nil => simp [xsum]
  | cons x xs ih =>
    simp only [List.cons_append, xsum, ih]
    cases xval ρ x <;> [rfl; skip]
    cases xsum ρ xs <;> [rfl; skip]
    cases xsum ρ m <;> [rfl; skip]
    simp [add_assoc]

theorem xprod_append (ρ : XEnv) (l m : List X) :
    xprod ρ (l ++ m) = (xprod ρ l).bind fun a => (xprod ρ m).bind fun b => some (a * b) := by
  induction l with
  | nil => simp [xprod]
  | cons x xs ih =>
    simp only [List.cons_append, xprod, ih]
    cases xval ρ x <;> [rfl; skip]
    cases xprod ρ xs <;> [rfl; skip]
    cases xprod ρ m <;> [rfl; skip]
    simp [mul_assoc]

theorem GoodL_append {S : XVar → Prop} {l m : List X} : GoodL S (l ++ m) ↔ GoodL S l ∧ GoodL S m := by
  simp only [GoodL_iff, List.mem_append]
  exact ⟨fun h => ⟨fun x hx => h x (Or.inl hx), fun x hx => h x (Or.inr hx)⟩,
    fun h x hx => hx.elim (h.1 x) (h.2 x)⟩

theorem mulParts_same {S : XVar → Prop} : ∀ l : List X, GoodL S l →
    GoodL S (mulParts l) ∧ ∀ ρ, xprod ρ (mulParts l) = xprod ρ l := by
  intro l
  induction l with
  | nil => intro h; exact ⟨h, fun _ => rfl⟩
  | cons x xs ih =>
    intro h
    obtain ⟨h1, h2⟩ := ih h.2
    cases x with
    | mul l =>
      refine ⟨GoodL_append.mpr ⟨h.1, h1⟩, fun ρ => ?_⟩
      rw [mulParts, xprod_append, h2, xprod, xval]
    | _ => exact ⟨⟨h.1, h1⟩, fun ρ => by simp only [mulParts, xprod, h2]⟩

theorem flatMul_same {S : XVar → Prop} (x : X) : Same S x (flatMul x) := by
  cases x with
  | mul l => exact fun h => mulParts_same l h
  | _ => exact Same.refl _

theorem addParts_same {S : XVar → Prop} : ∀ l : List X, GoodL S l →
    GoodL S (addParts l) ∧ (l ≠ [] → addParts l ≠ []) ∧ ∀ ρ, xsum ρ (addParts l) = xsum ρ l := by
  intro l
  induction l with
  | nil => intro h; exact ⟨h, fun h => h, fun _ => rfl⟩
  | cons x xs ih =>
    intro h
    obtain ⟨h1, _, h2⟩ := ih h.2
    cases x with
    | add l =>
      refine ⟨GoodL_append.mpr ⟨h.1.2, h1⟩, fun _ => by simp [addParts, h.1.1], fun ρ => ?_⟩
      rw [addParts, xsum_append, h2, xsum, xval]
    | _ => exact ⟨⟨h.1, h1⟩, fun _ => by simp [addParts], fun ρ => by simp only [addParts, xsum, h2]⟩

theorem flatAdd_same {S : XVar → Prop} (x : X) : Same S x (flatAdd x) := by
  cases x with
  | add l => exact fun h => ⟨⟨(addParts_same l h.2).2.1 h.1, (addParts_same l h.2).1⟩, (addParts_same l h.2).2.2⟩
  | _ => exact Same.refl _

theorem int_val {x : X} {n : Int} (h : x.int? = some n) (ρ : XEnv) : xval ρ x = some (n : ℚ) := by
  cases x <;> simp only [X.int?, reduceCtorEq] at h
  simp only [xval, litVal, h]

theorem splitProd_val (ρ : XEnv) : ∀ l : List X,
    xprod ρ l = (xprod ρ (splitProd l).2).bind fun b => some (b * ((splitProd l).1 : ℚ)) := by
  intro l
  induction l with
  | nil => simp [splitProd, xprod]
  | cons x xs ih =>
    simp only [splitProd, xprod, ih]
    cases hx : x.int? with
    | some n =>
      rw [int_val hx]
      simp only [Option.bind_some]
      cases xprod ρ (splitProd xs).2 <;> [rfl; skip]
      simp only [Option.bind_some, Int.cast_mul]
      congr 1
      ring
    | none =>
      simp only [xprod]
      cases xval ρ x <;> [rfl; skip]
      cases xprod ρ (splitProd xs).2 <;> [rfl; skip]
      simp only [Option.bind_some]
      congr 1
      ring

theorem splitSum_val (ρ : XEnv) : ∀ l : List X,
    xsum ρ l = (xsum ρ (splitSum l).2).bind fun b => some (b + ((splitSum l).1 : ℚ)) := by
  intro l
  induction l with
  | nil => simp [splitSum, xsum]
  | cons x xs ih =>
    simp only [splitSum, xsum, ih]
    cases hx : x.int? with
    | some n =>
      rw [int_val hx]
      simp only [Option.bind_some]
      cases xsum ρ (splitSum xs).2 <;> [rfl; skip]
      simp only [Option.bind_some, Int.cast_add]
      congr 1
      ring
    | none =>
      simp only [xsum]
      cases xval ρ x <;> [rfl; skip]
      cases xsum ρ (splitSum xs).2 <;> [rfl; skip]
      simp only [Option.bind_some]
      congr 1
      ring

theorem foldMul_val (ρ : XEnv) (x : X) : xval ρ (foldMul x) = xval ρ x := by
  cases x with
  | mul l =>
    have h1 : ∀ fs : List X, xval ρ (unwrap .mul fs) = xprod ρ fs := by
      intro fs
      match fs with
      | [] => rfl
      | [x] => simp only [unwrap, xprod]; cases xval ρ x <;> simp
      | _ :: _ :: _ => rfl
    have h2 := splitProd_val ρ l
    simp only [foldMul]
    rw [h1, xval, h2]
    split
    · rw [xprod_append]
      simp only [xprod, xval, litVal_int, Option.bind_some, mul_one]
    · rename_i hn
      have : (splitProd l).1 = 1 := by
        by_contra hc
        exact hn (Or.inl hc)
      rw [this]
      cases xprod ρ (splitProd l).2 <;> simp
  | _ => rfl

theorem foldAdd_val (ρ : XEnv) (x : X) : xval ρ (foldAdd x) = xval ρ x := by
  cases x with
  | add l =>
    have h1 : ∀ fs : List X, xval ρ (unwrap .add fs) = xsum ρ fs := by
      intro fs
      match fs with
      | [] => rfl
      | [x] => simp only [unwrap, xsum]; cases xval ρ x <;> simp
      | _ :: _ :: _ => rfl
    have h2 := splitSum_val ρ l
    simp only [foldAdd]
    rw [h1, xval, h2]
    split
    · rw [xsum_append]
      simp only [xsum, xval, litVal_int, Option.bind_some, add_zero]
    · rename_i hn
      rw [not_not.mp hn]
      cases xsum ρ (splitSum l).2 <;> simp
  | _ => rfl

theorem foldInt_val (ρ : XEnv) (x : X) : xval ρ (foldInt x) = xval ρ x := by
  cases x with
  | add l => exact foldAdd_val ρ (.add l)
  | mul l => exact foldMul_val ρ (.mul l)
  | _ => rfl

mutual
theorem trans_val {f : X → X} {ρ : XEnv} (hf : ∀ x, xval ρ (f x) = xval ρ x) : ∀ x : X, xval ρ (x.trans f) = xval ρ x
  | .num t => hf _
  | .var v => hf _
  | .add l => by rw [X.trans, hf]; exact (transL_val hf l).1
  | .mul l => by rw [X.trans, hf]; exact (transL_val hf l).2
  | .sub a b => by rw [X.trans, hf, xval, xval, trans_val hf a, trans_val hf b]
  | .div a b => by rw [X.trans, hf, xval, xval, trans_val hf a, trans_val hf b]
  | .mod a b => by rw [X.trans, hf, xval, xval, trans_val hf a, trans_val hf b]
  | .neg a => by rw [X.trans, hf, xval, xval, trans_val hf a]
theorem transL_val {f : X → X} {ρ : XEnv} (hf : ∀ x, xval ρ (f x) = xval ρ x) : ∀ l : List X,
    xsum ρ (transL f l) = xsum ρ l ∧ xprod ρ (transL f l) = xprod ρ l
  | [] => ⟨rfl, rfl⟩
  | x :: xs => by
    rw [transL, xsum, xsum, xprod, xprod, trans_val hf x, (transL_val hf xs).1, (transL_val hf xs).2]
    exact ⟨rfl, rfl⟩
end

/-! Expanding products -/

theorem xsum_map_mul (ρ : XEnv) (y : X) : ∀ m : List X, m ≠ [] →
    xsum ρ (m.map fun t => .mul [y, t]) = (xval ρ y).bind fun a => (xsum ρ m).bind fun b => some (a * b) := by
  intro m
  induction m with
  | nil => intro h; exact absurd rfl h
  | cons t ts ih =>
    intro _
    simp only [List.map_cons, xsum, xval, xprod]
    cases hts : ts with
    | nil =>
      cases xval ρ y <;> [rfl; skip]
      cases xval ρ t <;> [rfl; skip]
      simp [xsum]
    | cons t' ts' =>
      rw [← hts, ih (by rw [hts]; simp)]
      cases xval ρ y <;> [rfl; skip]
      cases xval ρ t <;> [rfl; skip]
      cases xsum ρ ts <;> [rfl; skip]
      simp [mul_add]

theorem xsum_flatMap_mul (ρ : XEnv) (m : List X) (hm : m ≠ []) : ∀ l : List X, l ≠ [] →
    xsum ρ (l.flatMap fun t1 => m.map fun t2 => .mul [t1, t2]) =
      (xsum ρ l).bind fun a => (xsum ρ m).bind fun b => some (a * b) := by
  intro l
  induction l with
  | nil => intro h; exact absurd rfl h
  | cons t ts ih =>
    intro _
    rw [List.flatMap_cons, xsum_append, xsum_map_mul ρ t m hm]
    cases hts : ts with
    | nil =>
      simp only [List.flatMap_nil, xsum]
      cases xval ρ t <;> [rfl; skip]
      cases xsum ρ m <;> [rfl; skip]
      simp
    | cons t' ts' =>
      rw [← hts, ih (by rw [hts]; simp), xsum]
      cases xval ρ t <;> [rfl; skip]
      cases hm' : xsum ρ m with
      | none => cases xsum ρ ts <;> simp
      | some b =>
        cases xsum ρ ts <;> [rfl; skip]
        simp [add_mul]

theorem expand2_same {S : XVar → Prop} (x y : X) (hx : x.Good S) (hy : y.Good S) :
    (expand2 x y).Good S ∧ ∀ ρ, xval ρ (expand2 x y) = (xval ρ x).bind fun a => (xval ρ y).bind fun b => some (a * b) := by
  have hpair : ∀ a b : X, a.Good S → b.Good S → (X.mul [a, b]).Good S := fun a b ha hb => ⟨ha, hb, trivial⟩
  have hone : ∀ ρ, xval ρ (.mul [x, y]) = (xval ρ x).bind fun a => (xval ρ y).bind fun b => some (a * b) := by
    intro ρ
    simp only [xval, xprod]
    cases xval ρ x <;> [rfl; skip]
    cases xval ρ y <;> [rfl; skip]
    simp
  by_cases h1 : ∃ l, x = .add l
  · obtain ⟨l, rfl⟩ := h1
    by_cases h2 : ∃ m, y = .add m
    · obtain ⟨m, rfl⟩ := h2
      refine ⟨⟨?_, GoodL_iff.mpr ?_⟩, fun ρ => ?_⟩
      · obtain ⟨t, ht⟩ := List.exists_mem_of_ne_nil _ hx.1
        obtain ⟨u, hu⟩ := List.exists_mem_of_ne_nil _ hy.1
        exact List.ne_nil_of_mem (List.mem_flatMap.mpr ⟨t, ht, List.mem_map_of_mem hu⟩)
      · intro z hz
        obtain ⟨t, ht, hz⟩ := List.mem_flatMap.mp hz
        obtain ⟨u, hu, rfl⟩ := List.mem_map.mp hz
        exact hpair _ _ (GoodL_iff.mp hx.2 t ht) (GoodL_iff.mp hy.2 u hu)
      · exact xsum_flatMap_mul ρ m hy.1 l hx.1
    · have e : expand2 (.add l) y = .add (l.map fun t => .mul [y, t]) := by
        cases y <;> first | rfl | exact absurd ⟨_, rfl⟩ h2
      rw [e]
      refine ⟨⟨by simpa using hx.1, GoodL_iff.mpr ?_⟩, fun ρ => ?_⟩
      · intro z hz
        obtain ⟨u, hu, rfl⟩ := List.mem_map.mp hz
        exact hpair _ _ hy (GoodL_iff.mp hx.2 u hu)
      · rw [xval, xsum_map_mul ρ y l hx.1, xval]
        cases xval ρ y <;> cases xsum ρ l <;> simp [mul_comm]
  · by_cases h2 : ∃ m, y = .add m
    · obtain ⟨m, rfl⟩ := h2
      have e : expand2 x (.add m) = .add (m.map fun t => .mul [x, t]) := by
        cases x <;> first | rfl | exact absurd ⟨_, rfl⟩ h1
      rw [e]
      refine ⟨⟨by simpa using hy.1, GoodL_iff.mpr ?_⟩, fun ρ => ?_⟩
      · intro z hz
        obtain ⟨u, hu, rfl⟩ := List.mem_map.mp hz
        exact hpair _ _ hx (GoodL_iff.mp hy.2 u hu)
      · rw [xval, xsum_map_mul ρ x m hy.1, xval]
    · have e : expand2 x y = .mul [x, y] := by
        cases x <;> first | exact absurd ⟨_, rfl⟩ h1 | (cases y <;> first | rfl | exact absurd ⟨_, rfl⟩ h2)
      rw [e]
      exact ⟨hpair _ _ hx hy, hone⟩

theorem foldl_expand2 {S : XVar → Prop} : ∀ (xs : List X) (x : X), x.Good S → GoodL S xs →
    (xs.foldl expand2 x).Good S ∧
      ∀ ρ, xval ρ (xs.foldl expand2 x) = (xval ρ x).bind fun a => (xprod ρ xs).bind fun b => some (a * b) := by
  intro xs
  induction xs with
  | nil => intro x hx _; exact ⟨hx, fun ρ => by simp only [List.foldl_nil, xprod]; cases xval ρ x <;> simp⟩
  | cons y ys ih =>
    intro x hx hxs
    obtain ⟨h1, h2⟩ := expand2_same x y hx hxs.1
    obtain ⟨h3, h4⟩ := ih _ h1 hxs.2
    refine ⟨h3, fun ρ => ?_⟩
    rw [List.foldl_cons, h4, h2, xprod]
    cases xval ρ x <;> [rfl; skip]
    cases xval ρ y <;> [rfl; skip]
    cases xprod ρ ys <;> [rfl; skip]
    simp [mul_assoc]

theorem expandProd_same {S : XVar → Prop} (x : X) : Same S x (expandProd x) := by
  cases x with
  | mul l =>
    intro h
    cases l with
    | nil => exact ⟨h, fun _ => rfl⟩
    | cons x xs =>
      obtain ⟨h1, h2⟩ := foldl_expand2 xs x h.1 h.2
      obtain ⟨h3, h4⟩ := trans_same (S := S) flatMul_same _ h1
      exact ⟨h3, fun ρ => by rw [expandProd, h4, h2, xval, xprod]⟩
  | _ => exact Same.refl _

theorem normalize_same {S : XVar → Prop} (x : X) : Same S x (normalize x) := by
  unfold normalize
  exact (trans_same elimSub_same x).trans' <| (trans_same elimNeg_same _).trans' <| (trans_same divOut_same _).trans' <|
    (trans_same flatMul_same _).trans' <| (trans_same flatAdd_same _).trans' <| (trans_same expandProd_same _).trans' <|
    trans_same flatAdd_same _

/-! Common factors -/

theorem dropFactor_val {S : XVar → Prop} (hS : OneIdx S) (f : X) (hf : f.Good S) : ∀ (l m : List X), GoodL S l →
    dropFactor f l = some m → GoodL S m ∧ ∀ ρ, xprod ρ l = (xval ρ f).bind fun a => (xprod ρ m).bind fun b => some (a * b) := by
  intro l
  induction l with
  | nil => intro m _ h; cases h
  | cons c cs ih =>
    intro m hl h
    simp only [dropFactor] at h
    split at h
    · rename_i hc
      cases h
      rw [eqv_eq hS c f hl.1 hf hc]
      exact ⟨hl.2, fun ρ => by rw [xprod]⟩
    · cases hd : dropFactor f cs with
      | none => rw [hd] at h; cases h
      | some m' =>
        rw [hd] at h
        cases h
        obtain ⟨h1, h2⟩ := ih m' hl.2 hd
        refine ⟨⟨hl.1, h1⟩, fun ρ => ?_⟩
        rw [xprod, h2, xprod]
        cases xval ρ c <;> cases xval ρ f <;> cases xprod ρ m' <;> simp [mul_left_comm]

/-- removing a factor: the product with the factor is the former value -/
theorem removeFactor_val {S : XVar → Prop} (hS : OneIdx S) {node f y : X} (hn : node.Good S) (hf : f.Good S)
    (h : removeFactor true node f = .ok y) :
    y.Good S ∧ ∀ ρ, xval ρ node = (xval ρ f).bind fun a => (xval ρ y).bind fun b => some (a * b) := by
  have hone : ∀ x : X, x.Good S → (if f.eqv x then Except.ok (X.num ['1']) else .error XErr.noFactor) = .ok y →
      y.Good S ∧ ∀ ρ, xval ρ x = (xval ρ f).bind fun a => (xval ρ y).bind fun b => some (a * b) := by
    intro x hx h
    split at h
    · rename_i he
      cases h
      rw [eqv_eq hS f x hf hx he]
      refine ⟨trivial, fun ρ => ?_⟩
      simp only [xval, lit_one]
      cases xval ρ x <;> simp
    · cases h
  cases node with
  | mul l =>
    simp only [removeFactor] at h
    cases hd : dropFactor f l with
    | none => rw [hd] at h; cases h
    | some m =>
      rw [hd] at h
      cases m with
      | nil => cases h
      | cons c cs =>
        cases h
        exact dropFactor_val hS f hf l _ hn hd
  | _ => exact hone _ hn h

theorem removeAll_val {S : XVar → Prop} (hS : OneIdx S) {f : X} (hf : f.Good S) : ∀ (ts ms : List X), GoodL S ts →
    removeAll true f ts = .ok ms → ts ≠ [] → ms ≠ [] ∧ GoodL S ms ∧
      ∀ ρ, xsum ρ ts = (xval ρ f).bind fun a => (xsum ρ ms).bind fun b => some (a * b) := by
  intro ts
  induction ts with
  | nil => intro ms _ _ h; exact absurd rfl h
  | cons t ts ih =>
    intro ms hg h _
    obtain ⟨y, hy, h⟩ := bind_ok_inv h
    obtain ⟨ys, hys, h⟩ := bind_ok_inv h
    cases h
    obtain ⟨h1, h2⟩ := removeFactor_val hS hg.1 hf hy
    cases hts : ts with
    | nil =>
      rw [hts] at hys
      cases hys
      refine ⟨by simp, ⟨h1, trivial⟩, fun ρ => ?_⟩
      simp only [xsum, h2]
      cases xval ρ f <;> [rfl; skip]
      cases xval ρ y <;> simp
    | cons t' ts' =>
      obtain ⟨_, h3, h4⟩ := ih ys hg.2 hys (by rw [hts]; simp)
      refine ⟨by simp, ⟨h1, h3⟩, fun ρ => ?_⟩
      rw [xsum, ← hts, h2, h4, xsum]
      cases xval ρ f <;> [rfl; skip]
      cases xval ρ y <;> [rfl; skip]
      cases xsum ρ ys <;> [rfl; skip]
      simp [mul_add]

theorem joinTerms_val {S : XVar → Prop} {ms : List X} (hne : ms ≠ []) (hg : GoodL S ms) :
    (joinTerms ms).Good S ∧ ∀ ρ, xval ρ (joinTerms ms) = xsum ρ ms := by
  match ms, hne with
  | [x], _ => exact ⟨hg.1, fun ρ => by simp only [joinTerms, xsum]; cases xval ρ x <;> simp⟩
  | x :: y :: ys, _ => exact ⟨⟨by simp, hg⟩, fun ρ => rfl⟩

theorem extractFactor_same {S : XVar → Prop} (hS : OneIdx S) {node f y : X} (hf : f.Good S)
    (h : extractFactor true node f = .ok y) : Same S node y ∧ ∃ r, y = .mul [f, r] := by
  have hpair : ∀ (ts ms : List X), ts ≠ [] → GoodL S ts → removeAll true f ts = .ok ms →
      (X.mul [f, joinTerms ms]).Good S ∧ ∀ ρ, xval ρ (.mul [f, joinTerms ms]) = xsum ρ ts := by
    intro ts ms hne hg hr
    obtain ⟨h1, h2, h3⟩ := removeAll_val hS hf ts ms hg hr hne
    obtain ⟨h4, h5⟩ := joinTerms_val h1 h2
    refine ⟨⟨hf, h4, trivial⟩, fun ρ => ?_⟩
    rw [h3]
    simp only [xval, xprod, h5]
    cases xval ρ f <;> [rfl; skip]
    cases xsum ρ ms <;> simp
  cases node with
  | add ts =>
    obtain ⟨ms, hm, h⟩ := bind_ok_inv h
    cases h
    exact ⟨fun hg => hpair ts ms hg.1 hg.2 hm, _, rfl⟩
  | mul l =>
    obtain ⟨ms, hm, h⟩ := bind_ok_inv h
    cases h
    refine ⟨fun hg => ?_, _, rfl⟩
    obtain ⟨h1, h2⟩ := hpair [.mul l] ms (by simp) ⟨hg, trivial⟩ hm
    refine ⟨h1, fun ρ => ?_⟩
    rw [h2]
    simp only [xsum]
    cases xval ρ (.mul l) <;> simp
  | _ => cases h

theorem keyAdd_mem {l : List X} {k x : X} (h : x ∈ keyAdd l k) : x ∈ l ∨ x = k := by
  unfold keyAdd at h
  split at h
  · exact Or.inl h
  · simpa using h

theorem foldl_keyAdd_mem : ∀ (l acc : List X) (x : X), x ∈ l.foldl keyAdd acc → x ∈ acc ∨ x ∈ l := by
  intro l
  induction l with
  | nil => intro acc x h; exact Or.inl h
  | cons k l ih =>
    intro acc x h
    rcases ih _ x h with h | h
    · rcases keyAdd_mem h with h | h
      · exact Or.inl h
      · exact Or.inr (by simp [h])
    · exact Or.inr (by simp [h])

theorem factorSets_mem {x : X} : ∀ (ts seen : List X), x ∈ (factorSets seen ts).flatten →
    ∃ t ∈ ts, x = t ∨ ∃ l, t = .mul l ∧ x ∈ l := by
  intro ts
  induction ts with
  | nil => intro seen h; simp [factorSets] at h
  | cons t ts ih =>
    intro seen h
    simp only [factorSets] at h
    split at h
    · obtain ⟨u, hu, h⟩ := ih seen h
      exact ⟨u, by simp [hu], h⟩
    · rw [List.flatten_cons, List.mem_append] at h
      rcases h with h | h
      · refine ⟨t, by simp, ?_⟩
        cases t with
        | mul l =>
          rcases foldl_keyAdd_mem l [] x h with h | h
          · cases h
          · exact Or.inr ⟨l, rfl, h⟩
        | _ => exact Or.inl (by simpa using h)
      · obtain ⟨u, hu, h⟩ := ih _ h
        exact ⟨u, by simp [hu], h⟩

theorem countAdd_mem : ∀ (l : List (X × Nat)) (k : X) (c : X × Nat), c ∈ countAdd l k →
    c.1 = k ∨ ∃ d ∈ l, d.1 = c.1 := by
  intro l
  induction l with
  | nil => intro k c h; simp only [countAdd, List.mem_singleton] at h; exact Or.inl (by rw [h])
  | cons d l ih =>
    obtain ⟨k', n⟩ := d
    intro k c h
    simp only [countAdd] at h
    split at h
    · rcases List.mem_cons.mp h with rfl | h
      · exact Or.inr ⟨(k', n), by simp, rfl⟩
      · exact Or.inr ⟨c, by simp [h], rfl⟩
    · rcases List.mem_cons.mp h with rfl | h
      · exact Or.inr ⟨(k', n), by simp, rfl⟩
      · rcases ih k c h with h | ⟨d, hd, h⟩
        · exact Or.inl h
        · exact Or.inr ⟨d, by simp [hd], h⟩

theorem foldl_countAdd_mem : ∀ (ks : List X) (acc : List (X × Nat)) (c : X × Nat), c ∈ ks.foldl countAdd acc →
    c.1 ∈ ks ∨ ∃ d ∈ acc, d.1 = c.1 := by
  intro ks
  induction ks with
  | nil => intro acc c h; exact Or.inr ⟨c, h, rfl⟩
  | cons k ks ih =>
    intro acc c h
    rcases ih _ c h with h | ⟨d, hd, h⟩
    · exact Or.inl (by simp [h])
    · rcases countAdd_mem acc k d hd with h' | ⟨e, he, h'⟩
      · exact Or.inl (by rw [← h, h']; simp)
      · exact Or.inr ⟨e, he, by rw [h', h]⟩

theorem mostCommon_good {S : XVar → Prop} {ts : List X} {f : X} (hg : GoodL S ts) (h : mostCommon ts = some f) :
    f.Good S := by
  unfold mostCommon at h
  obtain ⟨c, hc, rfl⟩ := Option.map_eq_some_iff.mp h
  have hm := List.mem_of_find?_eq_some hc
  rcases foldl_countAdd_mem _ _ c hm with h | ⟨d, hd, _⟩
  · obtain ⟨t, ht, h⟩ := factorSets_mem ts [] h
    rcases h with h | ⟨l, rfl, h⟩
    · rw [h]; exact GoodL_iff.mp hg t ht
    · exact GoodL_iff.mp (GoodL_iff.mp hg _ ht : GoodL S l) _ h
  · cases hd

theorem xsum_filter (ρ : XEnv) (p : X → Bool) : ∀ ts : List X,
    xsum ρ ts = (xsum ρ (ts.filter p)).bind fun a => (xsum ρ (ts.filter fun t => !p t)).bind fun b => some (a + b) := by
  intro ts
  induction ts with
  | nil => simp [xsum]
  | cons t ts ih =>
    rw [xsum, ih]
    cases hp : p t with
    | true =>
      rw [List.filter_cons_of_pos hp, List.filter_cons_of_neg (by simp [hp]), xsum]
      cases xval ρ t <;> [rfl; skip]
      cases xsum ρ (ts.filter p) <;> [rfl; skip]
      cases xsum ρ (ts.filter fun t => !p t) <;> [rfl; skip]
      simp [add_assoc]
    | false =>
      rw [List.filter_cons_of_neg (by simp [hp]), List.filter_cons_of_pos (by simp [hp]), xsum]
      cases xval ρ t <;> cases xsum ρ (ts.filter p) <;> cases xsum ρ (ts.filter fun t => !p t) <;>
        simp [add_left_comm]

theorem GoodL_filter {S : XVar → Prop} {ts : List X} (p : X → Bool) (h : GoodL S ts) : GoodL S (ts.filter p) :=
  GoodL_iff.mpr fun x hx => GoodL_iff.mp h x (List.mem_filter.mp hx).1

/-- taking out common factors keeps the value as long as no product with a single factor is met -/
theorem factorout_same {S : XVar → Prop} (hS : OneIdx S) : ∀ (n : Nat) (x y : X), factorout true n x = .ok y → Same S x y := by
  intro n
  induction n with
  | zero => intro x y h; cases x <;> cases h
  | succ n ih =>
    intro x y h
    by_cases hx : ∃ ts, x = .add ts
    · obtain ⟨ts, rfl⟩ := hx
      match ts with
      | [x0] =>
        cases h
        intro hg
        exact ⟨hg.2.1, fun ρ => by simp only [xval, xsum]; cases xval ρ y <;> simp⟩
      | [] =>
        intro hg
        exact absurd rfl hg.1
      | t1 :: t2 :: ts =>
        generalize hts : t1 :: t2 :: ts = l at h
        have e : factorout true (n + 1) (.add l) = match mostCommon l with
          | none => .error .emptyMax
          | some f =>
            if (l.filter fun t => hasFactor t f).length ≤ 1 then .ok (.add l)
            else do
              let new ← extractFactor true (.add (l.filter fun t => hasFactor t f)) f
              let new ← new.transM (factorout true n)
              match (l.filter fun t => !hasFactor t f) with
              | [] => return new
              | [t] => return .add [new, t]
              | terms2 => return .add [new, ← factorout true n (.add terms2)] := by
          rw [← hts]; rfl
        rw [e] at h
        intro hg
        cases hc : mostCommon l with
        | none => rw [hc] at h; cases h
        | some f =>
          rw [hc] at h
          dsimp only at h
          split at h
          · cases h; exact ⟨hg, fun _ => rfl⟩
          · rename_i hlen
            obtain ⟨e1, he1, h⟩ := bind_ok_inv h
            obtain ⟨e2, he2, h⟩ := bind_ok_inv h
            have hf := mostCommon_good hg.2 hc
            have hsame := (extractFactor_same hS hf he1).1.trans' (transM_same (fun x y h => ih x y h) e1 e2 he2)
            obtain ⟨g2, v2⟩ := hsame ⟨by intro h0; rw [h0] at hlen; simp at hlen, GoodL_filter _ hg.2⟩
            have hv : ∀ ρ, xval ρ (.add l) = (xval ρ e2).bind fun a =>
                (xsum ρ (l.filter fun t => !hasFactor t f)).bind fun b => some (a + b) := by
              intro ρ
              rw [xval, xsum_filter ρ (fun t => hasFactor t f) l, v2, xval]
            have hg3 := GoodL_filter (fun t => !hasFactor t f) hg.2
            generalize hl2 : (l.filter fun t => !hasFactor t f) = l2 at h hv hg3
            match l2 with
            | [] =>
              cases h
              refine ⟨g2, fun ρ => ?_⟩
              rw [hv, xsum]
              cases xval ρ y <;> simp
            | [t] =>
              cases h
              refine ⟨⟨by simp, g2, hg3.1, trivial⟩, fun ρ => ?_⟩
              rw [hv]
              simp only [xval, xsum]
            | u1 :: u2 :: us =>
              obtain ⟨e3, he3, h⟩ := bind_ok_inv h
              cases h
              obtain ⟨g4, v4⟩ := ih _ _ he3 ⟨by simp, hg3⟩
              refine ⟨⟨by simp, g2, g4, trivial⟩, fun ρ => ?_⟩
              rw [hv]
              simp only [xval] at v4
              rw [← v4 ρ]
              simp only [xval, xsum]
              cases xval ρ e2 <;> [rfl; skip]
              cases xval ρ e3 <;> simp
    · have e : factorout true (n + 1) x = .ok x := by
        cases x <;> first | rfl | exact absurd ⟨_, rfl⟩ hx
      rw [e] at h
      cases h
      exact Same.refl _

theorem simplify_val {S : XVar → Prop} (hS : OneIdx S) {n : Nat} {x y : X} (hg : x.Good S) (h : simplify true n x = .ok y)
    (ρ : XEnv) : xval ρ y = xval ρ x := by
  obtain ⟨x1, h1, h⟩ := bind_ok_inv h
  cases h
  have hs := (transM_same (fun x y h => factorout_same hS n x y h) x x1 h1).trans' <|
    (trans_same flatMul_same _).trans' (trans_same flatAdd_same _)
  rw [trans_val (foldInt_val ρ)]
  exact (hs hg).2 ρ

end Verif
