import Verif.Lemmas.Trafo

/-! C63, C64: the compiler's algebra. -/

namespace Verif
open Spec

/-! What the code does if the strict version succeeds -/

theorem removeFactor_lax {node f y : X} (h : removeFactor true node f = .ok y) : removeFactor false node f = .ok y := by
  cases node with
  | mul l =>
    simp only [removeFactor] at h ⊢
    cases hd : dropFactor f l with
    | none => rw [hd] at h; cases h
    | some m => rw [hd] at h; cases m with
      | nil => cases h
      | cons c cs => exact h
  | _ => exact h

theorem removeAll_lax {f : X} : ∀ {ts ms : List X}, removeAll true f ts = .ok ms → removeAll false f ts = .ok ms := by
  intro ts
  induction ts with
  | nil => intro ms h; exact h
  | cons t ts ih =>
    intro ms h
    obtain ⟨y, hy, h⟩ := bind_ok_inv h
    obtain ⟨ys, hys, h⟩ := bind_ok_inv h
    cases h
    rw [removeAll, removeFactor_lax hy, ih hys]
    rfl

theorem extractFactor_lax {node f y : X} (h : extractFactor true node f = .ok y) : extractFactor false node f = .ok y := by
  cases node with
  | add ts =>
    obtain ⟨ms, hm, h⟩ := bind_ok_inv h
    cases h
    rw [extractFactor, removeAll_lax hm]
    rfl
  | mul l =>
    obtain ⟨ms, hm, h⟩ := bind_ok_inv h
    cases h
    rw [extractFactor, removeAll_lax hm]
    rfl
  | _ => cases h

mutual
theorem transM_lax {f g : X → Except XErr X} (hf : ∀ x y, f x = .ok y → g x = .ok y) :
    ∀ (x y : X), x.transM f = .ok y → x.transM g = .ok y
  | .num t, y, h => hf _ _ h
  | .var v, y, h => hf _ _ h
  | .add l, y, h => by
    obtain ⟨m, hm, h⟩ := bind_ok_inv h
    rw [X.transM, transML_lax hf l m hm]; exact hf _ _ h
  | .mul l, y, h => by
    obtain ⟨m, hm, h⟩ := bind_ok_inv h
    rw [X.transM, transML_lax hf l m hm]; exact hf _ _ h
  | .sub a b, y, h => by
    obtain ⟨a', ha, h⟩ := bind_ok_inv h
    obtain ⟨b', hb, h⟩ := bind_ok_inv h
    rw [X.transM, transM_lax hf a a' ha, transM_lax hf b b' hb]; exact hf _ _ h
  | .div a b, y, h => by
    obtain ⟨a', ha, h⟩ := bind_ok_inv h
    obtain ⟨b', hb, h⟩ := bind_ok_inv h
    rw [X.transM, transM_lax hf a a' ha, transM_lax hf b b' hb]; exact hf _ _ h
  | .mod a b, y, h => by
    obtain ⟨a', ha, h⟩ := bind_ok_inv h
    obtain ⟨b', hb, h⟩ := bind_ok_inv h
    rw [X.transM, transM_lax hf a a' ha, transM_lax hf b b' hb]; exact hf _ _ h
  | .neg a, y, h => by
    obtain ⟨a', ha, h⟩ := bind_ok_inv h
    rw [X.transM, transM_lax hf a a' ha]; exact hf _ _ h
theorem transML_lax {f g : X → Except XErr X} (hf : ∀ x y, f x = .ok y → g x = .ok y) :
    ∀ (l m : List X), transML f l = .ok m → transML g l = .ok m
  | [], m, h => h
  | x :: xs, m, h => by
    obtain ⟨x', hx, h⟩ := bind_ok_inv h
    obtain ⟨xs', hxs, h⟩ := bind_ok_inv h
    rw [transML, transM_lax hf x x' hx, transML_lax hf xs xs' hxs]; exact h
end

theorem factorout_lax : ∀ (n : Nat) (x y : X), factorout true n x = .ok y → factorout false n x = .ok y := by
  intro n
  induction n with
  | zero => intro x y h; cases x <;> cases h
  | succ n ih =>
    intro x y h
    by_cases hx : ∃ ts, x = .add ts
    · obtain ⟨ts, rfl⟩ := hx
      by_cases h1 : ∃ x0, ts = [x0]
      · obtain ⟨x0, rfl⟩ := h1; exact h
      · have e : ∀ s, factorout s (n + 1) (.add ts) = match mostCommon ts with
          | none => .error .emptyMax
          | some f =>
            if (ts.filter fun t => hasFactor t f).length ≤ 1 then .ok (.add ts)
            else do
              let new ← extractFactor s (.add (ts.filter fun t => hasFactor t f)) f
              let new ← new.transM (factorout s n)
              match (ts.filter fun t => !hasFactor t f) with
              | [] => return new
              | [t] => return .add [new, t]
              | terms2 => return .add [new, ← factorout s n (.add terms2)] := by
          intro s
          match ts with
          | [] => rfl
          | [x0] => exact absurd ⟨x0, rfl⟩ h1
          | _ :: _ :: _ => rfl
        rw [e] at h ⊢
        cases hc : mostCommon ts with
        | none => rw [hc] at h; cases h
        | some f =>
          rw [hc] at h
          dsimp only at h ⊢
          split at h
          · rename_i hl; rw [if_pos hl]; exact h
          · rename_i hl
            rw [if_neg hl]
            obtain ⟨e1, he1, h⟩ := bind_ok_inv h
            obtain ⟨e2, he2, h⟩ := bind_ok_inv h
            rw [extractFactor_lax he1]
            change (do
              let new ← e1.transM (factorout false n)
              match (ts.filter fun t => !hasFactor t f) with
              | [] => return new
              | [t] => return .add [new, t]
              | terms2 => return .add [new, ← factorout false n (.add terms2)]) = _
            rw [transM_lax ih e1 e2 he2]
            generalize (ts.filter fun t => !hasFactor t f) = l2 at h
            match l2 with
            | [] => exact h
            | [t] => exact h
            | u1 :: u2 :: us =>
              obtain ⟨e3, he3, h⟩ := bind_ok_inv h
              change (do return X.add [e2, ← factorout false n (.add (u1 :: u2 :: us))]) = _
              rw [ih _ _ he3]
              exact h
    · have e : ∀ s, factorout s (n + 1) x = .ok x := by
        intro s
        cases x <;> first | rfl | exact absurd ⟨_, rfl⟩ hx
      rw [e] at h ⊢
      exact h

theorem simplify_lax {n : Nat} {x y : X} (h : simplify true n x = .ok y) : simplify false n x = .ok y := by
  obtain ⟨x1, h1, h⟩ := bind_ok_inv h
  rw [simplify, transM_lax (factorout_lax n) x x1 h1]
  exact h

/-! C64 -/

/-- a tree without empty sums, as the grammar gives -/
def X.Formed (x : X) : Prop := x.Good fun _ => True

/-- **C64** Normalising a tree keeps its value, for all values of the variables and all meanings of the modulo operator, and it
has no value after if and only if it had none before.  So does every step of it. -/
theorem C64_normalize (x : X) (h : x.Formed) (ρ : XEnv) : xval ρ (normalize x) = xval ρ x := (normalize_same x h).2 ρ

theorem C64_steps (x : X) (h : x.Formed) (ρ : XEnv) :
    xval ρ (x.trans elimSub) = xval ρ x ∧ xval ρ (x.trans elimNeg) = xval ρ x ∧ xval ρ (x.trans divOut) = xval ρ x ∧
    xval ρ (x.trans flatMul) = xval ρ x ∧ xval ρ (x.trans flatAdd) = xval ρ x ∧ xval ρ (x.trans expandProd) = xval ρ x :=
  ⟨(trans_same elimSub_same x h).2 ρ, (trans_same elimNeg_same x h).2 ρ, (trans_same divOut_same x h).2 ρ,
    (trans_same flatMul_same x h).2 ρ, (trans_same flatAdd_same x h).2 ρ, (trans_same expandProd_same x h).2 ρ⟩

/-- **C64** Folding integers keeps the value (a sum that vanishes becomes the empty sum, see `C64_empty_fails`). -/
theorem C64_fold (x : X) (ρ : XEnv) : xval ρ (x.trans foldInt) = xval ρ x := trans_val (foldInt_val ρ) x

/-- **C64** (partial) Taking out common factors and the simplification as a whole keep the value if variables of the same name have
the same indices and no product with a single factor loses it on the way.  Missing: these two cases, see `C64_index_fails`
and `C64_factor_fails`, and that the recursion ends, see `C64_recursion_fails`. -/
theorem C64_simplify_partial (S : XVar → Prop) (hS : OneIdx S) (n : Nat) (x y : X) (hg : x.Good S)
    (h : simplify true n x = .ok y) : simplify false n x = .ok y ∧ ∀ ρ, xval ρ y = xval ρ x :=
  ⟨simplify_lax h, simplify_val hS hg h⟩

theorem C64_factor_partial (S : XVar → Prop) (hS : OneIdx S) (n : Nat) (x y : X) (hg : x.Good S)
    (h : x.transM (factorout true n) = .ok y) :
    x.transM (factorout false n) = .ok y ∧ ∀ ρ, xval ρ y = xval ρ x :=
  ⟨transM_lax (factorout_lax n) x y h, (transM_same (factorout_same hS n) x y h hg).2⟩

def xv (s : String) : X := .var ⟨s.toList, []⟩
def xn (s : String) : X := .num s.toList
def xi (s i : String) : X := .var ⟨s.toList, [i.toList]⟩

/-- values for the examples -/
def exXEnv : XEnv :=
  { val := fun v =>
      if v = ⟨"a".toList, []⟩ then 2 else if v = ⟨"b".toList, []⟩ then 3 else if v = ⟨"c".toList, []⟩ then 5
      else if v = ⟨"x".toList, ["1".toList]⟩ then 7 else if v = ⟨"x".toList, ["2".toList]⟩ then 11
      else if v = cppVal then 16 else 0
    mo := fun _ _ => none }

/-- (a+2)*(b-c)/3 has the same value after normalisation; 2*a*b + 2*a*c is simplified to 2*a*(b+c), and the assumptions of the
theorem hold -/
example : xval exXEnv (normalize (.div (.mul [.add [xv "a", xn "2"], .sub (xv "b") (xv "c")]) (xn "3"))) = some (-8/3) := by
  decide +kernel
example : (match simplify true 9 (.add [.mul [xn "2", xv "a", xv "b"], .mul [xn "2", xv "a", xv "c"]]) with
    | .ok y => y.eqv (.mul [xv "a", .add [xv "b", xv "c"], xn "2"]) | .error _ => false) = true := by decide +kernel
example : OneIdx (fun v => v.idx = []) := by
  rintro ⟨n, i⟩ ⟨m, j⟩ h1 h2 h
  simp only at h1 h2 h
  rw [h1, h2, h]

/-- **C64** a*b + a*b*c becomes a*b*(b+c). -/
theorem C64_factor_fails : (match simplify false 9 (.add [.mul [xv "a", xv "b"], .mul [xv "a", xv "b", xv "c"]]) with
      | .ok y => y.eqv (.mul [xv "a", xv "b", .add [xv "b", xv "c"]]) && decide (xval exXEnv y = some 48)
      | .error _ => false) = true ∧
    xval exXEnv (.add [.mul [xv "a", xv "b"], .mul [xv "a", xv "b", xv "c"]]) = some 36 := by
  decide +kernel

/-- **C64** x[1]*a + x[2]*b becomes x[1]*(a+b). -/
theorem C64_index_fails : (match simplify false 9 (.add [.mul [xi "x" "1", xv "a"], .mul [xi "x" "2", xv "b"]]) with
      | .ok y => decide (xval exXEnv y = some 35)
      | .error _ => false) = true ∧
    xval exXEnv (.add [.mul [xi "x" "1", xv "a"], .mul [xi "x" "2", xv "b"]]) = some 47 := by
  decide +kernel

/-- **C64** Simplifying a sum with the same integer or variable twice (like a + a) ends in a RecursionError. -/
theorem ones_recursion (s : Bool) (n : Nat) : factorout s n (.add [xn "1", xn "1"]) = .error .recursion := by
  induction n with
  | zero => rfl
  | succ n ih =>
    have e : factorout s (n + 1) (.add [xn "1", xn "1"]) =
        ((X.mul [xn "1", .add [xn "1", xn "1"]]).transM (factorout s n) >>= fun new => .ok new) := by
      have h1 : mostCommon [xn "1", xn "1"] = some (xn "1") := rfl
      rfl
    rw [e]
    cases n with
    | zero => rfl
    | succ m =>
      have h2 : (X.mul [xn "1", .add [xn "1", xn "1"]]).transM (factorout s (m + 1)) = .error .recursion := by
        have h3 : factorout s (m + 1) (xn "1") = .ok (xn "1") := rfl
        simp only [X.transM, transML]
        change ((do
          let l ← (do
            let a ← factorout s (m + 1) (xn "1")
            let as ← (do
              let b ← (do
                let bs ← (do
                  let c ← factorout s (m + 1) (xn "1")
                  let cs ← (do
                    let d ← factorout s (m + 1) (xn "1")
                    let ds ← Except.ok []
                    pure (d :: ds))
                  pure (c :: cs))
                factorout s (m + 1) (.add bs))
              let ds ← Except.ok []
              pure (b :: ds))
            pure (a :: as))
          factorout s (m + 1) (.mul l)) : Except XErr X) = _
        rw [h3]
        change (do
          let l ← (do
            let as ← (do
              let b ← factorout s (m + 1) (.add [xn "1", xn "1"])
              let ds ← Except.ok []
              pure (b :: ds))
            pure (xn "1" :: as))
          factorout s (m + 1) (.mul l)) = _
        rw [ih]
        rfl
      rw [h2]
      rfl

theorem C64_recursion_fails (n : Nat) : simplify false n (.add [xn "1", xn "1"]) = .error .recursion := by
  have h3 : ∀ m, factorout false (m + 1) (xn "1") = .ok (xn "1") := fun _ => rfl
  cases n with
  | zero => rfl
  | succ m =>
    have : (X.add [xn "1", xn "1"]).transM (factorout false (m + 1)) = .error .recursion :=
      ones_recursion false (m + 1)
    rw [simplify, this]
    rfl

/-- **C64** The sum of 1 and -1 is folded to a sum without terms, whose C++ text is a pair of brackets. -/
theorem C64_empty_fails : ((X.add [xn "1", xn "-1"]).trans foldInt).str = "()".toList := by decide +kernel

/-! C63 -/

/-- the environment with another value for a variable -/
def Spec.XEnv.upd (ρ : XEnv) (v : XVar) (r : ℚ) : XEnv := { ρ with val := fun w => if w = v then r else ρ.val w }

mutual
theorem val_upd {ρ : XEnv} {v : XVar} {r : ℚ} : ∀ x : X, x.hasVar v = false → xval (ρ.upd v r) x = xval ρ x
  | .num t, _ => rfl
  | .var w, h => by
    have : w ≠ v := by rintro rfl; simp [X.hasVar] at h
    simp only [xval, Spec.XEnv.upd, if_neg this]
  | .add l, h => by
    simp only [X.hasVar] at h
    exact (valL_upd l h).1
  | .mul l, h => by
    simp only [X.hasVar] at h
    exact (valL_upd l h).2
  | .sub a b, h => by
    simp only [X.hasVar, Bool.or_eq_false_iff] at h
    simp only [xval, val_upd a h.1, val_upd b h.2]
  | .div a b, h => by
    simp only [X.hasVar, Bool.or_eq_false_iff] at h
    simp only [xval, val_upd a h.1, val_upd b h.2]
  | .mod a b, h => by
    simp only [X.hasVar, Bool.or_eq_false_iff] at h
    simp only [xval, val_upd a h.1, val_upd b h.2]
    rfl
  | .neg a, h => by
    simp only [X.hasVar] at h
    simp only [xval, val_upd a h]
theorem valL_upd {ρ : XEnv} {v : XVar} {r : ℚ} : ∀ l : List X, hasVarL v l = false →
    xsum (ρ.upd v r) l = xsum ρ l ∧ xprod (ρ.upd v r) l = xprod ρ l
  | [], _ => ⟨rfl, rfl⟩
  | x :: xs, h => by
    simp only [hasVarL, Bool.or_eq_false_iff] at h
    simp only [xsum, xprod, val_upd x h.1, valL_upd xs h.2]
    exact ⟨trivial, trivial⟩
end

theorem hasVarL_false {v : XVar} {l : List X} (h : ∀ x ∈ l, x.hasVar v = false) : hasVarL v l = false := by
  induction l with
  | nil => rfl
  | cons x xs ih =>
    simp only [hasVarL, Bool.or_eq_false_iff]
    exact ⟨h x (by simp), ih fun y hy => h y (by simp [hy])⟩

theorem subtractConsts_val {S : XVar → Prop} {v : XVar} : ∀ (ts : List X) (rhs : X), rhs.Good S → GoodL S ts →
    (subtractConsts v rhs ts).Good S ∧ ∀ ρ, xval ρ (subtractConsts v rhs ts) =
      (xval ρ rhs).bind fun a => (xsum ρ (ts.filter fun t => !t.hasVar v)).bind fun b => some (a - b) := by
  intro ts
  induction ts with
  | nil => intro rhs h _; exact ⟨h, fun ρ => by simp only [subtractConsts, List.filter_nil, xsum]; cases xval ρ rhs <;> simp⟩
  | cons t ts ih =>
    intro rhs h hg
    rw [subtractConsts]
    cases ht : t.hasVar v with
    | true =>
      rw [List.filter_cons_of_neg (by simp [ht])]
      exact ih rhs h hg.2
    | false =>
      obtain ⟨h1, h2⟩ := ih (.sub rhs t) ⟨h, hg.1⟩ hg.2
      refine ⟨h1, fun ρ => ?_⟩
      rw [List.filter_cons_of_pos (by simp [ht]), if_neg (by simp), h2, xval, xsum]
      cases xval ρ rhs <;> [rfl; skip]
      cases xval ρ t <;> [rfl; skip]
      cases xsum ρ (ts.filter fun t => !t.hasVar v) <;> [rfl; skip]
      simp only [Option.bind_some]
      congr 1
      ring

/-- the equation after the terms without the variable have been moved -/
theorem moveConsts_val {S : XVar → Prop} {v : XVar} (lhs : X) (hg : lhs.Good S) (hc : S cppVal) : ∃ K : XEnv → Option ℚ, (∀ ρ r, K (ρ.upd v r) = K ρ) ∧
      (moveConsts v lhs (.var cppVal)).1.Good S ∧ (moveConsts v lhs (.var cppVal)).2.Good S ∧
      (∀ ρ, xval ρ (moveConsts v lhs (.var cppVal)).2 = (K ρ).bind fun k => some (ρ.val cppVal - k)) ∧
      ∀ ρ, xval ρ lhs = (xval ρ (moveConsts v lhs (.var cppVal)).1).bind fun a => (K ρ).bind fun k => some (a + k) := by
  by_cases hx : ∃ ts, lhs = .add ts
  · obtain ⟨ts, rfl⟩ := hx
    refine ⟨fun ρ => xsum ρ (ts.filter fun t => !t.hasVar v), fun ρ r => ?_, ?_, ?_, ?_, ?_⟩
    · refine (valL_upd _ (hasVarL_false fun x hx => ?_)).1
      simpa using (List.mem_filter.mp hx).2
    · have hg' := GoodL_filter (X.hasVar v) hg.2
      simp only [moveConsts]
      split
      · trivial
      · rename_i t he; rw [he] at hg'; exact hg'.1
      · rename_i ts' h0 h1
        exact ⟨fun hc => h0 hc, hg'⟩
    · obtain ⟨h1, h2⟩ := subtractConsts_val (v := v) ts (.var cppVal) hc hg.2
      exact ((trans_same elimSub_same _).trans' <| (trans_same elimNeg_same _).trans' <| (trans_same flatMul_same _).trans' <|
        trans_same flatAdd_same _) h1 |>.1
    · intro ρ
      obtain ⟨h1, h2⟩ := subtractConsts_val (v := v) ts (.var cppVal) hc hg.2
      have h3 := ((trans_same elimSub_same _).trans' <| (trans_same elimNeg_same _).trans' <|
        (trans_same flatMul_same _).trans' <| trans_same flatAdd_same _) h1 |>.2 ρ
      simp only [moveConsts]
      rw [h3, h2]
      rfl
    · intro ρ
      rw [xval, xsum_filter ρ (X.hasVar v) ts]
      congr 1
      simp only [moveConsts]
      split
      · rename_i he; rw [he]
        have : litVal ['0'] = 0 := by
          rw [← (by decide +kernel : intStr 0 = ['0']), litVal_int]; norm_num
        simp [xsum, xval, this]
      · rename_i t he; rw [he, xsum, xsum]; cases xval ρ t <;> simp
      · rfl
  · have e : moveConsts v lhs (.var cppVal) = (lhs, .var cppVal) := by
      cases lhs <;> first | rfl | exact absurd ⟨_, rfl⟩ hx
    rw [e]
    refine ⟨fun _ => some 0, fun _ _ => rfl, hg, hc, fun ρ => by simp [xval], fun ρ => ?_⟩
    cases xval ρ lhs <;> simp

theorem simplify_var {s : Bool} {n : Nat} {v : XVar} {y : X} (h : simplify s n (.var v) = .ok y) : y = .var v := by
  cases n with
  | zero => cases h
  | succ n => cases h; rfl

/-- **C63** (partial) The assignment that the compiler makes for a variable of a field.  If the right-hand side has a value (no divisor
vanishes) then with this value for the variable the expression of the field has the value that was read.  The right-hand side
does not depend on the variable.  No other value of the variable fits.  Missing, as for `C64_simplify_partial`: indices, products with a single factor, see
`C63_fails`; C++ integer arithmetic, see `C63_int_fails`. -/
theorem C63_partial (S : XVar → Prop) (hS : OneIdx S) (n : Nat) (node : X) (v : XVar) (hg : node.Good S) (hv : S v)
    (hc : S cppVal) (hne : v ≠ cppVal) (l r : X) (h : varAssign true n node v = .ok (l, r)) :
    varAssign false n node v = .ok (l, r) ∧ l = .var v ∧ (∀ ρ q, xval (ρ.upd v q) r = xval ρ r) ∧
    (∀ ρ q, xval ρ r = some q → xval (ρ.upd v q) node = some (ρ.val cppVal)) ∧
    ∀ ρ q, xval ρ r = some q → xval ρ node = some (ρ.val cppVal) → ρ.val v = q := by
  unfold varAssign solve at h ⊢
  cases hm : node.hasMod || (X.var cppVal).hasMod with
  | true => rw [hm] at h; cases h
  | false =>
  rw [hm] at h
  rw [if_neg (by simp)] at h ⊢
  unfold solveMod at h ⊢
  have hnorm : normalize (.var cppVal) = .var cppVal := rfl
  rw [hnorm] at h ⊢
  obtain ⟨hg1, hv1⟩ := normalize_same (S := S) node hg
  obtain ⟨K, hK, hgl, hgr, hvr, hvl⟩ := moveConsts_val (v := v) (normalize node) hg1 hc
  generalize moveConsts v (normalize node) (.var cppVal) = m at h hgl hgr hvr hvl ⊢
  obtain ⟨m1, m2⟩ := m
  dsimp only at hgl hgr hvr hvl h ⊢
  have hval_v : ∀ (ρ : XEnv) q, xval (ρ.upd v q) (.var v) = some q := by
    intro ρ q; simp [xval, Spec.XEnv.upd]
  have hcpp : ∀ (ρ : XEnv) q, (ρ.upd v q).val cppVal = ρ.val cppVal := by
    intro ρ q
    simp only [Spec.XEnv.upd, if_neg (Ne.symm hne)]
  have hm2 : ∀ ρ q, xval (ρ.upd v q) m2 = xval ρ m2 := by
    intro ρ q
    rw [hvr, hvr, hK, hcpp]
  obtain ⟨l1, hl1, h⟩ := bind_ok_inv h
  obtain ⟨m', hm', h⟩ := bind_ok_inv h
  obtain ⟨y1, hy1, h⟩ := bind_ok_inv h
  obtain ⟨y2, hy2, h⟩ := bind_ok_inv h
  cases h
  by_cases he : m1.eqv (.var v) = true
  · rw [isolate, if_pos he] at hl1 ⊢
    cases hl1
    have hm1 := eqv_eq hS m1 (.var v) hgl hv he
    subst hm1
    have : m' = (.var v, m2) := by
      simp only [moveFactor, X.eqv, beq_self_eq_true, if_true] at hm'
      exact (Except.ok.inj hm').symm
    subst this
    have hy : l = .var v := simplify_var hy1
    refine ⟨?_, hy, ?_, ?_, ?_⟩
    · change (do
        let m' ← moveFactor v (.var v) m2
        let y1 ← simplify false n m'.1
        let y2 ← simplify false n m'.2
        pure (y1, y2)) = _
      rw [hm']
      change (do
        let y1 ← simplify false n (.var v)
        let y2 ← simplify false n m2
        pure (y1, y2)) = _
      rw [simplify_lax hy1, simplify_lax hy2]
      rfl
    · intro ρ q
      rw [simplify_val hS hgr hy2, simplify_val hS hgr hy2, hm2]
    · intro ρ q hq
      rw [simplify_val hS hgr hy2, hvr] at hq
      rw [← hv1, hvl, hval_v, hK]
      cases hk : K ρ with
      | none => rw [hk] at hq; cases hq
      | some k =>
        rw [hk] at hq
        simp only [Option.bind_some, Option.some.injEq] at hq ⊢
        rw [← hq]; ring
    · intro ρ q hq he
      rw [simplify_val hS hgr hy2, hvr] at hq
      rw [← hv1, hvl, xval] at he
      cases hk : K ρ with
      | none => rw [hk] at hq; cases hq
      | some k =>
        rw [hk] at hq he
        simp only [Option.bind_some, Option.some.injEq] at hq he
        rw [← hq, ← he]; ring
  · rw [isolate, if_neg he] at hl1 ⊢
    obtain ⟨hsame, q0, rfl⟩ := extractFactor_same hS (f := .var v) hv hl1
    obtain ⟨hgq, hvq⟩ := hsame hgl
    have hq0 : q0.hasVar v = false ∧ m' = (.var v, .div m2 (.mul [q0])) := by
      simp only [moveFactor] at hm'
      have hvv : (X.var v).hasVar v = true := by simp [X.hasVar]
      cases hq : q0.hasVar v with
      | true =>
        rw [List.filter_cons_of_pos hvv, List.filter_cons_of_pos hq] at hm'
        cases hm'
      | false =>
        rw [List.filter_cons_of_pos hvv, List.filter_cons_of_neg (by simp [hq]),
          List.filter_cons_of_neg (by simp [hvv]), List.filter_cons_of_pos (by simp [hq])] at hm'
        exact ⟨rfl, (Except.ok.inj hm').symm⟩
    obtain ⟨hq0, rfl⟩ := hq0
    have hy : l = .var v := simplify_var hy1
    have hgd : (X.div m2 (.mul [q0])).Good S := ⟨hgr, hgq.2.1, trivial⟩
    refine ⟨?_, hy, ?_, ?_, ?_⟩
    · rw [extractFactor_lax hl1]
      change (do
        let m' ← moveFactor v (.mul [.var v, q0]) m2
        let y1 ← simplify false n m'.1
        let y2 ← simplify false n m'.2
        pure (y1, y2)) = _
      rw [hm']
      change (do
        let y1 ← simplify false n (.var v)
        let y2 ← simplify false n (.div m2 (.mul [q0]))
        pure (y1, y2)) = _
      rw [simplify_lax hy1, simplify_lax hy2]
      rfl
    · intro ρ q
      rw [simplify_val hS hgd hy2, simplify_val hS hgd hy2]
      simp only [xval, xprod, hm2, val_upd q0 hq0]
    · intro ρ q hq
      rw [simplify_val hS hgd hy2] at hq
      rw [← hv1, hvl, ← hvq, hK]
      simp only [xval, xprod, hvr, val_upd q0 hq0] at hq ⊢
      have hvv : (ρ.upd v q).val v = q := by simp [Spec.XEnv.upd]
      cases hk : K ρ with
      | none => rw [hk] at hq; cases hq
      | some k =>
        rw [hk] at hq
        cases hz : xval ρ q0 with
        | none => rw [hz] at hq; simp at hq
        | some z =>
          rw [hz] at hq
          simp only [Option.bind_some, mul_one] at hq ⊢
          split at hq
          · cases hq
          · rename_i hz0
            simp only [Option.some.injEq] at hq ⊢
            rw [hvv, ← hq]
            field_simp
            ring
    · intro ρ q hq he
      rw [simplify_val hS hgd hy2] at hq
      rw [← hv1, hvl, ← hvq] at he
      simp only [xval, xprod, hvr] at hq he
      cases hk : K ρ with
      | none => rw [hk] at hq; cases hq
      | some k =>
        rw [hk] at hq he
        cases hz : xval ρ q0 with
        | none => rw [hz] at hq; simp at hq
        | some z =>
          rw [hz] at hq he
          simp only [Option.bind_some, mul_one] at hq he
          split at hq
          · cases hq
          · rename_i hz0
            simp only [Option.some.injEq] at hq he
            rw [← hq, ← he]
            field_simp
            ring

/-- The expression 2*(NP+1)+3 of a field is solved for NP. -/
example : (match varAssign true 9 (.add [.mul [xn "2", .add [xv "NP", xn "1"]], xn "3"]) ⟨"NP".toList, []⟩ with
    | .ok (l, r) => l.eqv (xv "NP") && decide (r.str = "((cpp_val+(-5))/2)".toList)
    | .error _ => false) = true := by decide +kernel

/-- **C63** x*a + x*a*b is solved for x by value/(a*(a+b)). -/
theorem C63_fails : (match varAssign false 9 (.add [.mul [xv "x", xv "a"], .mul [xv "x", xv "a", xv "b"]]) ⟨"x".toList, []⟩ with
    | .ok (_, r) => decide (r.str = "(cpp_val/(a*(a+b)))".toList) && decide (xval exXEnv r = some (8/5)) &&
      decide (xval (exXEnv.upd ⟨"x".toList, []⟩ (8/5)) (.add [.mul [xv "x", xv "a"], .mul [xv "x", xv "a", xv "b"]])
        = some (64/5)) && decide (exXEnv.val cppVal = 16)
    | .error _ => false) = true := by decide +kernel

/-- **C63** In an integer field the quotient 1/2 of the solution of (x+1)/2 = value is zero in C++, so that the generated code divides
by zero for every value. -/
theorem C63_int_fails (ρ : XVar → Int) :
    (match varAssign false 9 (.div (.add [xv "x", xn "1"]) (xn "2")) ⟨"x".toList, []⟩ with
      | .ok (_, r) => some r | .error _ => none) =
        some (.div (.add [xv "cpp_val", .mul [.div (xn "1") (xn "2"), xn "-1"]]) (.div (xn "1") (xn "2"))) ∧
    (X.div (.add [xv "cpp_val", .mul [.div (xn "1") (xn "2"), xn "-1"]]) (.div (xn "1") (xn "2"))).cppInt ρ = none := by
  refine ⟨?_, ?_⟩
  · rfl
  · have h1 : pyInt "1".toList = some 1 := by decide +kernel
    have h2 : pyInt "2".toList = some 2 := by decide +kernel
    simp only [X.cppInt, xn, h1, h2]
    rfl

end Verif
