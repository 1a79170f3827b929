import Verif.Lemmas.AbbrDict
/-
Expressions with abbreviations have the same values as with the abbreviations written out.
-/
namespace Verif.CF
open Verif Spec

theorem dHas_bare {d : DDic} {n : Name} (h : n ∉ abbrNames d) : dHas (.var n) (bare d) = dHas (.var n) d := by
  unfold dHas; rw [bare_get h]

theorem findScope_bare {l : Bool} {n : Name} {us : List DDic} : ∀ {d : DDic}, n ∉ abbrNames d → (l = true → ∀ u ∈ us, n ∉ abbrNames u) →
    findScope l n (bare d) (us.map bare) = (findScope l n d us).map bare := by
  induction us with
  | nil =>
    intro d hd _
    simp only [List.map_nil, findScope, dHas_bare hd]
    split <;> rfl
  | cons u us ih =>
    intro d hd hu
    simp only [List.map_cons, findScope, dHas_bare hd, show dHas .up (bare d) = dHas .up d by unfold dHas; rw [bare_up]]
    split
    · rfl
    · split
      · rename_i h
        simp only [Bool.and_eq_true] at h
        exact ih (hu h.2 u List.mem_cons_self) fun _ w hw => hu h.2 w (List.mem_cons_of_mem _ hw)
      · rfl

theorem findScope_in {l : Bool} {n : Name} {us : List DDic} : ∀ {d x : DDic}, findScope l n d us = some x →
    x = d ∨ (l = true ∧ x ∈ us) := by
  induction us with
  | nil =>
    intro d x h
    simp only [findScope] at h
    split at h
    · cases h; exact .inl rfl
    · cases h
  | cons u us ih =>
    intro d x h
    simp only [findScope] at h
    split at h
    · cases h; exact .inl rfl
    · split at h
      · rename_i hu
        simp only [Bool.and_eq_true] at hu
        rcases ih h with rfl | h
        · exact .inr ⟨hu.2, List.mem_cons_self⟩
        · exact .inr ⟨hu.2, List.mem_cons_of_mem _ h.2⟩
      · cases h

def bareEnv (env : Env) : Env := ⟨bare env.cur, env.ups.map bare, env.lv⟩

/-- a variable that is no abbreviation -/
def FreeRef (env : Env) (l : Bool) (n : Name) : Prop := n ∉ abbrNames env.cur ∧ (l = true → ∀ u ∈ env.ups, n ∉ abbrNames u)

theorem getVarval_bare {env : Env} {l : Bool} {r : VarRef} (h : FreeRef env l r.name) : getVarval (bareEnv env) l r = getVarval env l r := by
  unfold getVarval bareEnv
  simp only [dHas_bare h.1, findScope_bare h.1 h.2]
  split
  · rfl
  · split
    · rfl
    · cases hf : findScope l r.name env.cur env.ups with
      | none => rfl
      | some x =>
        have : r.name ∉ abbrNames x := by
          rcases findScope_in hf with rfl | ⟨h1, h2⟩
          · exact h.1
          · exact h.2 h1 x h2
        simp only [Option.map_some, bare_get this]

/-- the dictionaries of a state -/
structure EnvA (env : Env) : Prop where
  cur : ∃ a N D, Bnd a N D env.cur
  ups : ∀ u ∈ env.ups, ∃ a N D, Bnd a N D u

theorem getArr_clean {v w : Val} {is : List Int} (hv : Clean v) (h : getArr v is = .ok w) : Clean w := by
  induction is generalizing v with
  | nil => cases v <;> (simp only [getArr, Except.ok.injEq] at h; subst h; exact hv)
  | cons i is ih =>
    cases hv with
    | dic d h1 h2 h3 =>
      simp only [getArr] at h
      split at h
      · rename_i x hx; exact ih (h3 _ _ hx) h
      · cases h
    | _ => simp [getArr] at h

theorem getVarval_clean {env : Env} (he : EnvA env) {l : Bool} {r : VarRef} (h : FreeRef env l r.name) {v : Val} (hv : getVarval env l r = .ok v) :
    Clean v := by
  unfold getVarval at hv
  split at hv
  · cases hv
  · split at hv
    · cases hv; exact .num _
    · split at hv
      · cases hv
      · rename_i x hx
        split at hv
        · cases hv
        · rename_i w hw
          simp only [bind_ok] at hv
          obtain ⟨is, _, hg⟩ := hv
          refine getArr_clean ?_ hg
          have hb : (∃ a N D, Bnd a N D x) ∧ r.name ∉ abbrNames x := by
            rcases findScope_in hx with rfl | ⟨h1, h2⟩
            · exact ⟨he.cur, h.1⟩
            · exact ⟨he.ups x h2, h.2 h1 x h2⟩
          obtain ⟨⟨a, N, D, hb⟩, hn⟩ := hb
          rcases hb.lvl.var _ _ hw with h1 | ⟨_, _, l', hl, hm⟩
          · exact h1
          · exfalso; apply hn; unfold abbrNames; rw [hl]; exact hm

theorem clean_abb {e : Expr} : ¬ Clean (.abb e) := by intro h; cases h

theorem evalVar_bare {env : Env} (he : EnvA env) {o : EvalOpts} {rec rec' : Expr → Res Lin} {r : VarRef} (h : FreeRef env o.lookUp r.name) :
    evalVar (bareEnv env) o rec' r = evalVar env o rec r := by
  unfold evalVar
  rw [getVarval_bare h]
  cases hv : getVarval env o.lookUp r with
  | error e => cases e <;> rfl
  | ok v =>
    have hc := getVarval_clean he h hv
    cases v with
    | abb e => exact absurd hc clean_abb
    | _ => rfl

def FreeIn (env : Env) (l : Bool) (e : Expr) : Prop := ∀ r ∈ e.vars, FreeRef env l r.name

theorem evalWith_bare {env : Env} (he : EnvA env) {o : EvalOpts} {rec rec' : Expr → Res Lin} {e : Expr} (h : FreeIn env o.lookUp e) :
    evalWith (bareEnv env) o rec' e = evalWith env o rec e := by
  induction e with
  | num v => rfl
  | desired v => rfl
  | var r => exact evalVar_bare he (h r (by simp [Expr.vars]))
  | incons r => exact evalVar_bare he (h r (by simp [Expr.vars]))
  | neg e ih => simp only [evalWith, ih h]
  | add a b iha ihb | sub a b iha ihb | mul a b iha ihb | div a b iha ihb | mod a b iha ihb =>
    simp only [evalWith, iha (fun r hr => h r (by simp [Expr.vars, hr])), ihb (fun r hr => h r (by simp [Expr.vars, hr]))]

/-! errors of missing variables -/

def Miss (e : Err) : Prop := e = .variableNotFound ∨ e = .unavailableIndex

theorem scalar_miss {v : Val} {e : Err} (h : v.scalar = .error e) : ¬ Miss e := by
  unfold Val.scalar at h; split at h <;> cases h; rintro (h | h) <;> cases h

theorem arith_miss {x : PyNum} {e : Err} (h : x.arith = .error e) : ¬ Miss e := by
  unfold PyNum.arith at h; split at h <;> cases h; rintro (h | h) <;> cases h

theorem bind_err {α β : Type} {r : Res α} {f : α → Res β} {e : Err} (h : (r >>= f) = .error e) :
    r = .error e ∨ ∃ a, r = .ok a ∧ f a = .error e := by
  cases r with
  | error e' => left; simpa [bind, Except.bind] using h
  | ok a => exact .inr ⟨a, rfl, h⟩

theorem pAdd_miss {x y : PyNum} {e : Err} (h : pAdd x y = .error e) : ¬ Miss e := by
  unfold pAdd at h
  split at h
  · cases h
  · rcases bind_err h with h | ⟨a, _, h⟩
    · exact arith_miss h
    · rcases bind_err h with h | ⟨b, _, h⟩
      · exact arith_miss h
      · cases h

theorem pSub_miss {x y : PyNum} {e : Err} (h : pSub x y = .error e) : ¬ Miss e := by
  unfold pSub at h
  split at h
  · cases h
  · rcases bind_err h with h | ⟨a, _, h⟩
    · exact arith_miss h
    · rcases bind_err h with h | ⟨b, _, h⟩
      · exact arith_miss h
      · cases h

theorem pMul_miss {x y : PyNum} {e : Err} (h : pMul x y = .error e) : ¬ Miss e := by
  unfold pMul at h
  split at h
  · cases h
  · rcases bind_err h with h | ⟨a, _, h⟩
    · exact arith_miss h
    · rcases bind_err h with h | ⟨b, _, h⟩
      · exact arith_miss h
      · cases h

theorem pNeg_miss {x : PyNum} {e : Err} (h : pNeg x = .error e) : ¬ Miss e := by
  unfold pNeg at h
  split at h
  · cases h
  · rcases bind_err h with h | ⟨a, _, h⟩
    · exact arith_miss h
    · cases h

theorem pDiv_miss {c : Bool} {x y : PyNum} {e : Err} (h : pDiv c x y = .error e) : ¬ Miss e := by
  unfold pDiv at h
  split at h
  · split at h
    · cases h; rintro (h | h) <;> cases h
    · split at h
      · cases h
      · split at h
        · cases h; rintro (h | h) <;> cases h
        · cases h
  · rcases bind_err h with h | ⟨a, _, h⟩
    · exact arith_miss h
    · rcases bind_err h with h | ⟨b, _, h⟩
      · exact arith_miss h
      · split at h
        · cases h; rintro (h | h) <;> cases h
        · cases h

theorem pMod_miss {x y : PyNum} {e : Err} (h : pMod x y = .error e) : ¬ Miss e := by
  unfold pMod at h
  split at h
  · split at h
    · cases h; rintro (h | h) <;> cases h
    · cases h
  · rcases bind_err h with h | ⟨a, _, h⟩
    · exact arith_miss h
    · rcases bind_err h with h | ⟨b, _, h⟩
      · exact arith_miss h
      · split at h
        · cases h; rintro (h | h) <;> cases h
        · cases h

theorem linAddSub_miss {op : PyNum → PyNum → Res PyNum} (hop : ∀ x y e, op x y = .error e → ¬ Miss e) {v w : Lin} {e : Err}
    (h : linAddSub op v w = .error e) : ¬ Miss e := by
  unfold linAddSub at h
  split at h
  · cases h; rintro (h | h) <;> cases h
  · rcases bind_err h with h | ⟨_, _, h⟩
    · exact scalar_miss h
    · rcases bind_err h with h | ⟨_, _, h⟩
      · exact scalar_miss h
      · rcases bind_err h with h | ⟨_, _, h⟩
        · exact hop _ _ _ h
        · rcases bind_err h with h | ⟨_, _, h⟩
          · exact hop _ _ _ h
          · cases h

theorem linMul_miss {v w : Lin} {e : Err} (h : linMul v w = .error e) : ¬ Miss e := by
  unfold linMul at h
  split at h
  · cases h; rintro (h | h) <;> cases h
  · split at h
    all_goals
      rcases bind_err h with h | ⟨_, _, h⟩
      · exact scalar_miss h
      · rcases bind_err h with h | ⟨_, _, h⟩
        · exact scalar_miss h
        · rcases bind_err h with h | ⟨_, _, h⟩
          · exact pMul_miss h
          · rcases bind_err h with h | ⟨_, _, h⟩
            · exact pMul_miss h
            · cases h

theorem linDiv_miss {c : Bool} {v w : Lin} {e : Err} (h : linDiv c v w = .error e) : ¬ Miss e := by
  unfold linDiv at h
  split at h
  · cases h; rintro (h | h) <;> cases h
  · rcases bind_err h with h | ⟨_, _, h⟩
    · exact scalar_miss h
    · rcases bind_err h with h | ⟨_, _, h⟩
      · exact scalar_miss h
      · rcases bind_err h with h | ⟨_, _, h⟩
        · exact pDiv_miss h
        · rcases bind_err h with h | ⟨_, _, h⟩
          · exact pDiv_miss h
          · cases h

theorem linMod_miss {v w : Lin} {e : Err} (h : linMod v w = .error e) : ¬ Miss e := by
  unfold linMod at h
  split at h
  · cases h; rintro (h | h) <;> cases h
  · rcases bind_err h with h | ⟨_, _, h⟩
    · exact scalar_miss h
    · rcases bind_err h with h | ⟨_, _, h⟩
      · exact scalar_miss h
      · rcases bind_err h with h | ⟨_, _, h⟩
        · exact pMod_miss h
        · cases h

theorem linNeg_miss {v : Lin} {e : Err} (h : linNeg v = .error e) : ¬ Miss e := by
  unfold linNeg at h
  rcases bind_err h with h | ⟨_, _, h⟩
  · exact scalar_miss h
  · rcases bind_err h with h | ⟨_, _, h⟩
    · exact pNeg_miss h
    · rcases bind_err h with h | ⟨_, _, h⟩
      · exact pNeg_miss h
      · cases h

theorem evalWith_miss {env : Env} {o : EvalOpts} (ho : o.acceptMissing = true) {rec : Expr → Res Lin} {x : Expr} {e : Err}
    (h : evalWith env o rec x = .error e) (hr : ∀ r ∈ x.vars, ∀ y, getVarval env o.lookUp r ≠ .ok (.abb y)) : ¬ Miss e := by
  have hv : ∀ r, (∀ y, getVarval env o.lookUp r ≠ .ok (.abb y)) → evalVar env o rec r = .error e → ¬ Miss e := by
    intro r hr h
    unfold evalVar at h
    simp only [ho, if_true] at h
    cases hg : getVarval env o.lookUp r with
    | ok v =>
      rw [hg] at h
      cases v with
      | abb y => exact absurd hg (hr y)
      | _ => cases h
    | error x =>
      rw [hg] at h
      rintro (rfl | rfl)
      · cases x <;> cases h
      · cases x <;> cases h
  induction x generalizing e with
  | num v => cases h
  | desired v => cases h
  | var r | incons r => exact hv r (hr r (by simp [Expr.vars])) h
  | neg a ih =>
    rcases bind_err h with h | ⟨_, _, h⟩
    · exact ih h hr hv
    · exact linNeg_miss h
  | add a b iha ihb | sub a b iha ihb | mul a b iha ihb | div a b iha ihb | mod a b iha ihb =>
    rcases bind_err h with h | ⟨_, _, h⟩
    · exact iha h (fun r hr' => hr r (by simp [Expr.vars, hr'])) hv
    · rcases bind_err h with h | ⟨_, _, h⟩
      · exact ihb h (fun r hr' => hr r (by simp [Expr.vars, hr'])) hv
      · first
          | exact linAddSub_miss (fun _ _ _ => pAdd_miss) h
          | exact linAddSub_miss (fun _ _ _ => pSub_miss) h
          | exact linMul_miss h
          | exact linDiv_miss h
          | exact linMod_miss h

/-- what an abbreviation stands for -/
theorem evalVar_abb {env : Env} (he : EnvA env) {o : EvalOpts} {f : Nat} {rec' : Expr → Res Lin} {r : VarRef} {x : Expr} (hi : r.idx = [])
    (hg : dGet (.var r.name) env.cur = some (.abb x)) (hl : dGet r.name env.lv = none) (hx : FreeIn env o.lookUp x) :
    evalVar env o (evalExpr f env o) r = evalWith (bareEnv env) o rec' x := by
  have hgv : getVarval env o.lookUp r = .ok (.abb x) := by
    have hh : dHas (.var r.name) env.cur = true := dHas_some.2 ⟨_, hg⟩
    have hs : findScope o.lookUp r.name env.cur env.ups = some env.cur := by
      cases env.ups <;> simp [findScope, hh]
    unfold getVarval
    simp only [hh, dHas_none.2 hl, Bool.and_false, Bool.false_eq_true, if_false, hl, hs, hg, hi, List.mapM_nil]
    rfl
  have hrec : evalExpr f env o x = evalWith (bareEnv env) o rec' x := by
    cases f with
    | zero => exact (evalWith_bare he hx).symm
    | succ f => exact (evalWith_bare he hx).symm
  unfold evalVar
  simp only [hgv]
  rw [hrec]
  cases hw : evalWith (bareEnv env) o rec' x with
  | ok v => rfl
  | error e =>
    cases ho : o.acceptMissing with
    | false => cases e <;> simp
    | true =>
      have hm := evalWith_miss (env := env) (rec := rec') ho (by rw [← evalWith_bare he hx]; exact hw) fun r hr y hy =>
        clean_abb (getVarval_clean he (hx r hr) hy)
      cases e <;> first | rfl | (exfalso; exact hm (.inl rfl)) | (exfalso; exact hm (.inr rfl))

/-- the abbreviations of the current section -/
structure AbbEnv (N : List Name) (A : Abbs) (D : List (Name × Expr)) (env : Env) : Prop where
  all : EnvA env
  defd : ∀ n e, dGet n D = some e → dGet (.var n) env.cur = some (.abb e) ∧ dGet n env.lv = none

theorem without_ok {N : List Name} {e : Expr} (h : without N e = true) {r : VarRef} (hr : r ∈ e.vars) : r.name ∉ N := by
  unfold without at h
  have := List.all_eq_true.1 h r hr
  simpa using this

theorem get_idx {A : Abbs} {r : VarRef} {x : Expr} (h : A.get r = some x) : r.idx = [] := by
  unfold Abbs.get at h
  split at h
  · cases h
  · split at h
    · assumption
    · cases h

theorem eval_expand {N : List Name} {A : Abbs} {D : List (Name × Expr)} {env : Env} (h : AbbEnv N A D env) {o : EvalOpts}
    (hf : ∀ n, n ∉ N → FreeRef env o.lookUp n) {f : Nat} {rec' : Expr → Res Lin} {e : Expr} (he : exprA N A D e = true) :
    evalWith env o (evalExpr f env o) e = evalWith (bareEnv env) o rec' (A.expr e) := by
  induction e with
  | num v => rfl
  | desired v => rfl
  | var r =>
    simp only [exprA, refA] at he
    cases hA : A.get r with
    | none =>
      rw [hA] at he
      simp only [Abbs.expr, hA, Option.getD_none, evalWith]
      exact (evalVar_bare h.all (hf _ (by simpa using he))).symm
    | some x =>
      rw [hA] at he
      simp only [Bool.and_eq_true, decide_eq_true_eq] at he
      obtain ⟨⟨⟨h1, h2⟩, h3⟩, h4⟩ := he
      obtain ⟨h5, h6⟩ := h.defd _ _ h1
      simp only [Abbs.expr, hA, Option.getD_some, evalWith]
      exact evalVar_abb h.all (get_idx hA) h5 h6 fun r hr => hf _ (without_ok h2 hr)
  | incons r =>
    simp only [exprA, Bool.and_eq_true, Option.isNone_iff_eq_none] at he
    simp only [Abbs.expr, he.1, Option.getD_none, evalWith]
    exact (evalVar_bare h.all (hf _ (by simpa using he.2))).symm
  | neg e ih => simp only [exprA] at he; simp only [Abbs.expr, evalWith, ih he]
  | add a b iha ihb | sub a b iha ihb | mul a b iha ihb | div a b iha ihb | mod a b iha ihb =>
    simp only [exprA, Bool.and_eq_true] at he
    simp only [Abbs.expr, evalWith, iha he.1, ihb he.2]

theorem evalExpr_expand {N : List Name} {A : Abbs} {D : List (Name × Expr)} {env : Env} (h : AbbEnv N A D env) {o : EvalOpts}
    (hf : ∀ n, n ∉ N → FreeRef env o.lookUp n) {fuel : Nat} (h0 : 0 < fuel) {e : Expr} (he : exprA N A D e = true) :
    evalExpr fuel (bareEnv env) o (A.expr e) = evalExpr fuel env o e := by
  obtain ⟨f, rfl⟩ : ∃ f, fuel = f + 1 := ⟨fuel - 1, by omega⟩
  exact (eval_expand h hf he).symm

theorem exprA_nil {e : Expr} {N : List Name} {D : List (Name × Expr)} (h : without N e = true) : exprA N none D e = true ∧ Abbs.expr none e = e := by
  induction e with
  | num v | desired v => exact ⟨rfl, rfl⟩
  | var r =>
    have := without_ok h (r := r) (by simp [Expr.vars])
    exact ⟨by simpa [exprA, refA, Abbs.get] using this, rfl⟩
  | incons r =>
    have := without_ok h (r := r) (by simp [Expr.vars])
    exact ⟨by simpa [exprA, Abbs.get] using this, rfl⟩
  | neg e ih =>
    have := ih h
    exact ⟨this.1, by simp only [Abbs.expr, this.2]⟩
  | add a b iha ihb | sub a b iha ihb | mul a b iha ihb | div a b iha ihb | mod a b iha ihb =>
    simp only [without, Expr.vars, List.all_append, Bool.and_eq_true] at h
    have h1 := iha (by simpa [without] using h.1)
    have h2 := ihb (by simpa [without] using h.2)
    exact ⟨by simp only [exprA, h1.1, h2.1, Bool.and_self], by simp only [Abbs.expr, h1.2, h2.2]⟩

theorem expr_none (e : Expr) : Abbs.expr none e = e := by
  induction e <;> simp_all [Abbs.expr, Abbs.get]

theorem flags_expand {N : List Name} {A : Abbs} {D : List (Name × Expr)} {e : Expr} (he : exprA N A D e = true) :
    (A.expr e).hasDesired = e.hasDesired ∧ (A.expr e).hasIncons = e.hasIncons := by
  induction e with
  | num v | desired v => exact ⟨rfl, rfl⟩
  | var r =>
    simp only [exprA, refA] at he
    cases hA : A.get r with
    | none => simp only [Abbs.expr, hA, Option.getD_none, and_self]
    | some x =>
      rw [hA] at he
      simp only [Bool.and_eq_true, Bool.not_eq_true'] at he
      simp only [Abbs.expr, hA, Option.getD_some, he.2, he.1.2, Expr.hasDesired, Expr.hasIncons, and_self]
  | incons r =>
    simp only [exprA, Bool.and_eq_true, Option.isNone_iff_eq_none] at he
    simp only [Abbs.expr, he.1, Option.getD_none, and_self]
  | neg e ih => simp only [exprA] at he; simpa only [Abbs.expr, Expr.hasDesired, Expr.hasIncons] using ih he
  | add a b iha ihb | sub a b iha ihb | mul a b iha ihb | div a b iha ihb | mod a b iha ihb =>
    simp only [exprA, Bool.and_eq_true] at he
    simp only [Abbs.expr, Expr.hasDesired, Expr.hasIncons, (iha he.1).1, (ihb he.2).1, (iha he.1).2, (ihb he.2).2, and_self]

/-- variables of the expression with abbreviations written out -/
theorem vars_expand {N : List Name} {A : Abbs} {D : List (Name × Expr)} {e : Expr} (he : exprA N A D e = true) {r : VarRef}
    (hr : r ∈ (A.expr e).vars) : r.name ∉ N := by
  induction e with
  | num v | desired v => cases hr
  | var q =>
    simp only [exprA, refA] at he
    cases hA : A.get q with
    | none =>
      rw [hA] at he
      simp only [Abbs.expr, hA, Option.getD_none, Expr.vars, List.mem_singleton] at hr
      subst hr; simpa using he
    | some x =>
      rw [hA] at he
      simp only [Bool.and_eq_true] at he
      simp only [Abbs.expr, hA, Option.getD_some] at hr
      exact without_ok he.1.1.2 hr
  | incons q =>
    simp only [exprA, Bool.and_eq_true, Option.isNone_iff_eq_none] at he
    simp only [Abbs.expr, he.1, Option.getD_none, Expr.vars, List.mem_singleton] at hr
    subst hr; simpa using he.2
  | neg e ih => exact ih he hr
  | add a b iha ihb | sub a b iha ihb | mul a b iha ihb | div a b iha ihb | mod a b iha ihb =>
    simp only [exprA, Bool.and_eq_true] at he
    simp only [Abbs.expr, Expr.vars, List.mem_append] at hr
    exact hr.elim (iha he.1) (ihb he.2)

end Verif.CF
