import Verif.Model.Compare
import Verif.Props.UserTools
/-
C49 (comparison of objects), C62 (arithmetic on lists).
-/
namespace Verif
open Spec

/-! ## C49 -/

theorem both_ok {a b : Res Bool} {r : Bool} : both a b = .ok r ↔ ∃ x y, a = .ok x ∧ b = .ok y ∧ r = (x && y) := by
  unfold both
  simp only [bind_ok, pure_ok]
  constructor
  · rintro ⟨x, h1, y, h2, h3⟩; exact ⟨x, y, h1, h2, h3.symm⟩
  · rintro ⟨x, y, h1, h2, h3⟩; exact ⟨x, h1, y, h2, h3.symm⟩

theorem both_true {a b : Res Bool} : both a b = .ok true ↔ a = .ok true ∧ b = .ok true := by
  rw [both_ok]
  constructor
  · rintro ⟨x, y, h1, h2, h3⟩
    have := h3.symm
    rw [Bool.and_eq_true] at this
    rw [h1, h2, this.1, this.2]; exact ⟨rfl, rfl⟩
  · rintro ⟨h1, h2⟩; exact ⟨true, true, h1, h2, rfl⟩

theorem num_self (c : CmpOpts) (h1 : 0 ≤ c.atol) (h2 : 0 ≤ c.rtol) (f : Bool) (x : PyNum) : c.num f x x = .ok true := by
  cases x with
  | int n => simp [CmpOpts.num]
  | num v =>
    have : |v.val - v.val| ≤ c.atol + c.rtol * |v.val| := by
      rw [sub_self, abs_zero]; exact add_nonneg h1 (mul_nonneg h2 (abs_nonneg _))
    simp only [CmpOpts.num, if_pos this]

theorem all_self {d : List (PKey × Obj)} : (dKeys d).all (dHas · d) = true := by
  rw [List.all_eq_true]
  intro k hk
  cases h : dGet k d with
  | none => exact absurd hk ((dGet_none_iff _ _).1 h)
  | some v => simp [dHas, h]

mutual
theorem cmpO_self (c : CmpOpts) (h1 : 0 ≤ c.atol) (h2 : 0 ≤ c.rtol) (f : Bool) : ∀ o : Obj, o.Wf → cmpO c f o o = .ok true
  | .none, _ => by rw [cmpO]
  | .num x, _ => by rw [cmpO]; exact num_self c h1 h2 f x
  | .str s, _ => by simp [cmpO, CmpOpts.sameText]
  | .dic d, hw => by
    rw [cmpO, both_true, both_true, if_pos all_self]
    exact ⟨rfl, rfl, cmpD_self c h1 h2 f d d hw.2 fun k o hm => dGet_of_mem hw.1 hm⟩
  | .lst l, hw => by
    rw [cmpO, both_true, if_pos rfl]
    exact ⟨rfl, cmpL_self c h1 h2 f l hw⟩
theorem cmpD_self (c : CmpOpts) (h1 : 0 ≤ c.atol) (h2 : 0 ≤ c.rtol) (f : Bool) : ∀ d e : List (PKey × Obj), wfD d →
    (∀ k o, (k, o) ∈ d → dGet k e = some o) → cmpD c f d e = .ok true
  | [], e, _, _ => by rw [cmpD]
  | (k, o) :: d, e, hw, h => by
    simp only [wfD] at hw
    rw [cmpD, h k o (by simp)]
    dsimp only
    rw [both_true]
    exact ⟨cmpO_self c h1 h2 f o hw.1, cmpD_self c h1 h2 f d e hw.2 fun k o hm => h k o (by simp [hm])⟩
theorem cmpL_self (c : CmpOpts) (h1 : 0 ≤ c.atol) (h2 : 0 ≤ c.rtol) (f : Bool) : ∀ l : List Obj, wfL l → cmpL c f l l = .ok true
  | [], _ => by rw [cmpL]; intro _ _ _ _ h; cases h
  | o :: l, hw => by
    simp only [wfL] at hw
    rw [cmpL, both_true]
    exact ⟨cmpO_self c h1 h2 f o hw.1, cmpL_self c h1 h2 f l hw.2⟩
end

/-- C49: an object doesn't differ from itself -/
theorem C49_self (c : CmpOpts) (h1 : 0 ≤ c.atol) (h2 : 0 ≤ c.rtol) (fail : Bool) (o : Obj) (hw : o.Wf) :
    cmpO c fail o o = .ok true := cmpO_self c h1 h2 fail o hw

/-- relation between the two modes -/
def Spec.Modes (a b : Res Bool) : Prop :=
  (b = .ok true ∧ a = .ok true) ∨ (b = .ok false ∧ ∃ e, a = .error e ∧ (e = .valueError ∨ e = .typeError ∨ e = .indexError))

theorem modes_treat (e : Err) (h : e = .valueError ∨ e = .typeError ∨ e = .indexError) : Modes (treatDiff true e) (treatDiff false e) :=
  .inr ⟨rfl, e, rfl, h⟩

theorem modes_both {a b a' b' : Res Bool} (h1 : Modes a a') (h2 : Modes b b') : Modes (both a b) (both a' b') := by
  rcases h1 with ⟨rfl, rfl⟩ | ⟨rfl, e, rfl, he⟩
  · rcases h2 with ⟨rfl, rfl⟩ | ⟨rfl, e, rfl, he⟩
    · exact .inl ⟨rfl, rfl⟩
    · exact .inr ⟨rfl, e, rfl, he⟩
  · rcases h2 with ⟨rfl, rfl⟩ | ⟨rfl, e', rfl, he'⟩
    · exact .inr ⟨rfl, e, rfl, he⟩
    · exact .inr ⟨rfl, e, rfl, he⟩

theorem modes_ok : Modes (.ok true) (.ok true) := .inl ⟨rfl, rfl⟩

theorem modes_if (p : Prop) [Decidable p] (e : Err) (h : e = .valueError ∨ e = .typeError ∨ e = .indexError) :
    Modes (if p then .ok true else treatDiff true e) (if p then .ok true else treatDiff false e) := by
  split
  · exact modes_ok
  · exact modes_treat e h

theorem modes_num (c : CmpOpts) (a b : PyNum) : Modes (c.num true a b) (c.num false a b) := by
  cases a <;> cases b <;> simp only [CmpOpts.num]
  · exact modes_if _ _ (by simp)
  · exact modes_treat _ (by simp)
  · exact modes_treat _ (by simp)
  · exact modes_if _ _ (by simp)

mutual
theorem modes_O (c : CmpOpts) : ∀ a b : Obj, Modes (cmpO c true a b) (cmpO c false a b)
  | .none, b => by cases b <;> simp only [cmpO] <;> first | exact modes_ok | exact modes_treat _ (by simp)
  | .num x, b => by cases b <;> simp only [cmpO] <;> first | exact modes_num c _ _ | exact modes_treat _ (by simp)
  | .str s, b => by cases b <;> simp only [cmpO] <;> first | exact modes_if _ _ (by simp) | exact modes_treat _ (by simp)
  | .dic d, b => by
    cases b <;> simp only [cmpO] <;> first
      | exact modes_treat _ (by simp)
      | exact modes_both (modes_if _ _ (by simp)) (modes_both (modes_if _ _ (by simp)) (modes_D c d _))
  | .lst l, b => by
    cases b <;> simp only [cmpO] <;> first
      | exact modes_treat _ (by simp)
      | exact modes_both (modes_if _ _ (by simp)) (modes_L c l _)
theorem modes_D (c : CmpOpts) : ∀ d e : List (PKey × Obj), Modes (cmpD c true d e) (cmpD c false d e)
  | [], e => by rw [cmpD, cmpD]; exact modes_ok
  | (k, o) :: d, e => by
    rw [cmpD, cmpD]
    cases dGet k e with
    | none => exact modes_D c d e
    | some o' => exact modes_both (modes_O c o o') (modes_D c d e)
theorem modes_L (c : CmpOpts) : ∀ l m : List Obj, Modes (cmpL c true l m) (cmpL c false l m)
  | [], m => by simp only [cmpL]; exact modes_ok
  | o :: l, [] => by simp only [cmpL]; exact modes_ok
  | o :: l, o' :: m => by rw [cmpL, cmpL]; exact modes_both (modes_O c o o') (modes_L c l m)
end

/-- C49, partial: the comparison without `fail_on_diff` always returns True or False, and with it an exception is raised
exactly if it returns False.  Missing: the exception isn't always a ValueError, see `C49_kind_fails`. -/
theorem C49_raise_partial (c : CmpOpts) (a b : Obj) :
    (∃ r, cmpO c false a b = .ok r) ∧
    (cmpO c false a b = .ok false ↔ ∃ e, cmpO c true a b = .error e ∧ (e = .valueError ∨ e = .typeError ∨ e = .indexError)) ∧
    (cmpO c false a b = .ok true ↔ cmpO c true a b = .ok true) := by
  rcases modes_O c a b with ⟨h1, h2⟩ | ⟨h1, e, h2, h3⟩
  · rw [h1, h2]; simp
  · rw [h1, h2]; simp [h3]

/-- **C49 fails**: differing types raise a TypeError, missing keys an IndexError -/
theorem C49_kind_fails :
    (match cmpO {} true (.num (.int 1)) (.str []) with | .error .typeError => true | _ => false) = true ∧
    (match cmpO {} true (.dic [(.int 1, .none)]) (.dic []) with | .error .indexError => true | _ => false) = true := by decide +kernel

theorem treat_false {e : Err} : treatDiff false e = .ok false := rfl

theorem cmpD_true {c : CmpOpts} {d e : List (PKey × Obj)} :
    cmpD c false d e = .ok true ↔ ∀ k o o', (k, o) ∈ d → dGet k e = some o' → cmpO c false o o' = .ok true := by
  induction d with
  | nil => simp [cmpD]
  | cons p d ih =>
    obtain ⟨k, o⟩ := p
    rw [cmpD]
    cases hg : dGet k e with
    | none =>
      dsimp only
      rw [ih]
      constructor
      · intro h k' o1 o2 hm h2
        rcases List.mem_cons.1 hm with e | hm
        · cases e; rw [hg] at h2; cases h2
        · exact h k' o1 o2 hm h2
      · intro h k' o1 o2 hm h2; exact h k' o1 o2 (by simp [hm]) h2
    | some o' =>
      dsimp only
      rw [both_true, ih]
      constructor
      · rintro ⟨h1, h⟩ k' o1 o2 hm h2
        rcases List.mem_cons.1 hm with e | hm
        · cases e; rw [hg] at h2; cases h2; exact h1
        · exact h k' o1 o2 hm h2
      · intro h
        exact ⟨h k o o' (by simp) hg, fun k' o1 o2 hm h2 => h k' o1 o2 (by simp [hm]) h2⟩

theorem if_treat {p : Prop} [Decidable p] {e : Err} : (if p then Except.ok true else treatDiff false e) = .ok true ↔ p := by
  split <;> simp_all [treatDiff]

theorem num_symm (c : CmpOpts) (h : c.rtol = 0) (a b : PyNum) (hc : c.num false a b = .ok true) : c.num false b a = .ok true := by
  cases a <;> cases b <;> simp only [CmpOpts.num, if_treat, h, zero_mul, add_zero] at hc ⊢
  · exact hc.symm
  · cases hc
  · cases hc
  · rw [abs_sub_comm]; exact hc

mutual
theorem symm_O (c : CmpOpts) (h : c.rtol = 0) : ∀ a b : Obj, a.Wf → b.Wf → cmpO c false a b = .ok true → cmpO c false b a = .ok true
  | .none, b, _, _, hc => by cases b <;> simp only [cmpO] at hc ⊢ <;> cases hc
  | .num x, b, _, _, hc => by cases b <;> simp only [cmpO] at hc ⊢ <;> first | exact num_symm c h _ _ hc | cases hc
  | .str s, b, _, _, hc => by
    cases b <;> simp only [cmpO] at hc ⊢ <;> first | cases hc | skip
    rw [if_treat] at hc ⊢
    unfold CmpOpts.sameText at hc ⊢
    split
    · rename_i hs; rw [if_pos hs] at hc; simpa using (of_decide_eq_true hc).symm
    · rename_i hs; rw [if_neg hs] at hc; simpa using (of_decide_eq_true hc).symm
  | .dic d, b, ha, hb, hc => by
    cases b with
    | dic e =>
      simp only [cmpO] at hc ⊢
      rw [both_true, both_true, if_treat, if_treat] at hc ⊢
      refine ⟨hc.2.1, hc.1, ?_⟩
      have h3 := cmpD_true.1 hc.2.2
      rw [cmpD_true]
      intro k o o' hm hg
      have hg2 : dGet k e = some o := dGet_of_mem hb.1 hm
      exact symm_D c h d ha.2 k o' (dGet_mem hg) o (wfD_mem hb.2 hm) (h3 k o' o (dGet_mem hg) hg2)
    | _ => simp only [cmpO] at hc; cases hc
  | .lst l, b, ha, hb, hc => by
    cases b with
    | lst m =>
      simp only [cmpO] at hc ⊢
      rw [both_true, if_treat] at hc ⊢
      exact ⟨hc.1.symm, symm_L c h l m ha hb hc.2⟩
    | _ => simp only [cmpO] at hc; cases hc
theorem symm_D (c : CmpOpts) (h : c.rtol = 0) : ∀ d : List (PKey × Obj), wfD d → ∀ k o, (k, o) ∈ d → ∀ o' : Obj, o'.Wf →
    cmpO c false o o' = .ok true → cmpO c false o' o = .ok true
  | [], _, k, o, hm, _, _, _ => by cases hm
  | (k', o1) :: d, hw, k, o, hm, o', hw', hc => by
    simp only [wfD] at hw
    have h1 := symm_O c h o1 o' hw.1 hw'
    have h2 := symm_D c h d hw.2
    rcases List.mem_cons.1 hm with e | hm
    · cases e; exact h1 hc
    · exact h2 k o hm o' hw' hc
theorem symm_L (c : CmpOpts) (h : c.rtol = 0) : ∀ l m : List Obj, wfL l → wfL m → cmpL c false l m = .ok true →
    cmpL c false m l = .ok true
  | [], m, _, _, hc => by cases m <;> simp only [cmpL]
  | o :: l, [], _, _, hc => by simp only [cmpL]
  | o :: l, o' :: m, ha, hb, hc => by
    simp only [wfL] at ha hb
    rw [cmpL, both_true] at hc ⊢
    exact ⟨symm_O c h o o' ha.1 hb.1 hc.1, symm_L c h l m ha.2 hb.2 hc.2⟩
end

/-- C49, partial: without relative tolerance, the outcome doesn't depend on the order of arguments.  Missing: other
tolerances, see `C49_symm_fails`. -/
theorem C49_symm_partial (c : CmpOpts) (h : c.rtol = 0) (a b : Obj) (ha : a.Wf) (hb : b.Wf) :
    cmpO c false a b = cmpO c false b a := by
  obtain ⟨r1, h1⟩ := (C49_raise_partial c a b).1
  obtain ⟨r2, h2⟩ := (C49_raise_partial c b a).1
  have key1 : r1 = true → r2 = true := fun e => by
    subst e; have := symm_O c h a b ha hb h1; rw [h2] at this; exact Except.ok.inj this
  have key2 : r2 = true → r1 = true := fun e => by
    subst e; have := symm_O c h b a hb ha h2; rw [h1] at this; exact Except.ok.inj this
  rw [h1, h2]
  congr 1
  cases r1 <;> cases r2 <;> simp_all

/-- **C49 fails** with the default tolerances: the relative tolerance refers to the second object -/
theorem C49_symm_fails :
    let x : Obj := .num (.num (.flt 1))
    let y : Obj := .num (.num (.flt (1 + 10100005 / 10 ^ 13)))
    cmpO {} false x y = .ok true ∧ cmpO {} false y x = .ok false := by
  have h1 : |(Num.flt 1).val - (Num.flt (1 + 10100005 / 10 ^ 13)).val| ≤
      ({} : CmpOpts).atol + ({} : CmpOpts).rtol * |(Num.flt (1 + 10100005 / 10 ^ 13)).val| := by
    show |(1 : ℚ) - (1 + 10100005 / 10 ^ 13)| ≤ 1 / 10 ^ 8 + 1 / 10 ^ 6 * |1 + 10100005 / 10 ^ 13|
    rw [abs_of_nonpos (by norm_num), abs_of_nonneg (by norm_num)]; norm_num
  have h2 : ¬ |(Num.flt (1 + 10100005 / 10 ^ 13)).val - (Num.flt 1).val| ≤
      ({} : CmpOpts).atol + ({} : CmpOpts).rtol * |(Num.flt 1).val| := by
    show ¬ |(1 + 10100005 / 10 ^ 13 : ℚ) - 1| ≤ 1 / 10 ^ 8 + 1 / 10 ^ 6 * |1|
    rw [abs_of_nonneg (by norm_num), abs_of_nonneg (by norm_num)]; norm_num
  exact ⟨by rw [cmpO, CmpOpts.num, if_pos h1], by rw [cmpO, CmpOpts.num, if_neg h2]; rfl⟩

/-- a spec of what it means that no difference is found -/
theorem C49_dict (c : CmpOpts) (d e : List (PKey × Obj)) :
    cmpO c false (.dic d) (.dic e) = .ok true ↔
      (∀ k, k ∈ dKeys d ↔ k ∈ dKeys e) ∧ ∀ k o o', (k, o) ∈ d → dGet k e = some o' → cmpO c false o o' = .ok true := by
  have has : ∀ (k : PKey) (d : List (PKey × Obj)), dHas k d = true ↔ k ∈ dKeys d := by
    intro k d
    cases h : dGet k d with
    | none => have := (dGet_none_iff _ _).1 h; simp [dHas, h, this]
    | some v => have : k ∈ dKeys d := List.mem_map.2 ⟨_, dGet_mem h, rfl⟩; simp [dHas, h, this]
  rw [cmpO, both_true, both_true, if_treat, if_treat, cmpD_true, List.all_eq_true, List.all_eq_true]
  simp only [has]
  constructor
  · rintro ⟨h1, h2, h3⟩; exact ⟨fun k => ⟨h1 k, h2 k⟩, h3⟩
  · rintro ⟨h1, h2⟩; exact ⟨fun k => (h1 k).1, fun k => (h1 k).2, h2⟩

/-- C49: a difference deep inside -/
example :
    let o (s : Str) : Obj := .dic [(.int 1, .lst [.num (.int 2), .str s])]
    (cmpO {} false (o ['a']) (o ['a'])).toOption = some true ∧ (cmpO {} false (o ['a']) (o ['b'])).toOption = some false ∧
    (cmpO { strlenOnly := true } false (o ['a']) (o ['b'])).toOption = some true := by decide +kernel

/-! ## C62 -/

/-- C62, partial: a list of numbers and a number, in this order -/
theorem C62_list_scalar_partial (op : AOp) (l : List PyNum) (y : PyNum) (r : Obj)
    (h : mathOp op.raw (.lst (l.map .num)) (.num y) = .ok r) :
    ∃ z : List PyNum, r = .lst (z.map .num) ∧ List.Forall₂ (fun x w => op.num x y = .ok w) l z := by
  simp only [mathOp, bind_ok, pure_ok] at h
  obtain ⟨zs, h1, rfl⟩ := h
  induction l generalizing zs with
  | nil => cases h1; exact ⟨[], rfl, .nil⟩
  | cons x l ih =>
    simp only [List.map_cons, List.mapM_cons, bind_ok, pure_ok, AOp.raw] at h1
    obtain ⟨a, ⟨w, h2, rfl⟩, zs', h3, rfl⟩ := h1
    obtain ⟨z, h4, h5⟩ := ih zs' h3
    cases h4
    exact ⟨w :: z, rfl, .cons h2 h5⟩

/-- C62, partial: a number and a list of numbers, in this order -/
theorem C62_scalar_list_partial (op : AOp) (l : List PyNum) (x : PyNum) (r : Obj)
    (h : mathOp op.raw (.num x) (.lst (l.map .num)) = .ok r) :
    ∃ z : List PyNum, r = .lst (z.map .num) ∧ List.Forall₂ (fun y w => op.num x y = .ok w) l z := by
  simp only [mathOp, bind_ok, pure_ok] at h
  obtain ⟨zs, h1, rfl⟩ := h
  induction l generalizing zs with
  | nil => cases h1; exact ⟨[], rfl, .nil⟩
  | cons y l ih =>
    simp only [List.map_cons, List.mapM_cons, bind_ok, pure_ok, AOp.raw] at h1
    obtain ⟨a, ⟨w, h2, rfl⟩, zs', h3, rfl⟩ := h1
    obtain ⟨z, h4, h5⟩ := ih zs' h3
    cases h4
    exact ⟨w :: z, rfl, .cons h2 h5⟩

/-- C62, partial: two lists of numbers: the lengths are equal and the operation is element-wise.  Missing: nested lists,
see `C62_nested_fails`. -/
theorem C62_list_list_partial (op : AOp) (l m : List PyNum) (r : Obj)
    (h : mathOp op.raw (.lst (l.map .num)) (.lst (m.map .num)) = .ok r) :
    l.length = m.length ∧ ∃ z : List PyNum, r = .lst (z.map .num) ∧ List.Forall₂ (fun p w => op.num p.1 p.2 = .ok w) (l.zip m) z := by
  simp only [mathOp, List.length_map] at h
  split at h
  · cases h
  rename_i hl
  have hl : l.length = m.length := not_not.1 hl
  refine ⟨hl, ?_⟩
  simp only [bind_ok, pure_ok] at h
  obtain ⟨zs, h1, rfl⟩ := h
  induction l generalizing m zs with
  | nil =>
    simp only [List.map_nil, zipOp] at h1
    cases h1; exact ⟨[], rfl, .nil⟩
  | cons x l ih =>
    cases m with
    | nil => simp at hl
    | cons y m =>
      simp only [List.map_cons, zipOp, bind_ok, pure_ok, AOp.raw] at h1
      obtain ⟨a, ⟨w, h2, rfl⟩, zs', h3, rfl⟩ := h1
      obtain ⟨z, h4, h5⟩ := ih (m := m) (zs := zs') (hl := by simpa using hl) (h1 := h3) (by simpa using hl)
      cases h4
      exact ⟨w :: z, rfl, .cons h2 h5⟩

/-- C62: the operation on lists of numbers succeeds if it does for all elements -/
theorem C62_list_scalar_succeeds (op : AOp) (l : List PyNum) (y : PyNum) (h : ∀ x ∈ l, ∃ w, op.num x y = .ok w) :
    ∃ r, mathOp op.raw (.lst (l.map .num)) (.num y) = .ok r := by
  suffices ∃ zs, (l.map Obj.num).mapM (op.raw · (.num y)) = .ok zs by
    obtain ⟨zs, hz⟩ := this
    exact ⟨.lst zs, by simp [mathOp, hz, bind, Except.bind, pure, Except.pure]⟩
  induction l with
  | nil => exact ⟨[], rfl⟩
  | cons x l ih =>
    obtain ⟨w, hw⟩ := h x (by simp)
    obtain ⟨zs, hz⟩ := ih fun x hx => h x (by simp [hx])
    refine ⟨.num w :: zs, ?_⟩
    have h1 : op.raw (.num x) (.num y) = .ok (.num w) := by simp [AOp.raw, hw, bind, Except.bind, pure, Except.pure]
    rw [List.map_cons, List.mapM_cons, h1, hz]; rfl

/-- C62: lists of different length are refused -/
theorem C62_lengths (op : AOp) (l m : List Obj) (h : l.length ≠ m.length) :
    mathOp op.raw (.lst l) (.lst m) = .error .valueError := by
  simp [mathOp, h]

/-- C62: division returns an integer exactly if both operands are integers and the division is exact; its value is the quotient -/
theorem C62_div (castInt : Bool) (x y : PyNum) (r : Obj) (h : mathDiv castInt (.num x) (.num y) = .ok r) :
    ∃ z : PyNum, r = .num z ∧ z.val = x.val / y.val ∧
      ((∃ n, z = .int n) ↔ ∃ a b q : Int, x = .int a ∧ y = .int b ∧ a = q * b) := by
  cases x with
  | int a =>
    cases y with
    | int b =>
      simp only [mathDiv, bind_ok, pure_ok, pDiv] at h
      obtain ⟨z, h1, rfl⟩ := h
      refine ⟨z, rfl, ?_⟩
      split at h1
      · cases h1
      rename_i hb
      split at h1
      · rename_i hm
        cases h1
        have hq : a = a / b * b := (Int.ediv_mul_cancel (Int.dvd_of_emod_eq_zero hm)).symm
        constructor
        · simp only [PyNum.val]
          rw [eq_div_iff (by exact_mod_cast hb)]
          exact_mod_cast hq.symm
        · exact ⟨fun _ => ⟨a, b, a / b, rfl, rfl, hq⟩, fun _ => ⟨_, rfl⟩⟩
      · rename_i hm
        split at h1
        · cases h1
        · cases h1
          refine ⟨rfl, ?_⟩
          constructor
          · rintro ⟨n, hn⟩; cases hn
          · rintro ⟨a', b', q, e1, e2, e3⟩
            cases e1; cases e2
            exact absurd (by rw [e3]; exact Int.mul_emod_left q b) hm
    | num v =>
      simp only [mathDiv, mathOp, AOp.raw, AOp.num, bind_ok, pure_ok] at h
      obtain ⟨z, ⟨p, hp, q, hq, h1⟩, rfl⟩ := h
      refine ⟨z, rfl, ?_⟩
      split at h1
      · cases h1
      · cases h1
        cases v with
        | flt v => cases hp; cases hq; exact ⟨rfl, by simp⟩
        | endf v s => cases hq
  | num v =>
    have : mathDiv castInt (.num (.num v)) (.num y) = mathOp AOp.div.raw (.num (.num v)) (.num y) := by
      cases y <;> rfl
    rw [this] at h
    simp only [mathOp, AOp.raw, AOp.num, bind_ok, pure_ok] at h
    obtain ⟨z, ⟨p, hp, q, hq, h1⟩, rfl⟩ := h
    refine ⟨z, rfl, ?_⟩
    split at h1
    · cases h1
    · cases h1
      cases v with
      | endf v s => cases hp
      | flt v =>
        cases hp
        cases y with
        | int b => cases hq; exact ⟨rfl, by simp⟩
        | num w =>
          cases w with
          | flt w => cases hq; exact ⟨rfl, by simp⟩
          | endf w s => cases hq

/-- **C62 fails** for nested lists: `[[1, 2]] * 2` is `[[1, 2, 1, 2]]`, and `[[1]] + 1` is a TypeError -/
theorem C62_nested_fails :
    let n (k : Int) : Obj := .num (.int k)
    (match mathOp AOp.mul.raw (.lst [.lst [n 1, n 2]]) (n 2) with
      | .ok (.lst [.lst [.num (.int 1), .num (.int 2), .num (.int 1), .num (.int 2)]]) => true
      | _ => false) = true ∧
    (match mathOp AOp.add.raw (.lst [.lst [n 1]]) (n 1) with
      | .error .typeError => true
      | _ => false) = true := by decide +kernel

/-- C62: `[4, 5] - 1` and `[4] / [2]` -/
example :
    let n (k : Int) : Obj := .num (.int k)
    (match mathOp AOp.sub.raw (.lst [n 4, n 5]) (n 1) with
      | .ok (.lst [.num (.int 3), .num (.int 4)]) => true
      | _ => false) = true ∧
    (match mathDiv true (n 4) (n 2) with
      | .ok (.num (.int 2)) => true
      | _ => false) = true := by decide +kernel

end Verif
