import Verif.Spec.Lines
import Verif.Model.Recipe
import Verif.Lemmas.CppRun
/-
The interpreter reads the same from lines that say the same.
-/
namespace Verif
open Verif.Spec

/-- the second result is the first one, unless that is an error other than the one that ends a lookahead -/
def SameOut {α : Type} (r r' : Res α) : Prop := r' = r ∨ ∃ e, r = .error e ∧ e ≠ .unexpectedControl

def SameOutO {σ : Type} (o o' : Out σ) : Prop := o' = o ∨ ∃ e s, o = .err e s ∧ e ≠ .unexpectedControl

theorem SameOut.bind {α β : Type} {r r' : Res α} {f f' : α → Res β} (h : SameOut r r') (hf : ∀ a, SameOut (f a) (f' a)) : SameOut (r >>= f) (r' >>= f') := by
  rcases h with rfl | ⟨e, rfl, he⟩
  · cases r' with
    | ok a => exact hf a
    | error e => exact .inl rfl
  · exact .inr ⟨e, rfl, he⟩

theorem SameOutO.lift {σ α : Type} {s : σ} {r r' : Res α} {f f' : α → Out σ} (h : SameOut r r') (hf : ∀ a, SameOutO (f a) (f' a)) :
    SameOutO (.lift s r f) (.lift s r' f') := by
  rcases h with rfl | ⟨e, rfl, he⟩
  · cases r' with
    | ok a => exact hf a
    | error e => exact .inl rfl
  · exact .inr ⟨e, s, rfl, he⟩

theorem SameOutO.andThen {σ : Type} {o o' : Out σ} {f f' : σ → Out σ} (h : SameOutO o o') (hf : ∀ a, SameOutO (f a) (f' a)) :
    SameOutO (o.andThen f) (o'.andThen f') := by
  rcases h with rfl | ⟨e, s, rfl, he⟩
  · cases o' with
    | ok a => exact hf a
    | err e s => exact .inl rfl
  · exact .inr ⟨e, s, rfl, he⟩

theorem SameOutO.refl {σ : Type} (o : Out σ) : SameOutO o o := .inl rfl

theorem SameOutO.ok {σ : Type} {o o' : Out σ} (h : SameOutO o o') {s : σ} (hs : o = .ok s) : o' = .ok s := by
  rcases h with rfl | ⟨e, t, rfl, _⟩
  · exact hs
  · cases hs

theorem SameOut.of {α : Type} {r r' : Res α} (h1 : ∀ a, r = .ok a → r' = .ok a) (h2 : ∀ e, r = .error e → e ≠ .unexpectedControl) : SameOut r r' := by
  cases h : r with
  | ok a => exact .inl (h1 a h)
  | error e => exact .inr ⟨e, rfl, h2 e h⟩

/-! ### lines -/

section
variable {ls ls' : List Str} (hl : List.Forall₂ LineAs ls ls')
include hl

theorem line_as (k : Nat) : ls[k]? = none ∧ ls'[k]? = none ∨ ∃ l l', ls[k]? = some l ∧ ls'[k]? = some l' ∧ LineAs l l' := by
  induction hl generalizing k with
  | nil => exact .inl ⟨rfl, rfl⟩
  | cons h _ ih => cases k with
    | zero => exact .inr ⟨_, _, rfl, rfl, h⟩
    | succ k => exact ih k

theorem line_cov {α : Type} (k : Nat) {f f' : Str → Res α} (h : ∀ l l', LineAs l l' → SameOut (f l) (f' l')) :
    SameOut (lineAt ls k >>= f) (lineAt ls' k >>= f') := by
  unfold lineAt
  rcases line_as hl k with ⟨h1, h2⟩ | ⟨l, l', h1, h2, h3⟩
  · rw [h1, h2]; exact .inl rfl
  · rw [h1, h2]; exact h l l' h3

theorem skipBlank_same (k : Nat) : skipBlankLines ls' k = skipBlankLines ls k := by
  have hlen := hl.length_eq
  rw [skipBlankLines.eq_def ls', skipBlankLines.eq_def ls]
  by_cases hk : k < ls.length
  · have hk' : k < ls'.length := by omega
    rcases line_as hl k with ⟨h1, h2⟩ | ⟨l, l', h1, h2, h3⟩
    · rw [List.getElem?_eq_none_iff] at h1; omega
    · rw [List.getElem?_eq_getElem hk, Option.some.injEq] at h1
      rw [List.getElem?_eq_getElem hk', Option.some.injEq] at h2
      rw [dif_pos hk, dif_pos hk', h1, h2, h3.2.2.2.1, h3.2.2.2.2]
      rfl
  · rw [dif_neg hk, dif_neg (by omega)]

end

theorem float_cov {l l' : Str} (h : LineAs l l') {r : ROpts} (hr : r.width = 11) (hp : r.preserve = false) {i : Nat} (hi : i < 6) :
    SameOut (readFloat r (slice l (11 * i) (11 * i + 11))) (readFloat r (slice l' (11 * i) (11 * i + 11))) := by
  have hflt : ∀ {s : Str} {y : Num}, readFloat r s = .ok y → y = .flt y.val := by
    intro s y hy
    unfold readFloat fortstr2float at hy
    rw [hp] at hy
    dsimp only at hy
    split at hy
    · cases hy; rfl
    · split at hy
      · cases hy; rfl
      · cases hy
  rcases h.2.1 i hi with h | ⟨v, h1, h2⟩
  · rw [h]; exact .inl rfl
  · obtain ⟨y, a, b⟩ := h1.2 r hr
    obtain ⟨y', a', b'⟩ := h2.2 r hr
    left
    rw [a, a', hflt a, hflt a', b, b']

theorem int_cov {l l' : Str} (h : LineAs l l') {i : Nat} (h2 : 2 ≤ i) (hi : i < 6) : SameOut (intField 11 l i) (intField 11 l' i) := by
  unfold intField
  have : i * 11 = 11 * i ∧ (i + 1) * 11 = 11 * i + 11 := by omega
  rw [this.1, this.2]
  refine SameOut.of (fun n hn => h.2.2.1 i h2 hi n hn) fun e he => ?_
  unfold readFortInt at he
  split at he
  · cases he
  · split at he
    · cases he
    · cases he; simp

theorem ctrl_sameLine {l l' : Str} (h : LineAs l l') : readCtrl 11 l' = readCtrl 11 l := by
  have key : ∀ i j, 66 ≤ i → j ≤ 75 → slice l' i j = slice l i j := by
    intro i j hi hj
    have e : ∀ s : Str, slice s i j = ((slice s 66 75).take (j - 66)).drop (i - 66) := by
      intro s
      unfold slice
      rw [List.take_drop, List.take_take, List.drop_drop]
      by_cases hij : 66 ≤ j
      · rw [show min (66 + (j - 66)) 75 = j by omega, show 66 + (i - 66) = i by omega]
      · rw [List.drop_of_length_le (by simp; omega), List.drop_of_length_le (by simp; omega)]
    rw [e l, e l', h.1]
  unfold readCtrl
  dsimp only
  rw [key _ _ (by omega) (by omega), key _ _ (by omega) (by omega), key _ _ (by omega) (by omega)]

theorem SameOut.rfl' {α : Type} {r : Res α} : SameOut r r := .inl rfl

section
variable {ls ls' : List Str} (hl : List.Forall₂ LineAs ls ls') {r : ROpts} (hr : r.width = 11) (hp : r.preserve = false)
include hl hr hp

theorem cont_cov (k : Nat) : SameOut (readCont r ls k) (readCont r ls' k) := by
  unfold readCont
  rw [hr]
  refine line_cov hl k fun l l' h => ?_
  dsimp only
  refine .bind (float_cov h hr hp (i := 0) (by omega)) fun _ => .bind (float_cov h hr hp (i := 1) (by omega)) fun _ => ?_
  refine .bind (int_cov h (by omega) (by omega)) fun _ => .bind (int_cov h (by omega) (by omega)) fun _ => ?_
  refine .bind (int_cov h (by omega) (by omega)) fun _ => .bind (int_cov h (by omega) (by omega)) fun _ => ?_
  rw [ctrl_sameLine h]
  exact .inl rfl

omit hp in
theorem dir_cov (k : Nat) : SameOut (readDir r ls k) (readDir r ls' k) := by
  unfold readDir
  rw [hr]
  refine line_cov hl k fun l l' h => ?_
  refine .bind (int_cov h (by omega) (by omega)) fun _ => .bind (int_cov h (by omega) (by omega)) fun _ => ?_
  refine .bind (int_cov h (by omega) (by omega)) fun _ => .bind (int_cov h (by omega) (by omega)) fun _ => ?_
  rw [ctrl_sameLine h]
  exact .inl rfl

theorem numbers_cov (n : Nat) : ∀ k : Nat, SameOut (readNumbers r ls n k) (readNumbers r ls' n k) := by
  induction n using Nat.strong_induction_on with
  | _ n ih =>
    intro k
    rw [readNumbers.eq_def r ls, readNumbers.eq_def r ls']
    split
    · exact .inl rfl
    · refine line_cov hl k fun l l' h => .bind ?_ fun vals => .bind (ih (n - 6) (by omega) (k + 1)) fun _ => .inl rfl
      unfold readFortFloats
      rw [hr]
      have hn : min 6 n ≤ 6 := by omega
      generalize min 6 n = m at hn
      have : ∀ is : List Nat, (∀ i ∈ is, i < 6) → SameOut (is.mapM fun i => readFloat r (slice l (i * 11) (i * 11 + 11)))
          (is.mapM fun i => readFloat r (slice l' (i * 11) (i * 11 + 11))) := by
        intro is his
        induction is with
        | nil => exact .inl rfl
        | cons i is ih2 =>
          rw [List.mapM_cons, List.mapM_cons]
          refine .bind ?_ fun _ => .bind (ih2 fun j hj => his j (by simp [hj])) fun _ => .inl rfl
          rw [Nat.mul_comm i 11]
          exact float_cov h hr hp (his i (by simp))
      exact this _ fun i hi => by rw [List.mem_range] at hi; omega

theorem list_cov (k : Nat) : SameOut (readList r ls k) (readList r ls' k) := by
  unfold readList
  refine .bind (cont_cov hl hr hp k) fun ⟨h, ofs⟩ => ?_
  dsimp only
  split
  · exact .inl rfl
  · exact .bind (numbers_cov hl hr hp _ _) fun _ => .inl rfl

theorem tab2_cov (k : Nat) : SameOut (readTab2 r ls k) (readTab2 r ls' k) := by
  unfold readTab2
  exact .bind (cont_cov hl hr hp k) fun ⟨h, ofs⟩ => .bind (numbers_cov hl hr hp _ _) fun _ => .inl rfl

theorem tab1_cov (k : Nat) : SameOut (readTab1 r ls k) (readTab1 r ls' k) := by
  unfold readTab1
  exact .bind (cont_cov hl hr hp k) fun ⟨h, ofs⟩ => .bind (numbers_cov hl hr hp _ _) fun ⟨_, _⟩ => .bind (numbers_cov hl hr hp _ _) fun _ => .inl rfl

theorem send_cov (k : Nat) : SameOut (readSend r ls k) (readSend r ls' k) := by
  unfold readSend
  exact .bind (cont_cov hl hr hp k) fun ⟨h, ofs⟩ => .inl rfl

end

/-! ### runs -/

/-- no TEXT and no INTG records, which are not divided into fields of eleven columns -/
def noText : Prog → Bool
  | .act (.text ..) => false
  | .act (.intg ..) => false
  | .seq a b => noText a && noText b
  | .sect _ b => noText b
  | .loop _ _ _ b => noText b
  | .ite _ _ a b => noText a && noText b
  | _ => true

theorem mapFields_lines (c : RCtx) (L : List Str) : mapFields { c with lines := L } = mapFields c := rfl

theorem readBody_lines (c : RCtx) (L : List Str) (vals : List PyNum) (b : LBody) : readBody { c with lines := L } vals b = readBody c vals b := by
  induction b with
  | nil => rfl
  | seq a b iha ihb => funext l; unfold readBody; rw [iha, ihb]
  | expr e => rfl
  | pad => rfl
  | loop v a b body ih => funext l; unfold readBody; rw [ih]

theorem readNamedBody_lines (c : RCtx) (L : List Str) (vals : List PyNum) (b : LBody) (name : Option VarRef) :
    readNamedBody { c with lines := L } vals b name = readNamedBody c vals b name := by
  funext s
  unfold readNamedBody
  rw [readBody_lines]

theorem takeRec_cov {α : Type} {c : RCtx} {L : List Str} (hl : List.Forall₂ LineAs c.lines L) {s : RSt} {rd : List Str → Nat → Res (α × Nat)}
    (hrd : ∀ k, SameOut (rd c.lines k) (rd L k)) {f : α → RSt → Out RSt} :
    SameOutO (takeRec c s rd f) (takeRec { c with lines := L } s rd f) := by
  unfold takeRec
  dsimp only
  rw [skipBlank_same hl]
  exact .lift .rfl' fun k => .lift (hrd k) fun _ => .refl _

theorem readAct_cov {c : RCtx} (hr : c.ro.width = 11) (hp : c.ro.preserve = false) {L : List Str} (hl : List.Forall₂ LineAs c.lines L) (a : Act)
    (ha : noText (.act a) = true) (s : RSt) : SameOutO (readAct c a s) (readAct { c with lines := L } a s) := by
  cases a with
  | text => cases ha
  | intg => cases ha
  | cont h k fs =>
    unfold readAct
    simp only [mapFields_lines]
    exact takeRec_cov hl (cont_cov hl hr hp)
  | dir k fs =>
    unfold readAct
    simp only [mapFields_lines]
    exact takeRec_cov hl (dir_cov hl hr)
  | tab1 k fs x y name =>
    unfold readAct
    simp only [mapFields_lines]
    exact takeRec_cov hl (tab1_cov hl hr hp)
  | tab2 k fs name =>
    unfold readAct
    simp only [mapFields_lines]
    exact takeRec_cov hl (tab2_cov hl hr hp)
  | list k fs body name =>
    unfold readAct
    simp only [readNamedBody_lines, mapFields_lines]
    exact takeRec_cov hl (list_cov hl hr hp)
  | send =>
    unfold readAct
    dsimp only
    rw [skipBlank_same hl]
    exact .lift .rfl' fun k => .lift (send_cov hl hr hp k) fun _ => .refl _
  | stop =>
    unfold readAct lineAt
    dsimp only
    rcases line_as hl s.ofs with ⟨h1, h2⟩ | ⟨l, l', h1, h2, h3⟩
    · rw [h1, h2]; exact .refl _
    · rw [h1, h2]; exact .refl _

theorem iterate_cov {σ : Type} {set : Int → σ → σ} {f f' : σ → Out σ} (h : ∀ s, SameOutO (f s) (f' s)) (is : List Int) :
    ∀ s, SameOutO (iterate set f is s) (iterate set f' is s) := by
  induction is with
  | nil => intro s; exact .refl _
  | cons i is ih => intro s; exact (h _).andThen ih

theorem readProg_cov {c : RCtx} (hr : c.ro.width = 11) (hp : c.ro.preserve = false) {L : List Str} (hl : List.Forall₂ LineAs c.lines L) (p : Prog)
    (ht : noText p = true) : ∀ s, SameOutO (readProg c p s) (readProg { c with lines := L } p s) := by
  induction p with
  | skip => intro s; exact .refl _
  | seq a b iha ihb =>
    intro s
    simp only [noText, Bool.and_eq_true] at ht
    exact (iha ht.1 s).andThen (ihb ht.2)
  | act a =>
    intro s
    unfold readProg
    cases s.proceed with
    | none => exact .refl _
    | some s => exact readAct_cov hr hp hl a ht s
  | sect r body ih =>
    intro s
    unfold readProg
    split
    · exact .refl _
    · exact .lift .rfl' fun s1 => (ih ht _).andThen fun s2 => .refl _
  | loop v a b body ih =>
    intro s
    unfold readProg
    split
    · exact .refl _
    · exact .lift .rfl' fun (x, y) => (iterate_cov (ih ht) _ _).andThen fun s2 => .refl _
  | ite cond look thn els iht ihe =>
    intro s
    simp only [noText, Bool.and_eq_true] at ht
    unfold readProg
    split
    · exact .refl _
    · cases look with
      | none =>
        refine .lift .rfl' fun t => ?_
        cases t
        · exact ihe ht.2 s
        · exact iht ht.1 s
      | some e =>
        refine .lift .rfl' fun n => ?_
        dsimp only
        have key : ∀ s' : RSt, SameOutO
            (Out.lift s' (evalCond c.fuel (s'.envAt s.ups.length) cond) fun t => if t = true then readProg c thn s else readProg c els s)
            (Out.lift s' (evalCond c.fuel (s'.envAt s.ups.length) cond) fun t =>
              if t = true then readProg { c with lines := L } thn s else readProg { c with lines := L } els s) := by
          intro s'
          refine .lift .rfl' fun t => ?_
          cases t
          · exact ihe ht.2 s
          · exact iht ht.1 s
        rcases iht ht.1 { s with look := some n, ignoreAll := true } with h | ⟨e, s', h, he⟩
        · rw [h]
          split
          · exact key _
          · exact key _
          · exact .refl _
        · rw [h]
          right
          refine ⟨e, s', ?_, he⟩
          split
          · rename_i h'; cases h'; exact absurd rfl he
          · rename_i h'; cases h'
          · rename_i h'; cases h'; rfl
  | abbr n e => intro s; exact .refl _

/-- what is read from the first lines is read from the second lines -/
theorem readSection_cov {c : RCtx} (hr : c.ro.width = 11) (hp : c.ro.preserve = false) {L : List Str} (hl : List.Forall₂ LineAs c.lines L) {p : Prog}
    (ht : noText p = true) {ig : Bool} {s : RSt} (h : readSection c ig p = .ok s) : readSection { c with lines := L } ig p = .ok s := by
  refine SameOutO.ok (o := readSection c ig p) ?_ h
  unfold readSection
  exact (readProg_cov hr hp hl p ht _).andThen fun _ => .refl _

end Verif
