import Verif.Model.CppFun
import Verif.Props.CppArr
import Verif.Lemmas.Assign
import Verif.Lemmas.Extend
import Verif.Spec.Along

/-! Values of the variables of both parsers at given indices. -/

namespace Verif
open Spec

/-- the value below an optional container -/
def find (o : Option Val) (is : List Int) : Option Val :=
  match o with
  | none => none
  | some v => match getArr v is with
    | .ok w => some w
    | .error _ => none

theorem find_some {v w : Val} {is : List Int} : find (some v) is = some w ↔ getArr v is = .ok w := by
  simp only [find]
  cases getArr v is <;> simp

theorem find_none (is : List Int) : find none is = none := rfl

theorem find_cons (d : DDic) (i : Int) (is : List Int) : find (some (.dic d)) (i :: is) = find (dGet (.idx i) d) is := by
  simp only [find, getArr]
  cases dGet (Key.idx i) d <;> rfl

theorem find_nil (v : Val) : find (some v) [] = some v := by cases v <;> rfl

/-- what is found after an assignment -/
theorem find_setArr {o : Option Val} {is : List Int} {w new : Val} (h : setArr o is w = .ok new) {js : List Int}
    (hl : js.length = is.length) : find (some new) js = if js = is then some w else find o js := by
  induction is generalizing o new js with
  | nil =>
    have : js = [] := List.length_eq_zero_iff.1 hl
    subst this
    rw [if_pos rfl]
    exact find_some.2 (getArr_setArr_same h)
  | cons i is ih =>
    cases js with
    | nil => simp at hl
    | cons j js =>
      have hl' : js.length = is.length := by simpa using hl
      cases o with
      | none =>
        simp only [setArr, bind_ok, pure_ok] at h
        obtain ⟨n, hn, rfl⟩ := h
        rw [find_cons, find_none, dGet_dSet]
        by_cases e : i = j
        · subst e
          rw [if_pos rfl, ih hn hl', find_none]; simp
        · rw [if_neg (by simpa using e)]
          have : ¬ (j :: js = i :: is) := by intro h; cases h; exact e rfl
          rw [if_neg this]; rfl
      | some u =>
        cases u with
        | dic d =>
          simp only [setArr, bind_ok, pure_ok] at h
          obtain ⟨n, hn, rfl⟩ := h
          rw [find_cons, dGet_dSet]
          by_cases e : i = j
          · subst e
            rw [if_pos rfl, ih hn hl', find_cons]; simp
          · rw [if_neg (by simpa using e)]
            have : ¬ (j :: js = i :: is) := by intro h; cases h; exact e rfl
            rw [if_neg this, find_cons]
        | _ => simp [setArr] at h

/-- a value of the given kind -/
def KindVal : CKind → Val → Prop
  | .flt, v => ∃ q, v = .num (.num (.flt q))
  | .int, v => ∃ n, v = .num (.int n)
  | .txt, v => ∃ t, v = .txt t
  | .ivec, v => ∃ l : List Int, v = .lst (l.map PyNum.int)
  | .fvec, v => ∃ l : List ℚ, v = .lst (l.map fun q => PyNum.num (.flt q))

theorem kind_not_dic {k : CKind} {v : Val} (h : KindVal k v) : ∀ d, v ≠ .dic d := by
  rintro d rfl; cases k <;> obtain ⟨_, h⟩ := h <;> cases h

theorem kind_not_abb {k : CKind} {v : Val} (h : KindVal k v) : ∀ e, v ≠ .abb e := by
  rintro d rfl; cases k <;> obtain ⟨_, h⟩ := h <;> cases h

/-- values of the same kind that are the same are identical -/
theorem kind_same {k : CKind} {v w : Val} (hv : KindVal k v) (hw : KindVal k w) (h : SameVal v w) : v = w := by
  cases k with
  | flt =>
    obtain ⟨a, rfl⟩ := hv; obtain ⟨b, rfl⟩ := hw
    simp only [SameVal, PyNum.val, Num.val] at h; rw [h]
  | int =>
    obtain ⟨a, rfl⟩ := hv; obtain ⟨b, rfl⟩ := hw
    simp only [SameVal, PyNum.val] at h; rw [Int.cast_inj.1 h]
  | txt =>
    obtain ⟨a, rfl⟩ := hv; obtain ⟨b, rfl⟩ := hw
    simp only [SameVal] at h; rw [h]
  | ivec =>
    obtain ⟨a, rfl⟩ := hv; obtain ⟨b, rfl⟩ := hw
    simp only [SameVal, List.map_map] at h
    have hf : (PyNum.val ∘ PyNum.int) = fun n : Int => (n : ℚ) := rfl
    rw [hf] at h
    rw [List.map_injective_iff.2 (fun x y h => Int.cast_inj.1 h) h]
  | fvec =>
    obtain ⟨a, rfl⟩ := hv; obtain ⟨b, rfl⟩ := hw
    simp only [SameVal, List.map_map] at h
    have hf : (PyNum.val ∘ fun q => PyNum.num (.flt q)) = fun q : ℚ => q := rfl
    rw [hf] at h
    simp at h
    rw [h]

/-- an array with `n` indices of values of kind `k`, without empty parts -/
def DeepT (k : CKind) : Nat → Val → Prop
  | 0, v => KindVal k v
  | n + 1, v => ∃ d : DDic, v = .dic d ∧ (∃ i u, dGet (.idx i) d = some u) ∧
      ∀ key u, dGet key d = some u → (∃ i, key = .idx i) ∧ DeepT k n u

theorem deep_find {k : CKind} {n : Nat} {v w : Val} (h : DeepT k n v) {is : List Int} (hl : is.length = n)
    (hf : find (some v) is = some w) : KindVal k w := by
  induction n generalizing v is with
  | zero =>
    have : is = [] := List.length_eq_zero_iff.1 hl
    subst this
    rw [find_nil] at hf; cases hf; exact h
  | succ n ih =>
    obtain ⟨d, rfl, _, hd⟩ := h
    cases is with
    | nil => simp at hl
    | cons i is =>
      rw [find_cons] at hf
      cases hg : dGet (Key.idx i) d with
      | none => rw [hg] at hf; cases hf
      | some u => rw [hg] at hf; exact ih (hd _ _ hg).2 (by simpa using hl) hf

/-- something is found in an array -/
theorem deep_some {k : CKind} {n : Nat} {v : Val} (h : DeepT k n v) : ∃ is w, is.length = n ∧ find (some v) is = some w := by
  induction n generalizing v with
  | zero => exact ⟨[], v, rfl, find_nil v⟩
  | succ n ih =>
    obtain ⟨d, rfl, ⟨i, u, hu⟩, hd⟩ := h
    obtain ⟨is, w, hl, hw⟩ := ih (hd _ _ hu).2
    exact ⟨i :: is, w, by simp [hl], by rw [find_cons, hu, hw]⟩

theorem setArr_deep {k : CKind} {is : List Int} {o : Option Val} {w new : Val} (ho : ∀ u, o = some u → DeepT k is.length u)
    (hw : KindVal k w) (h : setArr o is w = .ok new) : DeepT k is.length new := by
  induction is generalizing o new with
  | nil =>
    have : new = w := by
      cases o with
      | none => simp only [setArr, Except.ok.injEq] at h; exact h.symm
      | some v => cases v <;> simp only [setArr, Except.ok.injEq] at h <;> exact h.symm
    subst this; exact hw
  | cons i is ih =>
    cases o with
    | none =>
      simp only [setArr, bind_ok, pure_ok] at h
      obtain ⟨n, hn, rfl⟩ := h
      have hd := ih (fun u hu => by cases hu) hn
      refine ⟨_, rfl, ⟨i, n, dGet_dSet_self _ _ _⟩, fun key u hu => ?_⟩
      rw [dGet_dSet] at hu
      split at hu
      · rename_i e; cases hu; exact ⟨⟨i, e.symm⟩, hd⟩
      · simp [dGet] at hu
    | some v =>
      obtain ⟨d, rfl, _, hd⟩ := ho v rfl
      simp only [setArr, bind_ok, pure_ok] at h
      obtain ⟨n, hn, rfl⟩ := h
      have hd' := ih (fun u hu => (hd _ _ hu).2) hn
      refine ⟨_, rfl, ⟨i, n, dGet_dSet_self _ _ _⟩, fun key u hu => ?_⟩
      rw [dGet_dSet] at hu
      split at hu
      · rename_i e; cases hu; exact ⟨⟨i, e.symm⟩, hd'⟩
      · exact hd _ _ hu

/-- the same dictionary: the same values at all places; a dictionary counts as such -/
def Spec.SameAt (u w : Val) : Prop :=
  ∀ p : List Key, (match valAt u p, valAt w p with
    | some (.dic _), some (.dic _) => True
    | x, y => x = y)

theorem sameAt_refl (u : Val) : SameAt u u := by
  intro p
  cases valAt u p with
  | none => trivial
  | some v => cases v <;> trivial

theorem sameAt_dic {d d' : DDic} (h : ∀ k, (match dGet k d, dGet k d' with
    | some u, some w => SameAt u w
    | none, none => True
    | _, _ => False)) : SameAt (.dic d) (.dic d') := by
  intro p
  cases p with
  | nil => trivial
  | cons k p =>
    have := h k
    simp only [valAt]
    cases h1 : dGet k d <;> cases h2 : dGet k d' <;> rw [h1, h2] at this
    all_goals first | exact this p | exact this.elim | trivial

theorem sameAt_get {d d' : DDic} (h : SameAt (.dic d) (.dic d')) (k : Key) : (match dGet k d, dGet k d' with
    | some u, some w => SameAt u w
    | none, none => True
    | _, _ => False) := by
  cases h1 : dGet k d with
  | none =>
    cases h2 : dGet k d' with
    | none => trivial
    | some w =>
      have := h [k]
      simp only [valAt, h1, h2] at this
      cases w <;> cases this
  | some u =>
    cases h2 : dGet k d' with
    | none =>
      have := h [k]
      simp only [valAt, h1, h2] at this
      cases u <;> cases this
    | some w =>
      intro p
      have := h (k :: p)
      simp only [valAt, h1, h2] at this
      exact this

/-- arrays in which the same is found are the same -/
theorem deep_same {k : CKind} {n : Nat} {u w : Val} (hu : DeepT k n u) (hw : DeepT k n w)
    (h : ∀ is, is.length = n → find (some u) is = find (some w) is) : SameAt u w := by
  induction n generalizing u w with
  | zero =>
    have := h [] rfl
    rw [find_nil, find_nil] at this; cases this
    exact sameAt_refl _
  | succ n ih =>
    obtain ⟨d, rfl, _, hd⟩ := hu
    obtain ⟨d', rfl, _, hd'⟩ := hw
    refine sameAt_dic fun key => ?_
    cases h1 : dGet key d with
    | none =>
      cases h2 : dGet key d' with
      | none => trivial
      | some w =>
        exfalso
        obtain ⟨⟨i, rfl⟩, hw⟩ := hd' _ _ h2
        obtain ⟨is, x, hl, hx⟩ := deep_some hw
        have := h (i :: is) (by simp [hl])
        rw [find_cons, find_cons, h1, h2, hx] at this
        cases this
    | some u =>
      obtain ⟨⟨i, rfl⟩, hu⟩ := hd _ _ h1
      cases h2 : dGet (Key.idx i) d' with
      | none =>
        exfalso
        obtain ⟨is, x, hl, hx⟩ := deep_some hu
        have := h (i :: is) (by simp [hl])
        rw [find_cons, find_cons, h1, h2, hx] at this
        cases this
      | some w =>
        refine ih hu (hd' _ _ h2).2 fun is hl => ?_
        have := h (i :: is) (by simp [hl])
        rw [find_cons, find_cons, h1, h2] at this
        exact this

/-! ### the Python parser -/

/-- the value of a variable in a dictionary -/
def look (d : DDic) (n : Name) (is : List Int) : Option Val := find (dGet (.var n) d) is

/-- kinds and numbers of indices of the variables -/
abbrev Kinds := Name → Option (CKind × Nat)

/-- the variables in a dictionary have the kinds given by `Γ` -/
def TypedD (Γ : Kinds) (d : DDic) : Prop :=
  ∀ n k ar v, Γ n = some (k, ar) → dGet (.var n) d = some v → DeepT k ar v

/-- the value of a variable in the current section, or of a loop variable -/
def refVal (d : DDic) (lv : Dict Name Int) (r : VarRef) : Option Val :=
  match dGet r.name lv with
  | some i => some (.num (.int i))
  | none => match r.idx.mapM (idxVal lv) with
    | .ok is => look d r.name is
    | .error _ => none

theorem getVarval_refVal {d : DDic} {ups : List DDic} {lv : Dict Name Int} {r : VarRef} {w : Val}
    (h : getVarval ⟨d, ups, lv⟩ false r = .ok w) : refVal d lv r = some w := by
  rw [getVarval_local] at h
  unfold refVal
  split at h
  · cases h
  · cases hl : dGet r.name lv with
    | some i => rw [hl] at h; cases h; rfl
    | none =>
      rw [hl] at h
      dsimp only at h ⊢
      cases hd : dGet (Key.var r.name) d with
      | none => rw [hd] at h; cases h
      | some v =>
        rw [hd] at h
        simp only [bind_ok] at h
        obtain ⟨is, his, h⟩ := h
        rw [his]
        dsimp only
        rw [look, hd]
        exact find_some.2 h

/-- more values, none of them changed -/
def GrowD (Γ : Kinds) (d d' : DDic) : Prop :=
  ∀ n k ar, Γ n = some (k, ar) → ∀ is w, is.length = ar → look d n is = some w → look d' n is = some w

theorem GrowD.refl (Γ : Kinds) (d : DDic) : GrowD Γ d d := fun _ _ _ _ _ _ _ h => h
theorem GrowD.trans {Γ : Kinds} {a b c : DDic} (h1 : GrowD Γ a b) (h2 : GrowD Γ b c) : GrowD Γ a c :=
  fun n k ar hn is w hl h => h2 n k ar hn is w hl (h1 n k ar hn is w hl h)

/-- other entries are not touched -/
def FrameD (Γ : Kinds) (d d' : DDic) : Prop :=
  ∀ key, (∀ n x, key = .var n → Γ n ≠ some x) → dGet key d' = dGet key d

theorem FrameD.refl (Γ : Kinds) (d : DDic) : FrameD Γ d d := fun _ _ => rfl
theorem FrameD.trans {Γ : Kinds} {a b c : DDic} (h1 : FrameD Γ a b) (h2 : FrameD Γ b c) : FrameD Γ a c :=
  fun key h => (h2 key h).trans (h1 key h)

/-- new values belong to the given variables -/
def NewD (Γ : Kinds) (lv : Dict Name Int) (rs : List VarRef) (d d' : DDic) : Prop :=
  ∀ n k ar, Γ n = some (k, ar) → ∀ is w, is.length = ar → look d' n is = some w →
    look d n is = some w ∨ ∃ r ∈ rs, r.name = n ∧ r.idx.mapM (idxVal lv) = .ok is ∧ dGet r.name lv = none

theorem NewD.refl (Γ : Kinds) (lv : Dict Name Int) (rs : List VarRef) (d : DDic) : NewD Γ lv rs d d :=
  fun _ _ _ _ _ _ _ h => .inl h
theorem NewD.trans {Γ : Kinds} {lv : Dict Name Int} {rs : List VarRef} {a b c : DDic} (h1 : NewD Γ lv rs a b)
    (h2 : NewD Γ lv rs b c) : NewD Γ lv rs a c := by
  intro n k ar hn is w hl h
  rcases h2 n k ar hn is w hl h with h | h
  · exact h1 n k ar hn is w hl h
  · exact .inr h
theorem NewD.mono {Γ : Kinds} {lv : Dict Name Int} {rs rs' : List VarRef} {a b : DDic} (h : NewD Γ lv rs a b)
    (hs : ∀ r ∈ rs, r ∈ rs') : NewD Γ lv rs' a b := by
  intro n k ar hn is w hl hw
  rcases h n k ar hn is w hl hw with h | ⟨r, hr, h⟩
  · exact .inl h
  · exact .inr ⟨r, hs r hr, h⟩

theorem idxs_length {lv : Dict Name Int} {l : List Idx} {is : List Int} (h : l.mapM (idxVal lv) = .ok is) :
    is.length = l.length := by
  induction l generalizing is with
  | nil => simp [pure, Except.pure] at h; subst h; rfl
  | cons i l ih =>
    simp only [List.mapM_cons, bind_ok, pure_ok] at h
    obtain ⟨_, _, _, h2, rfl⟩ := h
    simp [ih h2]

/-- assignment to a variable -/
theorem setVarval_look {Γ : Kinds} {d d' : DDic} {lv : Dict Name Int} {r : VarRef} {v : Val} {k : CKind}
    (hr : Γ r.name = some (k, r.idx.length)) (hl : dGet r.name lv = none) (hv : KindVal k v) (ht : TypedD Γ d)
    (h : setVarval d lv r v = .ok d') :
    TypedD Γ d' ∧ FrameD Γ d d' ∧ NewD Γ lv [r] d d' ∧ refVal d' lv r = some v ∧
    ∀ n k ar, Γ n = some (k, ar) → ∀ is, is.length = ar → (r.name = n → r.idx.mapM (idxVal lv) ≠ .ok is) →
      look d' n is = look d n is := by
  unfold setVarval at h
  simp only [bind_ok, pure_ok] at h
  obtain ⟨is, his, new, hnew, rfl⟩ := h
  have hlen := idxs_length his
  have hother : ∀ n k ar, Γ n = some (k, ar) → ∀ js, js.length = ar → (r.name = n → r.idx.mapM (idxVal lv) ≠ .ok js) →
      look (dSet (.var r.name) new d) n js = look d n js := by
    intro n k' ar hn js hjs hne
    unfold look
    by_cases e : r.name = n
    · subst e
      rw [hr] at hn; cases hn
      rw [dGet_dSet_self, find_setArr hnew (by omega), if_neg]
      rintro rfl; exact hne rfl his
    · rw [dGet_dSet_ne (by simpa using e)]
  have hsame : look (dSet (.var r.name) new d) r.name is = some v := by
    unfold look
    rw [dGet_dSet_self, find_setArr hnew rfl, if_pos rfl]
  refine ⟨?_, ?_, ?_, ?_, hother⟩
  · intro n k' ar w hn hw
    rw [dGet_dSet] at hw
    split at hw
    · rename_i e; cases e; cases hw
      rw [hr] at hn; cases hn
      rw [← hlen]
      exact setArr_deep (fun u hu => by rw [hlen]; exact ht _ _ _ _ hr hu) hv hnew
    · exact ht n k' ar w hn hw
  · intro key hk
    rw [dGet_dSet_ne]
    rintro rfl; exact hk _ _ rfl hr
  · intro n k' ar hn js w hjs hw
    by_cases e : r.name = n ∧ r.idx.mapM (idxVal lv) = .ok js
    · exact .inr ⟨r, by simp, e.1, e.2, hl⟩
    · rw [hother n k' ar hn js hjs (fun h1 h2 => e ⟨h1, h2⟩)] at hw
      exact .inl hw
  · unfold refVal
    rw [hl]; dsimp only; rw [his]; exact hsame

end Verif
