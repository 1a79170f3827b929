import Verif.Model.Shifter
import Mathlib.Tactic.Ring
import Mathlib.Tactic.Linarith
import Mathlib.Logic.Function.Basic
import Mathlib.Data.List.GetD

/-! C68: the array store of the compiled parsers. -/

namespace Verif

/-- what has been stored: index vectors and objects -/
abbrev AMap := List Int → Option CObj

/-- the container `o` has the elements `cs` at the indices `start`, `start + 1`, … -/
def Kids (lm : Bool) (o : CObj) (start : Int) (cs : List CObj) : Prop :=
  if lm then o = .list cs
  else ∃ d, o = .dict d ∧ ∀ j, dGet j d = if start ≤ j then cs[(j - start).toNat]? else none

theorem Kids.fits {lm : Bool} {o : CObj} {a : Int} {cs : List CObj} (h : Kids lm o a cs) : o.fits lm = true := by
  unfold Kids at h
  split at h
  · rename_i hl; subst h; simpa [CObj.fits] using hl
  · rename_i hl; obtain ⟨d, rfl, _⟩ := h; simpa [CObj.fits] using hl

theorem Kids.empty (lm : Bool) (a : Int) : Kids lm (.empty lm) a [] := by
  unfold Kids CObj.empty
  split
  · rfl
  · exact ⟨[], rfl, fun j => by simp [dGet]⟩

theorem Kids.restart {lm : Bool} {o : CObj} {a : Int} (b : Int) (h : Kids lm o a []) : Kids lm o b [] := by
  unfold Kids at h ⊢
  split
  · rename_i hl; rw [if_pos hl] at h; exact h
  · rename_i hl
    rw [if_neg hl] at h
    obtain ⟨d, rfl, hd⟩ := h
    exact ⟨d, rfl, fun j => by rw [hd j]; simp⟩

variable {lm : Bool} {o : CObj} {start i : Int} {cs : List CObj}

/-- the key used for index `i` -/
def keyOf (lm : Bool) (start i : Int) : Int := if lm then i - start else i

theorem Kids.item (h : Kids lm o start cs) (hi : start ≤ i) :
    itemAt o (keyOf lm start i) = cs[(i - start).toNat]? := by
  unfold Kids at h
  unfold keyOf
  split at h
  · rename_i hl; subst h; rw [if_pos hl]; rfl
  · rename_i hl
    obtain ⟨d, rfl, hd⟩ := h
    rw [if_neg hl]
    simp only [itemAt]
    rw [hd, if_pos hi]

theorem Kids.has (h : Kids lm o start cs) (hi : start ≤ i) :
    keyExists o (keyOf lm start i) = decide ((i - start).toNat < cs.length) := by
  unfold Kids at h
  unfold keyOf
  split at h
  · rename_i hl; subst h; rw [if_pos hl]; rfl
  · rename_i hl
    obtain ⟨d, rfl, hd⟩ := h
    rw [if_neg hl]
    simp only [keyExists, dHas]
    rw [hd, if_pos hi]
    by_cases hc : (i - start).toNat < cs.length
    · rw [List.getElem?_eq_getElem hc]; simp [hc]
    · rw [List.getElem?_eq_none (by omega)]; simp; omega

theorem Kids.insert (h : Kids lm o start cs) (hi : start ≤ i) (hk : (i - start).toNat = cs.length) (e : CObj) :
    ∃ o', insertObj o (keyOf lm start i) e = some o' ∧ Kids lm o' start (cs ++ [e]) := by
  unfold Kids at h
  unfold keyOf
  split at h
  · rename_i hl
    subst h
    rw [if_pos hl]
    refine ⟨.list (cs ++ [e]), ?_, ?_⟩
    · simp only [insertObj]; rw [if_pos hk]
    · unfold Kids; rw [if_pos hl]
  · rename_i hl
    obtain ⟨d, rfl, hd⟩ := h
    rw [if_neg hl]
    refine ⟨_, rfl, ?_⟩
    unfold Kids
    rw [if_neg hl]
    refine ⟨_, rfl, fun j => ?_⟩
    rw [dGet_dSet]
    by_cases hij : i = j
    · subst hij
      rw [if_pos rfl, if_pos hi, hk]
      simp
    · rw [if_neg hij, hd j]
      by_cases hj : start ≤ j
      · rw [if_pos hj, if_pos hj]
        rcases Nat.lt_or_ge (j - start).toNat cs.length with hc | hc
        · rw [List.getElem?_append_left hc]
        · rw [List.getElem?_eq_none hc, List.getElem?_eq_none (by simp; omega)]
      · rw [if_neg hj, if_neg hj]

theorem Kids.put (h : Kids lm o start cs) (hi : start ≤ i) (hk : (i - start).toNat < cs.length) (e : CObj) :
    Kids lm (putItem o (keyOf lm start i) e) start (cs.set (i - start).toNat e) := by
  unfold Kids at h
  unfold keyOf
  split at h
  · rename_i hl
    subst h
    unfold Kids
    rw [if_pos hl, if_pos hl]
    rfl
  · rename_i hl
    obtain ⟨d, rfl, hd⟩ := h
    unfold Kids
    rw [if_neg hl, if_neg hl]
    refine ⟨_, rfl, fun j => ?_⟩
    rw [dGet_dSet]
    by_cases hij : i = j
    · subst hij
      rw [if_pos rfl, if_pos hi, List.getElem?_set_self hk]
    · rw [if_neg hij, hd j]
      by_cases hj : start ≤ j
      · rw [if_pos hj, if_pos hj, List.getElem?_set_ne (by omega)]
      · rw [if_neg hj, if_neg hj]

/-- the shifter `sh` and the object `o` hold the objects `f` under vectors of length `n`; the vectors `A` have been used
with this shifter -/
def Holds (lm : Bool) : Nat → Shift → CObj → AMap → (List Int → Prop) → Prop
  | 0, _, o, f, _ => f [] = some o
  | n + 1, sh, o, f, A => ∃ (start : Int) (cs : List CObj) (m : Nat),
      Kids lm o start cs ∧ m ≤ cs.length ∧
      (∀ (i : Nat) (h : i < cs.length), Holds lm n (sh.next.getD i .fresh) cs[i]
        (fun q => f ((start + (i : Int)) :: q)) (fun q => A ((start + (i : Int)) :: q))) ∧
      (∀ j, ¬ (start ≤ j ∧ j < start + (cs.length : Int)) → ∀ q, f (j :: q) = none) ∧
      (∀ (i : Nat), i < cs.length → ∃ q, f ((start + (i : Int)) :: q) ≠ none) ∧
      (if n = 0 then sh.next = [] else sh.next.length = m) ∧
      (sh.accessed = decide (0 < m)) ∧ (0 < m → sh.start = start) ∧
      (∀ j, (∃ q, A (j :: q)) ↔ (start ≤ j ∧ j < start + (m : Int)))

theorem Holds.fresh_empty (lm : Bool) (n : Nat) {f : AMap} {A : List Int → Prop} (hf : ∀ q, f q = none) (hA : ∀ q, ¬ A q) :
    Holds lm (n + 1) .fresh (.empty lm) f A := by
  refine ⟨0, [], 0, Kids.empty lm 0, le_refl _, ?_, fun j _ q => hf _, ?_, ?_, rfl, ?_, ?_⟩
  · intro i h; simp at h
  · intro i h; simp at h
  · split <;> rfl
  · intro h; omega
  · intro j
    constructor
    · rintro ⟨q, hq⟩; exact absurd hq (hA _)
    · intro h; simp at h; omega

/-- `v` is a vector that an ascending pass over the array may use next: at every level its index has been used before, or
the preceding index has been used before, or it is the first index used there.  In the last case the index is the lowest of
the array, if the array has elements there. -/
def NextOk (A : List Int → Prop) (f : AMap) (v : List Int) : Prop :=
  ∀ p i q, v = p ++ i :: q → (∃ r, A (p ++ i :: r)) ∨ (∃ r, A (p ++ (i - 1) :: r)) ∨
    ((∀ j r, ¬ A (p ++ j :: r)) ∧ ((∃ j r, f (p ++ j :: r) ≠ none) →
      (∃ r, f (p ++ i :: r) ≠ none) ∧ ∀ j r, f (p ++ j :: r) ≠ none → i ≤ j))

theorem NextOk.tail {A : List Int → Prop} {f : AMap} {i : Int} {q : List Int} (h : NextOk A f (i :: q)) :
    NextOk (fun r => A (i :: r)) (fun r => f (i :: r)) q := by
  intro p j r hv
  exact h (i :: p) j r (by rw [hv]; rfl)

/-- the facts about the level of the first index -/
theorem Holds.head {n : Nat} {sh : Shift} {o : CObj} {f : AMap} {A : List Int → Prop} {i : Int} {q : List Int}
    (h : Holds lm (n + 1) sh o f A) (hn : NextOk A f (i :: q)) :
    ∃ (start : Int) (cs : List CObj) (m : Nat), (if sh.accessed then sh.start else i) = start ∧ start ≤ i ∧
      (i - start).toNat ≤ m ∧
      Kids lm o start cs ∧ m ≤ cs.length ∧
      (∀ (i : Nat) (h : i < cs.length), Holds lm n (sh.next.getD i .fresh) cs[i]
        (fun q => f ((start + (i : Int)) :: q)) (fun q => A ((start + (i : Int)) :: q))) ∧
      (∀ j, ¬ (start ≤ j ∧ j < start + (cs.length : Int)) → ∀ q, f (j :: q) = none) ∧
      (∀ (i : Nat), i < cs.length → ∃ q, f ((start + (i : Int)) :: q) ≠ none) ∧
      (if n = 0 then sh.next = [] else sh.next.length = m) ∧
      (∀ j, (∃ q, A (j :: q)) ↔ (start ≤ j ∧ j < start + (m : Int))) := by
  obtain ⟨start, cs, m, h1, h2, h3, h4, h5, h6, h7, h8, h9⟩ := h
  have hacc : 0 < m → (if sh.accessed then sh.start else i) = start := by
    intro hm
    rw [h7, if_pos (by simpa using hm), h8 hm]
  rcases hn [] i q rfl with ha | ha | ⟨ha, hb⟩
  · have := (h9 i).mp ha
    exact ⟨start, cs, m, hacc (by omega), by omega, by omega, h1, h2, h3, h4, h5, h6, h9⟩
  · have := (h9 (i - 1)).mp ha
    exact ⟨start, cs, m, hacc (by omega), by omega, by omega, h1, h2, h3, h4, h5, h6, h9⟩
  · have hm : m = 0 := by
      by_contra hm
      obtain ⟨r, hr⟩ := (h9 start).mpr ⟨le_refl _, by omega⟩
      exact ha _ _ hr
    subst hm
    have hst : (if sh.accessed then sh.start else i) = i := by
      rw [h7]; simp
    by_cases hcs : cs.length = 0
    · have hcs' : cs = [] := List.length_eq_zero_iff.mp hcs
      subst hcs'
      refine ⟨i, [], 0, hst, le_refl _, by simp, Kids.restart i h1, le_refl _, ?_, ?_, ?_, h6, ?_⟩
      · intro k hk; simp at hk
      · intro j _ q; exact h4 j (by simp) q
      · intro k hk; simp at hk
      · intro j
        constructor
        · rintro ⟨r, hr⟩; exact absurd hr (ha _ _)
        · intro hj; simp at hj; omega
    · obtain ⟨r, hr⟩ := h5 0 (by omega)
      obtain ⟨⟨r', hr'⟩, hmin⟩ := hb ⟨_, _, hr⟩
      have h10 : i ≤ start := by
        have := hmin _ _ hr
        simpa using this
      have h11 : start ≤ i := by
        by_contra hc
        exact hr' (h4 i (by omega) r')
      have : start = i := by omega
      subst this
      exact ⟨start, cs, 0, hst, le_refl _, by simp, h1, h2, h3, h4, h5, h6, h9⟩

theorem nextLevel_ok {next : List Shift} {k : Nat} (h : k ≤ next.length) :
    ∃ next', nextLevel next (k : Int) = some (next', next.getD k .fresh) ∧
      next'.length = (if k = next.length then next.length + 1 else next.length) ∧
      ∀ i, next'.getD i .fresh = next.getD i .fresh := by
  unfold nextLevel
  by_cases hk : k = next.length
  · subst hk
    rw [if_pos rfl]
    refine ⟨next ++ [.fresh], by simp, by simp, ?_⟩
    intro i
    rcases Nat.lt_trichotomy i next.length with hc | hc | hc
    · rw [List.getD_append _ _ _ _ hc]
    · subst hc; simp
    · rw [List.getD_eq_default _ _ (by simp; omega), List.getD_eq_default _ _ (by omega)]
  · have hlt : k < next.length := by omega
    rw [if_neg (by omega), if_pos (by omega)]
    refine ⟨next, ?_, by rw [if_neg hk], fun _ => rfl⟩
    rw [Int.toNat_natCast, List.getElem?_eq_getElem hlt]
    simp [List.getD, List.getElem?_eq_getElem hlt]

/-- One access along an ascending pass: it yields the object stored before, or stores the default value. -/
theorem setdefaultI_step (n : Nat) : ∀ (v : List Int) (sh : Shift) (o : CObj) (f : AMap) (A : List Int → Prop)
    (d : Option CObj) (y : CObj), v.length = n + 1 → Holds lm (n + 1) sh o f A → NextOk A f v →
    (f v = some y ∨ (f v = none ∧ d = some y)) →
    ∃ sh' o', setdefaultI lm v sh o d = .ok (y, sh', o') ∧
      Holds lm (n + 1) sh' o' (Function.update f v (some y)) (fun w => A w ∨ w = v) := by
  induction n with
  | zero =>
    intro v sh o f A d y hv hH hN hy
    obtain ⟨i, rfl⟩ := List.length_eq_one_iff.mp hv
    obtain ⟨start, cs, m, e1, e2, e3, h1, h2, h3, h4, h5, h6, h9⟩ := hH.head hN
    rw [if_pos rfl] at h6
    simp only [setdefaultI]
    rw [e1]
    change ∃ sh' o', (if (lm && decide (keyOf lm start i < 0)) = true then _ else _) = _ ∧ _
    have hneg : ¬ ((lm && decide (keyOf lm start i < 0)) = true) := by
      simp only [Bool.and_eq_true, decide_eq_true_eq, not_and]
      intro hl
      unfold keyOf
      rw [if_pos hl]
      omega
    rw [if_neg hneg]
    change ∃ sh' o', (match (match d with
        | some x => if keyExists o (keyOf lm start i) then some o else insertObj o (keyOf lm start i) x
        | none => some o) with
      | none => COut.throws
      | some obj' => match itemAt obj' (keyOf lm start i) with
        | none => COut.throws
        | some r => COut.ok (r, Shift.mk start true sh.next, obj')) = _ ∧ _
    have hfin : ∀ (o' : CObj) (cs' : List CObj), Kids lm o' start cs' → cs'[(i - start).toNat]? = some y →
        (cs' = cs ∨ (cs' = cs ++ [y] ∧ (i - start).toNat = cs.length)) →
        Holds lm 1 (Shift.mk start true sh.next) o' (Function.update f [i] (some y)) (fun w => A w ∨ w = [i]) := by
      intro o' cs' hk hget hcs
      have hlt : (i - start).toNat < cs'.length := by
        by_contra hc
        rw [List.getElem?_eq_none (by omega)] at hget
        cases hget
      refine ⟨start, cs', max m ((i - start).toNat + 1), hk, ?_, ?_, ?_, ?_, ?_, ?_, fun _ => rfl, ?_⟩
      · have : cs.length ≤ cs'.length := by
          rcases hcs with rfl | ⟨rfl, _⟩ <;> simp
        omega
      · intro k hk'
        change Function.update f [i] (some y) [start + (k : Int)] = some cs'[k]
        by_cases hki : k = (i - start).toNat
        · have : start + (k : Int) = i := by omega
          rw [this, Function.update_self]
          rw [List.getElem?_eq_getElem hlt] at hget
          subst hki
          exact hget.symm
        · rw [Function.update_of_ne (by simp; omega)]
          rcases hcs with rfl | ⟨rfl, hl⟩
          · exact h3 k hk'
          · have hk2 : k < cs.length := by
              rw [List.length_append, List.length_singleton] at hk'
              omega
            rw [List.getElem_append_left hk2]
            exact h3 k hk2
      · intro j hj r
        have : j ≠ i := by rintro rfl; exact hj ⟨e2, by omega⟩
        rw [Function.update_of_ne (by simp [this])]
        apply h4
        rcases hcs with rfl | ⟨rfl, _⟩
        · exact hj
        · rw [List.length_append, List.length_singleton] at hj; omega
      · intro k hk'
        by_cases hki : k = (i - start).toNat
        · have : start + (k : Int) = i := by omega
          exact ⟨[], by rw [this, Function.update_self]; simp⟩
        · have hk2 : k < cs.length := by
            rcases hcs with rfl | ⟨rfl, hl⟩
            · exact hk'
            · rw [List.length_append, List.length_singleton] at hk'; omega
          obtain ⟨r, hr⟩ := h5 k hk2
          refine ⟨r, ?_⟩
          rw [Function.update_of_ne (by simp; intro; omega)]
          exact hr
      · rw [if_pos rfl]; exact h6
      · simp [Shift.accessed]
      · intro j
        constructor
        · rintro ⟨r, hr | hr⟩
          · have := (h9 j).mp ⟨r, hr⟩
            omega
          · simp only [List.cons.injEq] at hr
            omega
        · intro hj
          by_cases hji : j = i
          · exact ⟨[], Or.inr (by rw [hji])⟩
          · obtain ⟨r, hr⟩ := (h9 j).mpr (by omega)
            exact ⟨r, Or.inl hr⟩
    by_cases hin : (i - start).toNat < cs.length
    · have hval : cs[(i - start).toNat]? = some y := by
        rw [List.getElem?_eq_getElem hin]
        have := h3 _ hin
        change f [start + (((i - start).toNat : Nat) : Int)] = _ at this
        rw [show start + (((i - start).toNat : Nat) : Int) = i by omega] at this
        rcases hy with hy | hy
        · rw [← this, hy]
        · rw [hy.1] at this; cases this
      refine ⟨Shift.mk start true sh.next, o, ?_, hfin o cs h1 hval (Or.inl rfl)⟩
      have hex : keyExists o (keyOf lm start i) = true := by rw [h1.has e2]; simpa using hin
      cases d <;> simp only [hex, if_true, h1.item e2, hval]
    · have hk : (i - start).toNat = cs.length := by omega
      have hnone : f [i] = none := h4 i (by omega) []
      rcases hy with hy | ⟨_, rfl⟩
      · rw [hnone] at hy; cases hy
      obtain ⟨o', ho', hK⟩ := h1.insert e2 hk y
      have hex : keyExists o (keyOf lm start i) = false := by rw [h1.has e2]; simpa using hin
      have hval : (cs ++ [y])[(i - start).toNat]? = some y := by rw [hk]; simp
      refine ⟨Shift.mk start true sh.next, o', ?_, hfin o' _ hK hval (Or.inr ⟨rfl, hk⟩)⟩
      simp only [hex, Bool.false_eq_true, if_false, ho', hK.item e2, hval]
  | succ n ih =>
    intro v sh o f A d y hv hH hN hy
    match v, hv with
    | i :: j :: is, hv =>
    have hlen : (j :: is).length = n + 1 := by simpa using hv
    obtain ⟨start, cs, m, e1, e2, e3, h1, h2, h3, h4, h5, h6, h9⟩ := hH.head hN
    rw [if_neg (by omega)] at h6
    simp only [setdefaultI]
    rw [e1]
    have hneg : ¬ ((lm && decide (keyOf lm start i < 0)) = true) := by
      simp only [Bool.and_eq_true, decide_eq_true_eq, not_and]
      intro hl
      unfold keyOf
      rw [if_pos hl]
      omega
    obtain ⟨next', n1, n2, n3⟩ := nextLevel_ok (next := sh.next) (k := (i - start).toNat) (by omega)
    have hidx : (((i - start).toNat : Nat) : Int) = i - start := by omega
    rw [hidx] at n1
    -- the object with an element for the index
    have hmid : ∃ (o' : CObj) (child : CObj) (cs' : List CObj),
        (match (generalizing := false) d with
          | some _ => if keyExists o (keyOf lm start i) then some o else insertObj o (keyOf lm start i) (.empty lm)
          | none => some o) = some o' ∧ Kids lm o' start cs' ∧ cs'[(i - start).toNat]? = some child ∧
        (cs' = cs ∨ (cs' = cs ++ [child] ∧ (i - start).toNat = cs.length)) ∧
        Holds lm (n + 1) (sh.next.getD (i - start).toNat .fresh) child (fun q => f (i :: q)) (fun q => A (i :: q)) := by
      by_cases hin : (i - start).toNat < cs.length
      · have hex : keyExists o (keyOf lm start i) = true := by rw [h1.has e2]; simpa using hin
        refine ⟨o, cs[(i - start).toNat], cs, ?_, h1, List.getElem?_eq_getElem hin, Or.inl rfl, ?_⟩
        · cases d <;> simp only [hex, if_true]
        · have := h3 _ hin
          rw [show start + (((i - start).toNat : Nat) : Int) = i by omega] at this
          exact this
      · have hk : (i - start).toNat = cs.length := by omega
        have hnone : ∀ q, f (i :: q) = none := h4 i (by omega)
        rcases hy with hy | ⟨_, rfl⟩
        · rw [hnone] at hy; cases hy
        obtain ⟨o', ho', hK⟩ := h1.insert e2 hk (.empty lm)
        have hex : keyExists o (keyOf lm start i) = false := by rw [h1.has e2]; simpa using hin
        refine ⟨o', .empty lm, cs ++ [.empty lm], ?_, hK, by rw [hk]; simp, Or.inr ⟨rfl, hk⟩, ?_⟩
        · simp only [hex, Bool.false_eq_true, if_false, ho']
        · rw [List.getD_eq_default _ _ (by omega)]
          refine Holds.fresh_empty lm n hnone ?_
          intro q hq
          have := (h9 i).mp ⟨q, hq⟩
          omega
    obtain ⟨o', child, cs', m1, m2, m3, m4, m5⟩ := hmid
    obtain ⟨s', child', r1, r2⟩ := ih (j :: is) _ child _ _ d y hlen m5 hN.tail hy
    have hlt : (i - start).toNat < cs'.length := by
      by_contra hc
      rw [List.getElem?_eq_none (by omega)] at m3
      cases m3
    have hcsl : cs.length ≤ cs'.length := by
      rcases m4 with rfl | ⟨rfl, _⟩ <;> simp
    refine ⟨Shift.mk start true (next'.set (i - start).toNat s'), putItem o' (keyOf lm start i) child', ?_, ?_⟩
    · change (if (lm && decide (keyOf lm start i < 0)) = true then _ else _) = _
      rw [if_neg hneg]
      have hit : itemAt o' (keyOf lm start i) = some child := by rw [m2.item e2, m3]
      have hfit : child.fits lm = true := by
        obtain ⟨_, _, _, hk, _⟩ := m5
        exact hk.fits
      simp only [n1]
      change (match (match d with
          | some _ => if keyExists o (keyOf lm start i) then some o else insertObj o (keyOf lm start i) (.empty lm)
          | none => some o) with
        | none => COut.throws
        | some obj' => match itemAt obj' (keyOf lm start i) with
          | none => COut.throws
          | some child => if child.fits lm then
              match setdefaultI lm (j :: is) (sh.next.getD (i - start).toNat .fresh) child d with
              | .ok (r, s', child') => COut.ok (r, Shift.mk start true (next'.set (i - start).toNat s'),
                  putItem obj' (keyOf lm start i) child')
              | .throws => .throws
              | .ub => .ub
            else COut.throws) = _
      rw [m1]
      simp only [hit, hfit, if_true, r1]
    · refine ⟨start, cs'.set (i - start).toNat child', max m ((i - start).toNat + 1), m2.put e2 hlt _, ?_, ?_, ?_, ?_, ?_, ?_,
        fun _ => rfl, ?_⟩
      · rw [List.length_set]; omega
      · intro k hk
        rw [List.length_set] at hk
        change Holds lm (n + 1) ((next'.set (i - start).toNat s').getD k .fresh) _ _ _
        have hnl : (i - start).toNat < next'.length := by rw [n2]; split <;> omega
        by_cases hki : k = (i - start).toNat
        · subst hki
          have hs : (next'.set (i - start).toNat s').getD (i - start).toNat .fresh = s' := by
            simp [List.getD, List.getElem?_set_self hnl]
          rw [hs, List.getElem_set_self, show start + (((i - start).toNat : Nat) : Int) = i by omega]
          have a1 : (fun q => Function.update f (i :: j :: is) (some y) (i :: q)) =
              Function.update (fun q => f (i :: q)) (j :: is) (some y) := by
            funext q
            by_cases hq : q = j :: is
            · subst hq; rw [Function.update_self, Function.update_self]
            · rw [Function.update_of_ne (by simpa using hq), Function.update_of_ne hq]
          have a2 : (fun q => A (i :: q) ∨ i :: q = i :: j :: is) = (fun w => A (i :: w) ∨ w = j :: is) := by
            funext q; simp
          rw [a1, a2]
          exact r2
        · have hs : (next'.set (i - start).toNat s').getD k .fresh = sh.next.getD k .fresh := by
            rw [← n3 k]
            simp only [List.getD, List.getElem?_set_ne (Ne.symm hki)]
          have hne : start + (k : Int) ≠ i := by omega
          have hk2 : k < cs.length := by
            rcases m4 with rfl | ⟨rfl, hl⟩
            · exact hk
            · rw [List.length_append, List.length_singleton] at hk; omega
          have hce : (cs'.set (i - start).toNat child')[k]'(by rw [List.length_set]; exact hk) = cs[k] := by
            rw [List.getElem_set_ne (Ne.symm hki)]
            rcases m4 with rfl | ⟨rfl, hl⟩
            · rfl
            · rw [List.getElem_append_left hk2]
          rw [hs, hce]
          have a1 : (fun q => Function.update f (i :: j :: is) (some y) ((start + (k : Int)) :: q)) =
              (fun q => f ((start + (k : Int)) :: q)) := by
            funext q
            rw [Function.update_of_ne (by simp [hne])]
          have a2 : (fun q => A ((start + (k : Int)) :: q) ∨ (start + (k : Int)) :: q = i :: j :: is) =
              (fun q => A ((start + (k : Int)) :: q)) := by
            funext q; simp [hne]
          rw [a1, a2]
          exact h3 k hk2
      · intro l hl q
        rw [List.length_set] at hl
        have : l ≠ i := by rintro rfl; exact hl ⟨e2, by omega⟩
        rw [Function.update_of_ne (by simp [this])]
        exact h4 l (by omega) q
      · intro k hk
        rw [List.length_set] at hk
        by_cases hki : k = (i - start).toNat
        · have : start + (k : Int) = i := by omega
          exact ⟨j :: is, by rw [this, Function.update_self]; simp⟩
        · have hk2 : k < cs.length := by
            rcases m4 with rfl | ⟨rfl, hl⟩
            · exact hk
            · rw [List.length_append, List.length_singleton] at hk; omega
          obtain ⟨r, hr⟩ := h5 k hk2
          refine ⟨r, ?_⟩
          rw [Function.update_of_ne (by simp; intro; omega)]
          exact hr
      · rw [if_neg (by omega)]
        change (next'.set _ _).length = _
        rw [List.length_set, n2]
        split <;> omega
      · simp [Shift.accessed]
      · intro l
        constructor
        · rintro ⟨r, hr | hr⟩
          · have := (h9 l).mp ⟨r, hr⟩
            omega
          · simp only [List.cons.injEq] at hr
            omega
        · intro hj
          by_cases hji : l = i
          · exact ⟨j :: is, Or.inr (by rw [hji])⟩
          · obtain ⟨r, hr⟩ := (h9 l).mpr (by omega)
            exact ⟨r, Or.inl hr⟩

/-! ## The store -/

/-- the store `s` holds the objects `F` under names and index vectors, with `dims name` indices for the array `name`; the
vectors `A` have been used -/
def StoreHolds (lm : Bool) (dims : Str → Nat) (s : CStore) (F : Str → AMap) (A : Str → List Int → Prop) : Prop :=
  ∀ name, match dGet name s.refdict with
    | none => (∀ v, F name v = none) ∧ (∀ v, ¬ A name v) ∧ dGet name s.shifters = none
    | some o => Holds lm (dims name) ((dGet name s.shifters).getD .fresh) o (F name) (A name)

theorem Holds.congr {n : Nat} {sh : Shift} {o : CObj} {f g : AMap} {A B : List Int → Prop} (h : Holds lm n sh o f A)
    (hf : ∀ v, g v = f v) (hA : ∀ v, B v ↔ A v) : Holds lm n sh o g B := by
  have e1 : g = f := funext hf
  have e2 : B = A := funext fun v => propext (hA v)
  rw [e1, e2]
  exact h

theorem store_step (dims : Str → Nat) (s : CStore) (F : Str → AMap) (A : Str → List Int → Prop) (name : Str) (v : List Int)
    (d : Option CObj) (y : CObj) (hs : StoreHolds lm dims s F A) (hv : v.length = dims name) (hN : NextOk (A name) (F name) v)
    (hy : F name v = some y ∨ (F name v = none ∧ d = some y)) :
    ∃ s', s.setdefault lm name v d = .ok (y, s') ∧
      StoreHolds lm dims s' (fun nm w => if nm = name ∧ w = v then some y else F nm w)
        (fun nm w => A nm w ∨ (nm = name ∧ w = v)) := by
  have hupd : ∀ w, (if name = name ∧ w = v then some y else F name w) = Function.update (F name) v (some y) w := by
    intro w
    by_cases hw : w = v
    · subst hw; simp
    · rw [Function.update_of_ne hw]; simp [hw]
  have hother : ∀ (s' : CStore), (∀ nm, nm ≠ name → dGet nm s'.refdict = dGet nm s.refdict) →
      (∀ nm, nm ≠ name → dGet nm s'.shifters = dGet nm s.shifters) →
      (∃ o, dGet name s'.refdict = some o ∧ Holds lm (dims name) ((dGet name s'.shifters).getD .fresh) o
        (Function.update (F name) v (some y)) (fun w => A name w ∨ w = v)) →
      StoreHolds lm dims s' (fun nm w => if nm = name ∧ w = v then some y else F nm w)
        (fun nm w => A nm w ∨ (nm = name ∧ w = v)) := by
    intro s' h1 h2 ⟨o, h3, h4⟩ nm
    by_cases hnm : nm = name
    · subst hnm
      rw [h3]
      exact h4.congr hupd (fun w => by simp)
    · have := hs nm
      rw [h1 nm hnm, h2 nm hnm]
      cases hg : dGet nm s.refdict with
      | none =>
        rw [hg] at this
        refine ⟨fun w => ?_, fun w => ?_, this.2.2⟩
        · dsimp only; rw [if_neg (fun h => hnm h.1)]; exact this.1 w
        · rintro (h | h)
          · exact this.2.1 w h
          · exact hnm h.1
      | some o' =>
        rw [hg] at this
        exact this.congr (fun w => by dsimp only; rw [if_neg (fun h => hnm h.1)]) (fun w => by simp [hnm])
  have hname := hs name
  cases hg : dGet name s.refdict with
  | none =>
    rw [hg] at hname
    obtain ⟨hF, hA, hsh⟩ := hname
    rcases hy with hy | ⟨_, rfl⟩
    · rw [hF] at hy; cases hy
    cases hd : dims name with
    | zero =>
      have hv0 : v = [] := List.length_eq_zero_iff.mp (by omega)
      subst hv0
      refine ⟨{ s with refdict := dSet name y s.refdict }, ?_, ?_⟩
      · unfold CStore.setdefault; simp only [hg]
      · apply hother
        · intro nm hnm; exact dGet_dSet_ne (Ne.symm hnm) _ _
        · intro nm _; rfl
        · refine ⟨y, dGet_dSet_self _ _ _, ?_⟩
          rw [hd]
          change Function.update (F name) [] (some y) [] = some y
          rw [Function.update_self]
    | succ n =>
      have hvne : v ≠ [] := by rintro rfl; simp [hd] at hv
      obtain ⟨sh', o', r1, r2⟩ := setdefaultI_step (lm := lm) n v .fresh (.empty lm) (F name) (A name) (some y) y
        (by omega) (Holds.fresh_empty lm n hF hA) hN (Or.inr ⟨hF v, rfl⟩)
      refine ⟨⟨dSet name o' (dSet name (.empty lm) s.refdict), dSet name sh' s.shifters⟩, ?_, ?_⟩
      · obtain ⟨a, t, rfl⟩ := List.exists_cons_of_ne_nil hvne
        have hfit : (CObj.empty lm).fits lm = true := by cases lm <;> rfl
        unfold CStore.setdefault
        simp only [hg, dGet_dSet_self, hvne, if_false, hfit, if_true, hsh, Option.getD_none, r1]
      · apply hother
        · intro nm hnm
          exact (dGet_dSet_ne (Ne.symm hnm) _ _).trans (dGet_dSet_ne (Ne.symm hnm) _ _)
        · intro nm hnm; exact dGet_dSet_ne (Ne.symm hnm) _ _
        · refine ⟨o', dGet_dSet_self _ _ _, ?_⟩
          rw [hd, dGet_dSet_self]
          exact r2
  | some o =>
    rw [hg] at hname
    cases hd : dims name with
    | zero =>
      have hv0 : v = [] := List.length_eq_zero_iff.mp (by omega)
      subst hv0
      rw [hd] at hname
      have ho : F name [] = some o := hname
      have hyo : y = o := by
        rcases hy with hy | ⟨hy, _⟩
        · rw [ho] at hy; simpa using hy.symm
        · rw [ho] at hy; cases hy
      subst hyo
      refine ⟨s, ?_, ?_⟩
      · unfold CStore.setdefault
        cases d <;> simp only [hg, if_true]
      · apply hother
        · intro nm _; rfl
        · intro nm _; rfl
        · refine ⟨y, hg, ?_⟩
          rw [hd]
          change Function.update (F name) [] (some y) [] = some y
          rw [Function.update_self]
    | succ n =>
      have hvne : v ≠ [] := by rintro rfl; simp [hd] at hv
      rw [hd] at hname
      obtain ⟨sh', o', r1, r2⟩ := setdefaultI_step (lm := lm) n v _ o (F name) (A name) d y (by omega) hname hN hy
      refine ⟨⟨dSet name o' s.refdict, dSet name sh' s.shifters⟩, ?_, ?_⟩
      · have hfit : o.fits lm = true := by
          obtain ⟨_, _, _, hk, _⟩ := hname
          exact hk.fits
        unfold CStore.setdefault
        cases d <;> simp only [hg, hvne, if_false, hfit, if_true, r1]
      · apply hother
        · intro nm hnm; exact dGet_dSet_ne (Ne.symm hnm) _ _
        · intro nm hnm; exact dGet_dSet_ne (Ne.symm hnm) _ _
        · refine ⟨o', dGet_dSet_self _ _ _, ?_⟩
          rw [hd, dGet_dSet_self]
          exact r2

/-! ## Histories -/

/-- a call of `setdefault`: the name, the index vector and the default object -/
abbrev Call := Str × List Int × CObj

/-- a sequence of `setdefault` calls: the returned objects and the store afterwards -/
def runSets (lm : Bool) : CStore → List Call → COut (List CObj × CStore)
  | s, [] => .ok ([], s)
  | s, (name, v, x) :: H =>
    match s.setdefault lm name v (some x) with
    | .ok (y, s') =>
      match runSets lm s' H with
      | .ok (ys, s'') => .ok (y :: ys, s'')
      | .throws => .throws
      | .ub => .ub
    | .throws => .throws
    | .ub => .ub

/-- a sequence of `get_value` calls as the compiled writers make them, each with a default object for missing names -/
def runGets (lm : Bool) : CStore → List Call → COut (List CObj × CStore)
  | s, [] => .ok ([], s)
  | s, (name, v, x) :: H =>
    match s.getValue lm name v (some x) with
    | .ok (y, s') =>
      match runGets lm s' H with
      | .ok (ys, s'') => .ok (y :: ys, s'')
      | .throws => .throws
      | .ub => .ub
    | .throws => .throws
    | .ub => .ub

/-- the vector occurs in the history -/
def Used (H : List Call) (name : Str) (v : List Int) : Prop := ∃ x, (name, v, x) ∈ H

/-- the object of the first call with this name and this vector -/
def firstStored (H : List Call) (name : Str) (v : List Int) : Option CObj :=
  (H.find? fun c => decide (c.1 = name ∧ c.2.1 = v)).map fun c => c.2.2

/-- Nested ascending loops: every array has a fixed number of indices, and in each call every index has been used before
(after the same leading indices), or follows an index used before, or is the first index used there. -/
def IdxAscending (dims : Str → Nat) (H : List Call) : Prop :=
  ∀ H1 name v x H2, H = H1 ++ (name, v, x) :: H2 → v.length = dims name ∧
    ∀ p i q, v = p ++ i :: q → (∃ r, Used H1 name (p ++ i :: r)) ∨ (∃ r, Used H1 name (p ++ (i - 1) :: r)) ∨
      ∀ j r, ¬ Used H1 name (p ++ j :: r)

theorem firstStored_none {H : List Call} {name : Str} {v : List Int} : firstStored H name v = none ↔ ¬ Used H name v := by
  unfold firstStored Used
  rw [Option.map_eq_none_iff, List.find?_eq_none]
  constructor
  · rintro h ⟨x, hx⟩
    exact h _ hx (by simp)
  · rintro h ⟨a, b, c⟩ hx hc
    simp only [decide_eq_true_eq] at hc
    obtain ⟨rfl, rfl⟩ := hc
    exact h ⟨c, hx⟩

theorem firstStored_snoc (H : List Call) (name : Str) (v : List Int) (x : CObj) (nm : Str) (w : List Int) :
    firstStored (H ++ [(name, v, x)]) nm w =
      if nm = name ∧ w = v then some ((firstStored H name v).getD x) else firstStored H nm w := by
  unfold firstStored
  rw [List.find?_append]
  by_cases h : nm = name ∧ w = v
  · obtain ⟨rfl, rfl⟩ := h
    rw [if_pos ⟨rfl, rfl⟩]
    cases hf : H.find? fun c => decide (c.1 = nm ∧ c.2.1 = w) <;> simp
  · rw [if_neg h]
    have : ([(name, v, x)] : List Call).find? (fun c => decide (c.1 = nm ∧ c.2.1 = w)) = none := by
      rw [List.find?_eq_none]
      intro c hc hd
      simp only [List.mem_singleton] at hc
      subst hc
      simp only [decide_eq_true_eq] at hd
      exact h ⟨hd.1.symm, hd.2.symm⟩
    rw [this]
    simp

theorem used_snoc (H : List Call) (name : Str) (v : List Int) (x : CObj) (nm : Str) (w : List Int) :
    Used (H ++ [(name, v, x)]) nm w ↔ (Used H nm w ∨ (nm = name ∧ w = v)) := by
  unfold Used
  simp only [List.mem_append, List.mem_singleton, Prod.mk.injEq]
  constructor
  · rintro ⟨y, h | ⟨h1, h2, h3⟩⟩
    · exact Or.inl ⟨y, h⟩
    · exact Or.inr ⟨h1, h2⟩
  · rintro (⟨y, h⟩ | ⟨h1, h2⟩)
    · exact ⟨y, Or.inl h⟩
    · exact ⟨x, Or.inr ⟨h1, h2, rfl⟩⟩

theorem StoreHolds.congr {dims : Str → Nat} {s : CStore} {F G : Str → AMap} {A B : Str → List Int → Prop}
    (h : StoreHolds lm dims s F A) (hF : ∀ nm v, G nm v = F nm v) (hA : ∀ nm v, B nm v ↔ A nm v) :
    StoreHolds lm dims s G B := by
  have e1 : G = F := funext fun nm => funext (hF nm)
  have e2 : B = A := funext fun nm => funext fun v => propext (hA nm v)
  rw [e1, e2]
  exact h

theorem runSets_holds (dims : Str → Nat) (H : List Call) : ∀ (H0 : List Call) (s : CStore), IdxAscending dims (H0 ++ H) →
    StoreHolds lm dims s (firstStored H0) (Used H0) →
    ∃ s', runSets lm s H = .ok (H.map (fun c => (firstStored (H0 ++ H) c.1 c.2.1).getD c.2.2), s') ∧
      StoreHolds lm dims s' (firstStored (H0 ++ H)) (Used (H0 ++ H)) := by
  induction H with
  | nil => intro H0 s _ hs; exact ⟨s, rfl, by simpa using hs⟩
  | cons c H ih =>
    intro H0 s hasc hs
    obtain ⟨name, v, x⟩ := c
    obtain ⟨hv, hlev⟩ := hasc H0 name v x H rfl
    have hN : NextOk (Used H0 name) (firstStored H0 name) v := by
      intro p i q hp
      rcases hlev p i q hp with h | h | h
      · exact Or.inl h
      · exact Or.inr (Or.inl h)
      · refine Or.inr (Or.inr ⟨h, ?_⟩)
        rintro ⟨j, r, hj⟩
        exact absurd (firstStored_none.mpr (h j r)) hj
    obtain ⟨s1, r1, r2⟩ := store_step (lm := lm) dims s _ _ name v (some x) ((firstStored H0 name v).getD x) hs hv hN (by
      cases hf : firstStored H0 name v with
      | none => exact Or.inr ⟨rfl, rfl⟩
      | some y => exact Or.inl rfl)
    have happ : H0 ++ [(name, v, x)] ++ H = H0 ++ (name, v, x) :: H := by simp
    obtain ⟨s2, q1, q2⟩ := ih (H0 ++ [(name, v, x)]) s1 (by rw [happ]; exact hasc)
      (r2.congr (fun nm w => firstStored_snoc H0 name v x nm w) (fun nm w => used_snoc H0 name v x nm w))
    rw [happ] at q1 q2
    refine ⟨s2, ?_, q2⟩
    simp only [runSets, r1, q1, List.map_cons]
    have : ((firstStored H0 name v).getD x) = (firstStored (H0 ++ (name, v, x) :: H) name v).getD x := by
      unfold firstStored
      rw [List.find?_append]
      cases hf : H0.find? fun c => decide (c.1 = name ∧ c.2.1 = v) <;> simp
    rw [this]

theorem StoreHolds.init (dims : Str → Nat) : StoreHolds lm dims ⟨[], []⟩ (firstStored []) (Used []) := by
  intro name
  change (∀ v, firstStored [] name v = none) ∧ (∀ v, ¬ Used [] name v) ∧ dGet name [] = (none : Option Shift)
  refine ⟨fun v => rfl, fun v => ?_, rfl⟩
  rintro ⟨x, hx⟩
  simp at hx

theorem Holds.refresh (n : Nat) : ∀ (sh : Shift) (o : CObj) (f : AMap) (A : List Int → Prop), Holds lm n sh o f A →
    Holds lm n .fresh o f (fun _ => False) := by
  induction n with
  | zero => intro sh o f A h; exact h
  | succ n ih =>
    intro sh o f A ⟨start, cs, m, h1, h2, h3, h4, h5, h6, h7, h8, h9⟩
    refine ⟨start, cs, 0, h1, Nat.zero_le _, ?_, h4, h5, ?_, rfl, fun h => absurd h (by omega), ?_⟩
    · intro i hi
      have : (Shift.fresh.next.getD i .fresh) = Shift.fresh := by simp [Shift.fresh, Shift.next]
      rw [this]
      exact ih _ _ _ _ (h3 i hi)
    · split <;> rfl
    · intro j; simp

theorem StoreHolds.refresh {dims : Str → Nat} {s : CStore} {F : Str → AMap} {A : Str → List Int → Prop}
    (h : StoreHolds lm dims s F A) : StoreHolds lm dims ⟨s.refdict, []⟩ F (fun _ _ => False) := by
  intro name
  have := h name
  cases hg : dGet name s.refdict with
  | none =>
    rw [hg] at this
    exact ⟨this.1, fun _ h => h, rfl⟩
  | some o =>
    rw [hg] at this
    exact Holds.refresh _ _ _ _ _ this

theorem runGets_holds (dims : Str → Nat) (F : Str → AMap) (G : List Call) : ∀ (G0 : List Call) (s : CStore),
    StoreHolds lm dims s F (Used G0) →
    (∀ G1 name v x G2, G = G1 ++ (name, v, x) :: G2 → v.length = dims name ∧ F name v ≠ none ∧
      NextOk (Used (G0 ++ G1) name) (F name) v) →
    ∃ s', runGets lm s G = .ok (G.map (fun c => (F c.1 c.2.1).getD c.2.2), s') ∧ StoreHolds lm dims s' F (Used (G0 ++ G)) := by
  induction G with
  | nil => intro G0 s hs _; exact ⟨s, rfl, by simpa using hs⟩
  | cons c G ih =>
    intro G0 s hs hG
    obtain ⟨name, v, x⟩ := c
    obtain ⟨hv, hne, hN⟩ := hG [] name v x G rfl
    rw [List.append_nil] at hN
    obtain ⟨y, hy⟩ := Option.ne_none_iff_exists'.mp hne
    obtain ⟨s1, r1, r2⟩ := store_step (lm := lm) dims s _ _ name v none y hs hv hN (Or.inl hy)
    have hF : StoreHolds lm dims s1 F (Used (G0 ++ [(name, v, x)])) := by
      refine r2.congr (fun nm w => ?_) (fun nm w => used_snoc G0 name v x nm w)
      split
      · rename_i h; obtain ⟨rfl, rfl⟩ := h; exact hy
      · rfl
    obtain ⟨s2, q1, q2⟩ := ih (G0 ++ [(name, v, x)]) s1 hF (by
      intro G1 nm w z G2 h
      have := hG ((name, v, x) :: G1) nm w z G2 (by rw [h]; rfl)
      simpa using this)
    refine ⟨s2, ?_, by simpa using q2⟩
    have hget : s.getValue lm name v (some x) = .ok (y, s1) := by
      unfold CStore.getValue
      cases hg : dGet name s.refdict with
      | none =>
        have := hs name
        rw [hg] at this
        rw [this.1 v] at hy
        cases hy
      | some o => exact r1
    simp only [runGets, hget, q1, List.map_cons, hy, Option.getD_some]

/-- in an ascending history no index is below the first one used after the same leading indices -/
theorem IdxAscending.first_lowest {dims : Str → Nat} {H : List Call} (h : IdxAscending dims H) {name : Str} {p : List Int} {i : Int}
    {q : List Int} {x : CObj} {H1 H2 : List Call} (he : H = H1 ++ (name, p ++ i :: q, x) :: H2)
    (hfirst : ∀ j r, ¬ Used H1 name (p ++ j :: r)) : ∀ j r, Used H name (p ++ j :: r) → i ≤ j := by
  have key : ∀ (n : Nat) (H3 H4 : List Call), H3.length = n → H2 = H3 ++ H4 →
      ∀ j r, Used (H1 ++ (name, p ++ i :: q, x) :: H3) name (p ++ j :: r) → i ≤ j := by
    intro n
    induction n with
    | zero =>
      intro H3 H4 hl _ j r hu
      obtain rfl := List.length_eq_zero_iff.mp hl
      rcases (used_snoc H1 name (p ++ i :: q) x name (p ++ j :: r)).mp hu with hu | ⟨_, hu⟩
      · exact absurd hu (hfirst j r)
      · rw [List.append_cancel_left_eq, List.cons.injEq] at hu
        omega
    | succ n ih =>
      intro H3 H4 hl he2 j r hu
      have hne : H3 ≠ [] := by rintro rfl; simp at hl
      obtain ⟨H5, ⟨nm, w, z⟩, rfl⟩ : ∃ H5 c, H3 = H5 ++ [c] :=
        ⟨H3.dropLast, H3.getLast hne, (List.dropLast_concat_getLast hne).symm⟩
      have hprev := ih H5 ((nm, w, z) :: H4) (by simpa using hl) (by rw [he2]; simp)
      have hu' : Used ((H1 ++ (name, p ++ i :: q, x) :: H5) ++ [(nm, w, z)]) name (p ++ j :: r) := by simpa using hu
      rcases (used_snoc _ nm w z name _).mp hu' with hu | ⟨rfl, rfl⟩
      · exact hprev j r hu
      · rcases (h (H1 ++ (name, p ++ i :: q, x) :: H5) name (p ++ j :: r) z H4 (by rw [he, he2]; simp)).2 p j r rfl with
          ⟨r', hr⟩ | ⟨r', hr⟩ | hn
        · exact hprev j r' hr
        · have := hprev (j - 1) r' hr
          omega
        · exact absurd ⟨x, by simp⟩ (hn i q)
  intro j r hu
  rw [he] at hu
  exact key H2.length H2 [] rfl (by simp) j r hu

/-- **C68** Reading: for every sequence of nested ascending loops, with any start indices, any number of arrays and any
number of indices, in dict mode and in list mode, no call throws or runs into undefined behaviour, and each call returns the
object stored under its name and index vector (the one stored first, see `C68_last_fails`). -/
theorem C68_sets_partial (lm : Bool) (dims : Str → Nat) (H : List Call) (hasc : IdxAscending dims H) :
    ∃ s, runSets lm ⟨[], []⟩ H = .ok (H.map (fun c => (firstStored H c.1 c.2.1).getD c.2.2), s) := by
  obtain ⟨s, h, _⟩ := runSets_holds (lm := lm) dims H [] ⟨[], []⟩ (by simpa using hasc) (StoreHolds.init dims)
  exact ⟨s, by simpa using h⟩

/-- **C68** Writing: with the dictionary that such loops have left behind and a new store, the same loops find every object
again. -/
theorem C68_gets_partial (lm : Bool) (dims : Str → Nat) (H : List Call) (hasc : IdxAscending dims H) (ys : List CObj) (s : CStore)
    (hs : runSets lm ⟨[], []⟩ H = .ok (ys, s)) : ∃ s', runGets lm ⟨s.refdict, []⟩ H = .ok (ys, s') := by
  obtain ⟨s1, h1, h2⟩ := runSets_holds (lm := lm) dims H [] ⟨[], []⟩ (by simpa using hasc) (StoreHolds.init dims)
  rw [hs] at h1
  simp only [COut.ok.injEq, Prod.mk.injEq, List.nil_append] at h1 h2
  obtain ⟨rfl, rfl⟩ := h1
  obtain ⟨s', h3, _⟩ := runGets_holds (lm := lm) dims (firstStored H) H [] ⟨s.refdict, []⟩
    (h2.refresh.congr (fun _ _ => rfl) (fun nm v => by simp [Used])) (by
      intro H1 name v x H2 he
      obtain ⟨hv, hlev⟩ := hasc H1 name v x H2 he
      have husedv : Used H name v := ⟨x, by rw [he]; simp⟩
      refine ⟨hv, fun hc => firstStored_none.mp hc husedv, ?_⟩
      rw [List.nil_append]
      intro p i q hp
      rcases hlev p i q hp with h | h | h
      · exact Or.inl h
      · exact Or.inr (Or.inl h)
      · refine Or.inr (Or.inr ⟨h, fun _ => ⟨⟨q, ?_⟩, ?_⟩⟩)
        · rw [← hp]
          exact fun hc => firstStored_none.mp hc husedv
        · intro j r hj
          subst hp
          have : Used H name (p ++ j :: r) := by
            by_contra hc
            exact hj (firstStored_none.mpr hc)
          exact hasc.first_lowest he h j r this)
  exact ⟨s', h3⟩

/-- the element of a nested container along keys (dictionary) or positions (list) -/
def lookAlong : CObj → List Int → Option CObj
  | o, [] => some o
  | o, k :: ks => (itemAt o k).bind fun c => lookAlong c ks

theorem Holds.look_dict (n : Nat) : ∀ (sh : Shift) (o : CObj) (f : AMap) (A : List Int → Prop) (v : List Int),
    Holds false n sh o f A → v.length = n → lookAlong o v = f v := by
  induction n with
  | zero =>
    intro sh o f A v h hv
    obtain rfl := List.length_eq_zero_iff.mp hv
    exact h.symm
  | succ n ih =>
    intro sh o f A v ⟨start, cs, m, h1, h2, h3, h4, h5, h6, h7, h8, h9⟩ hv
    match v, hv with
    | i :: q, hv =>
    unfold Kids at h1
    rw [if_neg (by simp)] at h1
    obtain ⟨d, rfl, hd⟩ := h1
    simp only [lookAlong, itemAt, hd i]
    by_cases hr : start ≤ i ∧ i < start + (cs.length : Int)
    · have hlt : (i - start).toNat < cs.length := by omega
      rw [if_pos hr.1, List.getElem?_eq_getElem hlt, Option.bind_some,
        ih _ _ _ _ q (h3 _ hlt) (by simpa using hv)]
      rw [show start + (((i - start).toNat : Nat) : Int) = i by omega]
    · rw [h4 i hr q]
      split
      · rw [List.getElem?_eq_none (by omega)]; rfl
      · rfl

/-- `w` are the positions of the index vector `v` counted from the lowest index that occurs after the same leading
indices -/
def Positions (U : List Int → Prop) (v w : List Int) : Prop :=
  w.length = v.length ∧ ∀ (k : Nat) (i pos : Int), v[k]? = some i → w[k]? = some pos →
    (∃ r, U (v.take k ++ (i - pos) :: r)) ∧ ∀ j r, U (v.take k ++ j :: r) → i - pos ≤ j

theorem Holds.look_list (n : Nat) : ∀ (sh : Shift) (o : CObj) (f : AMap) (A : List Int → Prop) (v w : List Int),
    Holds true n sh o f A → v.length = n → f v ≠ none → Positions (fun u => f u ≠ none) v w → lookAlong o w = f v := by
  induction n with
  | zero =>
    intro sh o f A v w h hv _ hp
    obtain rfl := List.length_eq_zero_iff.mp hv
    obtain rfl := List.length_eq_zero_iff.mp hp.1
    exact h.symm
  | succ n ih =>
    intro sh o f A v w ⟨start, cs, m, h1, h2, h3, h4, h5, h6, h7, h8, h9⟩ hv hne hp
    match v, hv with
    | i :: q, hv =>
    match w, hp.1 with
    | pos :: w', hw =>
    unfold Kids at h1
    rw [if_pos rfl] at h1
    subst h1
    have hr : start ≤ i ∧ i < start + (cs.length : Int) := by
      by_contra hc
      exact hne (h4 i hc q)
    have hlt : (i - start).toNat < cs.length := by omega
    have h0 := hp.2 0 i pos rfl rfl
    simp only [List.take_zero, List.nil_append] at h0
    obtain ⟨⟨r, hr1⟩, hmin⟩ := h0
    obtain ⟨r2, hr2⟩ := h5 0 (by omega)
    have hpos : i - pos = start := by
      have a1 : start ≤ i - pos := by
        by_contra hc
        exact hr1 (h4 _ (by omega) r)
      have a2 := hmin _ _ hr2
      simp only [Nat.cast_zero, Int.add_zero] at a2
      omega
    have hpn : pos.toNat = (i - start).toNat := by omega
    simp only [lookAlong, itemAt]
    rw [hpn, List.getElem?_eq_getElem hlt, Option.bind_some]
    have hst : start + (((i - start).toNat : Nat) : Int) = i := by omega
    have h3' := h3 _ hlt
    rw [hst] at h3'
    rw [ih _ _ _ _ q w' h3' (by simpa using hv) hne ⟨by simpa using hw, ?_⟩]
    intro k i' pos' hk hk'
    have := hp.2 (k + 1) i' pos' (by simpa using hk) (by simpa using hk')
    simpa using this

/-- **C68** The dictionary that the user gets in dict mode: looking an index vector up key by key gives exactly what has
been stored under it, and nothing if nothing has been stored. -/
theorem C68_dict (dims : Str → Nat) (H : List Call) (hasc : IdxAscending dims H) (ys : List CObj) (s : CStore)
    (hs : runSets false ⟨[], []⟩ H = .ok (ys, s)) (name : Str) (v : List Int) (hv : v.length = dims name) :
    ((dGet name s.refdict).bind fun o => lookAlong o v) = firstStored H name v := by
  obtain ⟨s1, h1, h2⟩ := runSets_holds (lm := false) dims H [] ⟨[], []⟩ (by simpa using hasc) (StoreHolds.init dims)
  rw [hs] at h1
  simp only [COut.ok.injEq, Prod.mk.injEq, List.nil_append] at h1 h2
  obtain ⟨rfl, rfl⟩ := h1
  have := h2 name
  cases hg : dGet name s.refdict with
  | none => rw [hg] at this; exact (this.1 v).symm
  | some o => rw [hg] at this; exact this.look_dict _ _ _ _ _ _ hv

/-- **C68** The lists that the user gets in list mode: the object of an index vector is found at the positions counted from
the lowest index of each level. -/
theorem C68_list (dims : Str → Nat) (H : List Call) (hasc : IdxAscending dims H) (ys : List CObj) (s : CStore)
    (hs : runSets true ⟨[], []⟩ H = .ok (ys, s)) (name : Str) (v w : List Int) (hv : Used H name v)
    (hw : Positions (Used H name) v w) : ((dGet name s.refdict).bind fun o => lookAlong o w) = firstStored H name v := by
  obtain ⟨s1, h1, h2⟩ := runSets_holds (lm := true) dims H [] ⟨[], []⟩ (by simpa using hasc) (StoreHolds.init dims)
  rw [hs] at h1
  simp only [COut.ok.injEq, Prod.mk.injEq, List.nil_append] at h1 h2
  obtain ⟨rfl, rfl⟩ := h1
  have hne : firstStored H name v ≠ none := fun hc => firstStored_none.mp hc hv
  have hlen : v.length = dims name := by
    obtain ⟨x, hx⟩ := hv
    obtain ⟨H1, H2, he⟩ := List.append_of_mem hx
    exact (hasc H1 name v x H2 he).1
  have := h2 name
  cases hg : dGet name s.refdict with
  | none => rw [hg] at this; exact absurd (this.1 v) hne
  | some o =>
    rw [hg] at this
    refine Holds.look_list _ _ _ _ _ v w this hlen hne ?_
    have hU : (fun u => firstStored H name u ≠ none) = Used H name := by
      funext u
      exact propext ⟨fun h => by by_contra hc; exact h (firstStored_none.mpr hc), fun h hc => firstStored_none.mp hc h⟩
    rw [hU]
    exact hw

/-! ## Where it fails -/

/-- **C68** An object stored under a vector in use is dropped: the object stored first stays. -/
theorem C68_last_fails (lm : Bool) : ∃ H, IdxAscending (fun _ => 1) H ∧ ∃ s, runSets lm ⟨[], []⟩ H = .ok ([.ref 1, .ref 1], s) ∧
    H.map (fun c => c.2.2) = [.ref 1, .ref 2] := by
  refine ⟨[("a".toList, [1], .ref 1), ("a".toList, [1], .ref 2)], ?_, ?_⟩
  · intro H1 name v x H2 he
    match H1, he with
    | [], he =>
      simp only [List.nil_append, List.cons.injEq, Prod.mk.injEq] at he
      obtain ⟨⟨rfl, rfl, rfl⟩, -⟩ := he
      exact ⟨rfl, fun p i q _ => Or.inr (Or.inr (by rintro j r ⟨x, hx⟩; simp at hx))⟩
    | [c], he =>
      simp only [List.cons_append, List.nil_append, List.cons.injEq, Prod.mk.injEq] at he
      obtain ⟨rfl, ⟨rfl, rfl, rfl⟩, -⟩ := he
      exact ⟨rfl, fun p i q h => Or.inl ⟨q, .ref 1, by rw [← h]; simp⟩⟩
    | c1 :: c2 :: H1, he => simp at he
  · cases lm
    · exact ⟨_, rfl, rfl⟩
    · exact ⟨_, rfl, rfl⟩

/-- the result is undefined behaviour -/
def COut.isUb {α : Type} : COut α → Bool
  | .ub => true
  | _ => false

def COut.isThrow {α : Type} : COut α → Bool
  | .throws => true
  | _ => false

/-- **C68** Arrays with two or more indices whose first index skips a number or descends: the C++ code reads outside of a
vector, also in dict mode. -/
theorem C68_gap_fails : (runSets false ⟨[], []⟩ [("a".toList, [1, 1], .ref 1), ("a".toList, [3, 1], .ref 2)]).isUb = true ∧
    (runSets true ⟨[], []⟩ [("a".toList, [1, 1], .ref 1), ("a".toList, [3, 1], .ref 2)]).isUb = true ∧
    (runSets false ⟨[], []⟩ [("a".toList, [2, 1], .ref 1), ("a".toList, [1, 1], .ref 2)]).isUb = true := by
  decide +kernel

/-- **C68** The same with one index is fine in dict mode and an exception in list mode. -/
theorem C68_gap_one : (runSets true ⟨[], []⟩ [("a".toList, [1], .ref 1), ("a".toList, [3], .ref 2)]).isThrow = true ∧
    (runSets true ⟨[], []⟩ [("a".toList, [2], .ref 1), ("a".toList, [1], .ref 2)]).isThrow = true ∧
    (match runSets false ⟨[], []⟩ [("a".toList, [1], .ref 1), ("a".toList, [3], .ref 2)] with
      | .ok (_, s) => (match (dGet "a".toList s.refdict).bind fun o => lookAlong o [3] with
          | some (.ref n) => n == 2
          | _ => false)
      | _ => false) = true := by
  decide +kernel

/-- loops over two arrays, one with two indices that do not start at one -/
def exCalls : List Call :=
  [("a".toList, [5, 2], .ref 1), ("a".toList, [5, 3], .ref 2), ("b".toList, [0], .ref 3), ("a".toList, [6, 1], .ref 4),
   ("a".toList, [5, 4], .ref 5)]

/-- a checker for `IdxAscending` -/
def usedB (H : List Call) (name : Str) (p : List Int) : Bool :=
  H.any fun c => decide (c.1 = name) && decide (p.length < c.2.1.length + 1) && decide (c.2.1.take p.length = p)

theorem usedB_spec {H : List Call} {name : Str} {p : List Int} {i : Int} (h : usedB H name (p ++ [i]) = true) :
    ∃ r, Used H name (p ++ i :: r) := by
  unfold usedB at h
  rw [List.any_eq_true] at h
  obtain ⟨⟨nm, w, x⟩, hm, h⟩ := h
  simp only [Bool.and_eq_true, decide_eq_true_eq] at h
  obtain ⟨⟨rfl, _⟩, h⟩ := h
  refine ⟨w.drop (p ++ [i]).length, x, ?_⟩
  have : w = (p ++ [i]) ++ w.drop (p ++ [i]).length := by
    conv_lhs => rw [← List.take_append_drop (p ++ [i]).length w]
    rw [h]
  rw [List.append_assoc, List.singleton_append] at this
  rw [← this]
  exact hm

theorem usedB_not {H : List Call} {name : Str} {p : List Int}
    (h : (H.any fun c => decide (c.1 = name) && decide (p.length < c.2.1.length) && decide (c.2.1.take p.length = p)) = false) :
    ∀ j r, ¬ Used H name (p ++ j :: r) := by
  rintro j r ⟨x, hx⟩
  rw [List.any_eq_false] at h
  have := h _ hx
  simp at this

def ascB (dims : Str → Nat) (H : List Call) : Bool :=
  (List.range H.length).all fun n => match H[n]? with
    | none => true
    | some (name, v, _) => decide (v.length = dims name) && (List.range v.length).all fun k =>
        match v[k]? with
        | none => true
        | some i => usedB (H.take n) name (v.take k ++ [i]) || usedB (H.take n) name (v.take k ++ [i - 1]) ||
            !((H.take n).any fun c => decide (c.1 = name) && decide ((v.take k).length < c.2.1.length) &&
              decide (c.2.1.take (v.take k).length = v.take k))

theorem ascB_sound {dims : Str → Nat} {H : List Call} (h : ascB dims H = true) : IdxAscending dims H := by
  unfold ascB at h
  rw [List.all_eq_true] at h
  intro H1 name v x H2 he
  have h1 := h H1.length (by rw [List.mem_range, he]; simp)
  have hget : H[H1.length]? = some (name, v, x) := by rw [he]; simp
  have htake : H.take H1.length = H1 := by rw [he]; simp
  simp only [hget, htake, Bool.and_eq_true, decide_eq_true_eq, List.all_eq_true] at h1
  refine ⟨h1.1, fun p i q hv => ?_⟩
  have h2 := h1.2 p.length (by rw [List.mem_range, hv]; simp)
  have hget2 : v[p.length]? = some i := by rw [hv]; simp
  have htake2 : v.take p.length = p := by rw [hv]; simp
  simp only [hget2, htake2, Bool.or_eq_true] at h2
  rcases h2 with (h2 | h2) | h2
  · exact Or.inl (usedB_spec h2)
  · exact Or.inr (Or.inl (usedB_spec h2))
  · exact Or.inr (Or.inr (usedB_not (by simpa using h2)))

/-- a history that meets the assumptions of the theorems above -/
example : IdxAscending (fun nm => if nm = "b".toList then 1 else 2) exCalls := ascB_sound (by decide +kernel)

end Verif
