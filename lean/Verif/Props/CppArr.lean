import Verif.Model.CppArr
import Verif.Lemmas.Extend

/-! C82: the containers of the compiled parser for variables with indices -/

namespace Verif
open Spec

theorem cbind_ok' {α β : Type} {x : CRes α} {f : α → CRes β} {b : β} :
    (x >>= f) = .ok b ↔ ∃ a, x = .ok a ∧ f a = .ok b := by
  cases x <;> simp [bind, CRes.bind]

mutual
/-- a filled container with `n` indices: consecutive elements from a start index that is not negative, none of them empty -/
def GoodT : Nat → CTree → Prop
  | 0, .leaf _ => True
  | _ + 1, .leaf _ => False
  | 0, .vec _ _ _ => False
  | n + 1, .vec s l es => 0 ≤ s ∧ l = s + es.length - 1 ∧ es ≠ [] ∧ GoodTL n es
def GoodTL : Nat → List CTree → Prop
  | _, [] => True
  | n, e :: es => GoodT n e ∧ GoodTL n es
end

theorem GoodTL_iff {n : Nat} {es : List CTree} : GoodTL n es ↔ ∀ e ∈ es, GoodT n e := by
  induction es with
  | nil => simp [GoodTL]
  | cons e es ih => simp [GoodTL, ih]

theorem toPyL_get (es : List CTree) (s i : Int) :
    dGet (Key.idx i) (toPyL s es) = if s ≤ i then (es[(i - s).toNat]?).map CTree.toPy else none := by
  induction es generalizing s with
  | nil => simp [toPyL, dGet]
  | cons e es ih =>
    rw [toPyL, dGet, ih]
    by_cases h : s = i
    · subst h; simp
    · simp only [Key.idx.injEq, h, if_false]
      by_cases h1 : s ≤ i
      · have h2 : s + 1 ≤ i := by omega
        have h3 : (i - s).toNat = (i - (s + 1)).toNat + 1 := by omega
        simp [h1, h2, h3]
      · have h2 : ¬ s + 1 ≤ i := by omega
        simp [h1, h2]

theorem toPyL_append (es fs : List CTree) (s : Int) : toPyL s (es ++ fs) = toPyL s es ++ toPyL (s + es.length) fs := by
  induction es generalizing s with
  | nil => simp [toPyL]
  | cons e es ih => simp only [List.cons_append, toPyL, ih, List.length_cons]; congr 3; push_cast; ring

theorem toPyL_push (es : List CTree) (s : Int) (x : Val) :
    dSet (Key.idx (s + es.length)) x (toPyL s es) = toPyL s es ++ [(Key.idx (s + es.length), x)] := by
  induction es generalizing s with
  | nil => simp [toPyL, dSet]
  | cons e es ih =>
    have h1 : s + ((e :: es).length : Int) = s + 1 + es.length := by simp; ring
    have h2 : s ≠ s + 1 + (es.length : Int) := by omega
    rw [h1, toPyL, dSet, if_neg (by simpa using h2), ih]; rfl

theorem toPyL_set (es : List CTree) (s : Int) (k : Nat) (hk : k < es.length) (e : CTree) :
    dSet (Key.idx (s + k)) e.toPy (toPyL s es) = toPyL s (es.set k e) := by
  induction es generalizing s k with
  | nil => simp at hk
  | cons a es ih =>
    cases k with
    | zero => simp [toPyL, dSet]
    | succ k =>
      have h2 : s ≠ s + ((k + 1 : Nat) : Int) := by omega
      rw [toPyL, dSet, if_neg (by simpa using h2), List.set_cons_succ, toPyL]
      have : s + ((k + 1 : Nat) : Int) = s + 1 + k := by push_cast; ring
      rw [this, ih _ _ (by simpa using hk)]

/-- `set` on a container that is empty or well formed -/
theorem vset_good {n : Nat} {s l : Int} {es : List CTree} {i : Int} {e t : CTree} (hi : 0 ≤ i) (he : GoodT n e)
    (h : (s = 0 ∧ l = -1 ∧ es = []) ∨ GoodT (n + 1) (.vec s l es)) (hv : vset s l es i e = .ok t) :
    GoodT (n + 1) t ∧ t.toPy = .dic (dSet (Key.idx i) e.toPy (toPyL s es)) := by
  unfold vset at hv
  rcases h with ⟨rfl, rfl, rfl⟩ | h
  · simp at hv; subst hv
    simp [GoodT, GoodTL, he, hi, CTree.toPy, toPyL, dSet]
  · simp only [GoodT] at h
    obtain ⟨h1, h2, h3, h4⟩ := h
    rw [GoodTL_iff] at h4
    have hlen : 0 < es.length := List.length_pos_iff.2 h3
    have hl : l ≠ -1 := by omega
    simp only [hl, decide_false, Bool.false_eq_true, if_false] at hv
    split at hv
    · rename_i e1
      simp only [CRes.ok.injEq] at hv; subst hv
      refine ⟨?_, ?_⟩
      · simp only [GoodT, GoodTL_iff]
        refine ⟨h1, by simp; omega, by simp, ?_⟩
        intro x hx
        rcases List.mem_append.1 hx with hx | hx
        · exact h4 x hx
        · simp at hx; subst hx; exact he
      · rw [CTree.toPy, toPyL_append, e1, toPyL_push]; simp [toPyL]
    · split at hv
      · rename_i e1 e2
        simp only [CRes.ok.injEq] at hv; subst hv
        refine ⟨?_, ?_⟩
        · simp only [GoodT, GoodTL_iff]
          refine ⟨h1, by simpa using h2, by simpa using h3, ?_⟩
          intro x hx
          rcases List.mem_or_eq_of_mem_set hx with hx | rfl
          · exact h4 x hx
          · exact he
        · rw [CTree.toPy, ← toPyL_set _ _ _ (by omega)]
          congr 3; omega
      · cases hv

/-- an assignment to an element keeps the container well formed and does in its Python image what the Python parser does -/
theorem vput_good {is : List Int} (hi : ∀ i ∈ is, 0 ≤ i) {t : Option CTree} (ht : ∀ x, t = some x → GoodT is.length x) {v : Val}
    {t' : CTree} (h : vput is t v = .ok t') :
    GoodT is.length t' ∧ setArr (t.map CTree.toPy) is v = .ok t'.toPy := by
  induction is generalizing t t' with
  | nil =>
    simp [vput] at h; subst h
    refine ⟨by simp [GoodT], ?_⟩
    cases t <;> simp [setArr, CTree.toPy]
  | cons i is ih =>
    have hi' : ∀ j ∈ is, 0 ≤ j := fun j hj => hi j (by simp [hj])
    cases t with
    | none =>
      simp only [vput, cbind_ok'] at h
      obtain ⟨e, he, h⟩ := h
      obtain ⟨g1, g2⟩ := ih hi' (by simp) he
      obtain ⟨r1, r2⟩ := vset_good (hi i (by simp)) g1 (.inl ⟨rfl, rfl, rfl⟩) h
      refine ⟨r1, ?_⟩
      simp only [Option.map_none] at g2 ⊢
      simp [setArr, g2, r2, toPyL, bind, Except.bind, pure, Except.pure]
    | some x =>
      have hx := ht x rfl
      cases x with
      | leaf w => simp [vput] at h
      | vec s l es =>
        simp only [vput, cbind_ok'] at h
        obtain ⟨e, he, h⟩ := h
        have hx' := hx
        simp only [List.length_cons, GoodT] at hx'
        obtain ⟨h1, h2, h3, h4⟩ := hx'
        rw [GoodTL_iff] at h4
        obtain ⟨g1, g2⟩ := ih hi' (by
          intro y hy
          split at hy
          · exact h4 y (List.mem_of_getElem? hy)
          · cases hy) he
        obtain ⟨r1, r2⟩ := vset_good (hi i (by simp)) g1 (.inr hx) h
        refine ⟨r1, ?_⟩
        have e1 : dGet (Key.idx i) (toPyL s es) =
            (if vcontains s l i then es[(i - s).toNat]? else none).map CTree.toPy := by
          rw [toPyL_get]
          unfold vcontains
          by_cases c1 : s ≤ i
          · by_cases c2 : i ≤ l
            · simp [c1, c2]
            · have : es[(i - s).toNat]? = none := by rw [List.getElem?_eq_none]; omega
              simp [c1, c2, this]
          · simp [c1]
        simp only [Option.map_some, CTree.toPy, setArr, e1, g2, bind, Except.bind, pure, Except.pure, r2]

/-- an element that is read is the element of the Python image -/
theorem vget_toPy {is : List Int} {t : CTree} (ht : GoodT is.length t) {v : Val} :
    vget is t = .ok v ↔ getArr t.toPy is = .ok v := by
  induction is generalizing t with
  | nil => cases t <;> simp [GoodT] at ht; simp [vget, getArr, CTree.toPy]
  | cons i is ih =>
    cases t with
    | leaf w => simp [GoodT] at ht
    | vec s l es =>
      simp only [List.length_cons, GoodT, GoodTL_iff] at ht
      obtain ⟨h1, h2, h3, h4⟩ := ht
      simp only [vget, CTree.toPy, getArr, toPyL_get, vcontains]
      by_cases c1 : s ≤ i
      · by_cases c2 : i ≤ l
        · have : (i - s).toNat < es.length := by omega
          simp only [c1, c2, decide_true, Bool.and_self, if_true, List.getElem?_eq_getElem this, Option.map_some]
          exact ih (h4 _ (List.getElem_mem _))
        · have : es[(i - s).toNat]? = none := by rw [List.getElem?_eq_none]; omega
          simp [c1, c2, this]
      · simp [c1]

/-- `did_read` tells whether the Python image has the element -/
theorem vhas_toPy {is : List Int} {t : CTree} (ht : GoodT is.length t) :
    vhas is t = true ↔ ∃ v, getArr t.toPy is = .ok v := by
  induction is generalizing t with
  | nil => cases t <;> simp [GoodT] at ht; simp [vhas, getArr, CTree.toPy]
  | cons i is ih =>
    cases t with
    | leaf w => simp [GoodT] at ht
    | vec s l es =>
      simp only [List.length_cons, GoodT, GoodTL_iff] at ht
      obtain ⟨h1, h2, h3, h4⟩ := ht
      simp only [vhas, CTree.toPy, getArr, toPyL_get, vcontains]
      by_cases c1 : s ≤ i
      · by_cases c2 : i ≤ l
        · have : (i - s).toNat < es.length := by omega
          simp only [c1, c2, decide_true, Bool.true_and, if_true, List.getElem?_eq_getElem this, Option.map_some]
          exact ih (h4 _ (List.getElem_mem _))
        · have : es[(i - s).toNat]? = none := by rw [List.getElem?_eq_none]; omega
          simp [c1, c2, this]
      · simp [c1]

/-! ## C82 -/

/-- assignments one after the other in C++, from a variable that has not been read -/
def vputs : Option CTree → List (List Int × Val) → CRes (Option CTree)
  | t, [] => .ok t
  | t, (is, v) :: ps => do
    let t' ← vput is t v
    vputs (some t') ps

/-- the same assignments in the Python parser -/
def setArrs : Option Val → List (List Int × Val) → Res (Option Val)
  | u, [] => .ok u
  | u, (is, v) :: ps => do
    let u' ← setArr u is v
    setArrs (some u') ps

/-- C82: whenever the assignments to the elements of an array succeed in the compiled parser, and no index is negative, the
dictionary handed to Python is the one that the Python parser builds from the same assignments.
Partial: negative indices are excluded (see `C82_fails`), and assignments that the compiled parser refuses
(see `C82_gap_fails`). -/
theorem C82_partial (n : Nat) (ps : List (List Int × Val)) (hn : ∀ p ∈ ps, p.1.length = n ∧ ∀ i ∈ p.1, 0 ≤ i)
    (t : CTree) (h : vputs none ps = .ok (some t)) : setArrs none ps = .ok (some t.toPy) := by
  suffices H : ∀ (ps : List (List Int × Val)) (u : Option CTree), (∀ p ∈ ps, p.1.length = n ∧ ∀ i ∈ p.1, 0 ≤ i) →
      (∀ x, u = some x → GoodT n x) → vputs u ps = .ok (some t) → setArrs (u.map CTree.toPy) ps = .ok (some t.toPy) by
    exact H ps none hn (by simp) h
  intro ps
  induction ps with
  | nil => intro u _ _ h; simp [vputs] at h; subst h; simp [setArrs]
  | cons p ps ih =>
    intro u hn hu h
    obtain ⟨is, v⟩ := p
    simp only [vputs, cbind_ok'] at h
    obtain ⟨t', h1, h2⟩ := h
    obtain ⟨hl, hp⟩ := hn (is, v) (by simp)
    simp only at hl hp
    obtain ⟨g1, g2⟩ := vput_good hp (by rw [hl]; exact hu) h1
    have := ih (some t') (fun p hp => hn p (by simp [hp])) (by intro x hx; cases hx; rw [← hl]; exact g1) h2
    simp only [setArrs, g2, bind, Except.bind]
    exact this

/-- C82: an element is found in the container if and only if it is in the dictionary, with the same value -/
theorem C82_read (n : Nat) (ps : List (List Int × Val)) (hn : ∀ p ∈ ps, p.1.length = n ∧ ∀ i ∈ p.1, 0 ≤ i)
    (t : CTree) (h : vputs none ps = .ok (some t)) (is : List Int) (hl : is.length = n) (v : Val) :
    (vget is t = .ok v ↔ getArr t.toPy is = .ok v) ∧ (vhas is t = true ↔ ∃ v, getArr t.toPy is = .ok v) := by
  suffices H : ∀ (ps : List (List Int × Val)) (u : Option CTree), (∀ p ∈ ps, p.1.length = n ∧ ∀ i ∈ p.1, 0 ≤ i) →
      (∀ x, u = some x → GoodT n x) → vputs u ps = .ok (some t) → GoodT n t by
    have := H ps none hn (by simp) h
    subst hl
    exact ⟨vget_toPy this, vhas_toPy this⟩
  intro ps
  induction ps with
  | nil => intro u _ hu h; simp [vputs] at h; exact hu _ h
  | cons p ps ih =>
    intro u hn hu h
    obtain ⟨is, v⟩ := p
    simp only [vputs, cbind_ok'] at h
    obtain ⟨t', h1, h2⟩ := h
    obtain ⟨hl, hp⟩ := hn (is, v) (by simp)
    simp only at hl hp
    obtain ⟨g1, _⟩ := vput_good hp (by rw [hl]; exact hu) h1
    exact ih (some t') (fun p hp => hn p (by simp [hp])) (by intro x hx; cases hx; rw [← hl]; exact g1) h2

/-- Python's dictionary of the two assignments is not the one of the compiled parser: the element -1 is lost -/
theorem C82_fails : ∃ (ps : List (List Int × Val)) (t : CTree) (u : Val),
    vputs none ps = .ok (some t) ∧ setArrs none ps = .ok (some u) ∧
    (∃ v, getArr u [-1] = .ok v) ∧ ¬ ∃ v, getArr t.toPy [-1] = .ok v := by
  refine ⟨[([-1], .num (.int 10)), ([0], .num (.int 20))], .vec 0 0 [.leaf (.num (.int 20))],
    .dic [(.idx (-1), .num (.int 10)), (.idx 0, .num (.int 20))], ?_, ?_, ⟨.num (.int 10), ?_⟩, ?_⟩
  · simp [vputs, vput, vset, vcontains, bind, CRes.bind]
  · simp [setArrs, setArr, dSet, dGet, bind, Except.bind, pure, Except.pure]
  · simp [getArr, dGet]
  · simp [getArr, CTree.toPy, toPyL, dGet]

/-- indices that are not consecutive are accepted by the Python parser only -/
theorem C82_gap_fails : ∃ (ps : List (List Int × Val)) (u : Val),
    setArrs none ps = .ok (some u) ∧ vputs none ps = .throw := by
  refine ⟨[([1], .num (.int 10)), ([3], .num (.int 20))], .dic [(.idx 1, .num (.int 10)), (.idx 3, .num (.int 20))], ?_, ?_⟩
  · simp [setArrs, setArr, dSet, dGet, bind, Except.bind, pure, Except.pure]
  · simp [vputs, vput, vset, vcontains, bind, CRes.bind]

/-- the hypotheses of `C82_partial` are met by an array with two indices, filled row by row -/
example : ∃ t, vputs none [([1, 2], .num (.int 5)), ([1, 3], .num (.int 6)), ([2, 2], .num (.int 7))] = .ok (some t) ∧
    getArr t.toPy [1, 3] = .ok (.num (.int 6)) ∧ getArr t.toPy [2, 2] = .ok (.num (.int 7)) := by
  refine ⟨.vec 1 2 [.vec 2 3 [.leaf (.num (.int 5)), .leaf (.num (.int 6))], .vec 2 2 [.leaf (.num (.int 7))]], ?_, ?_, ?_⟩
  · simp [vputs, vput, vset, vcontains, bind, CRes.bind]
  · simp [getArr, CTree.toPy, toPyL, dGet]
  · simp [getArr, CTree.toPy, toPyL, dGet]

/-! ### matrices -/

/-- assignments to elements of a matrix -/
def CMat.puts (f : Int → Int → Val) : CMat → List (Int × Int) → CRes CMat
  | m, [] => .ok m
  | m, (i, j) :: ps => do
    let m' ← m.put i j (f i j)
    CMat.puts f m' ps

/-- the elements that the two loops around an assignment visit: the whole matrix, or the part above or below the diagonal -/
def Spec.MatPart (tri lower : Bool) (r0 r1 c0 c1 i j : Int) : Prop :=
  r0 ≤ i ∧ i ≤ r1 ∧ (if tri && !lower then c0 + (i - r0) else c0) ≤ j ∧ j ≤ (if tri && lower then c0 + (i - r0) else c1)

/-- positions of different elements are different, and inside of the data -/
theorem mat_pos {w x y : Int} {i j : Int} (hx : 0 ≤ x) (hxw : x < w) (hy : 0 ≤ y) (hyw : y < w) (h : i * w + x = j * w + y) :
    i = j ∧ x = y := by
  have hw : 0 < w := by omega
  have h1 : (i * w + x) / w = i := by rw [Int.add_comm, Int.add_mul_ediv_right _ _ (by omega), Int.ediv_eq_zero_of_lt hx hxw]; ring
  have h2 : (j * w + y) / w = j := by rw [Int.add_comm, Int.add_mul_ediv_right _ _ (by omega), Int.ediv_eq_zero_of_lt hy hyw]; ring
  have h3 : i = j := by rw [← h1, ← h2, h]
  subst h3
  exact ⟨rfl, by omega⟩

theorem mat_range {w n i x : Int} (hi : 0 ≤ i) (hin : i < n) (hx : 0 ≤ x) (hxw : x < w) : 0 ≤ i * w + x ∧ i * w + x < n * w := by
  constructor
  · have : 0 ≤ i * w := Int.mul_nonneg hi (by omega)
    omega
  · have : (i + 1) * w ≤ n * w := Int.mul_le_mul_of_nonneg_right (by omega) (by omega)
    have e : (i + 1) * w = i * w + w := by ring
    omega

theorem puts_shape {f : Int → Int → Val} {ps : List (Int × Int)} {m m' : CMat} (h : m.puts f ps = .ok m') :
    m'.rowStart = m.rowStart ∧ m'.numRows = m.numRows ∧ m'.colStart = m.colStart ∧ m'.numCols = m.numCols ∧
    m'.tri = m.tri ∧ m'.lower = m.lower ∧ m'.data.length = m.data.length := by
  induction ps generalizing m with
  | nil => simp [CMat.puts] at h; subst h; simp
  | cons p ps ih =>
    obtain ⟨i, j⟩ := p
    simp only [CMat.puts, cbind_ok'] at h
    obtain ⟨m1, h1, h2⟩ := h
    unfold CMat.put at h1
    split at h1
    · cases h1
    · cases h1
      simpa using ih h2

/-- what an element of the rectangle contains behind the assignments -/
theorem puts_get {f : Int → Int → Val} {ps : List (Int × Int)} {m m' : CMat} (h : m.puts f ps = .ok m')
    (hp : ∀ p ∈ ps, m.colStart ≤ p.2 ∧ p.2 < m.colStart + m.numCols) (i j : Int)
    (hj : m.colStart ≤ j ∧ j < m.colStart + m.numCols) :
    m'.get i j = if (i, j) ∈ ps then .ok (f i j) else m.get i j := by
  induction ps generalizing m with
  | nil => simp [CMat.puts] at h; subst h; simp
  | cons p ps ih =>
    obtain ⟨a, b⟩ := p
    simp only [CMat.puts, cbind_ok'] at h
    obtain ⟨m1, h1, h2⟩ := h
    unfold CMat.put at h1
    split at h1
    · cases h1
    · rename_i hr
      cases h1
      have hr1 : ¬ m.pos a b < 0 := fun e => hr (.inl e)
      have hr2 : (m.pos a b).toNat < m.data.length := by
        by_contra e; exact hr (.inr (by omega))
      have := ih h2 (fun p hp' => hp p (by simp [hp'])) hj
      rw [this]
      by_cases hm : (i, j) ∈ ps
      · simp [hm]
      · simp only [hm, if_false, List.mem_cons, or_false, Prod.mk.injEq]
        by_cases hab : i = a ∧ j = b
        · obtain ⟨rfl, rfl⟩ := hab
          have hpos : CMat.pos { m with data := m.data.set (m.pos i j).toNat (f i j) } i j = m.pos i j := rfl
          simp only [and_self, if_true, CMat.get, hpos, hr1, if_false]
          simp [List.getElem?_set, hr2, CRes.ofOption]
        · simp only [hab, if_false, CMat.get]
          have hpos : CMat.pos { m with data := m.data.set (m.pos a b).toNat (f a b) } i j = m.pos i j := rfl
          rw [hpos]
          by_cases hneg : m.pos i j < 0
          · simp [hneg]
          · have hne : (m.pos a b).toNat ≠ (m.pos i j).toNat := by
              intro e
              have e2 : m.pos a b = m.pos i j := by omega
              have hb := hp (a, b) (by simp)
              simp only at hb
              have := mat_pos (by omega) (by omega) (by omega) (by omega)
                (show (a - m.rowStart) * m.numCols + (b - m.colStart) = (i - m.rowStart) * m.numCols + (j - m.colStart) from e2)
              exact hab ⟨by omega, by omega⟩
            simp [hneg, List.getElem?_set, hne]

theorem row_get {m : CMat} {i : Int} {g : Int → Val} (n : Nat) (j0 : Int)
    (h : ∀ j, j0 ≤ j → j < j0 + n → m.get i j = .ok (g j)) :
    ∃ d, m.row i j0 n = .ok d ∧ ∀ j, dGet (Key.idx j) d = if j0 ≤ j ∧ j < j0 + n then some (g j) else none := by
  induction n generalizing j0 with
  | zero =>
    refine ⟨[], rfl, fun j => ?_⟩
    have : ¬ (j0 ≤ j ∧ j < j0 + ((0 : Nat) : Int)) := by omega
    simp only [if_neg this]; rfl
  | succ n ih =>
    obtain ⟨d, hd, hg⟩ := ih (j0 + 1) (fun j h1 h2 => h j (by omega) (by push_cast; omega))
    refine ⟨(Key.idx j0, g j0) :: d, ?_, fun j => ?_⟩
    · simp [CMat.row, h j0 (le_refl _) (by push_cast; omega), hd, bind, CRes.bind]
    · rw [dGet, hg]
      by_cases e : j0 = j
      · subst e
        have : j0 ≤ j0 ∧ j0 < j0 + ((n + 1 : Nat) : Int) := by push_cast; omega
        simp only [if_true, if_pos this]
      · simp only [Key.idx.injEq, e, if_false]
        by_cases c : j0 + 1 ≤ j ∧ j < j0 + 1 + (n : Int)
        · have : j0 ≤ j ∧ j < j0 + ((n + 1 : Nat) : Int) := by push_cast; omega
          rw [if_pos c, if_pos this]
        · have : ¬ (j0 ≤ j ∧ j < j0 + ((n + 1 : Nat) : Int)) := by push_cast; omega
          rw [if_neg c, if_neg this]

theorem rows_get {m : CMat} {g : Int → Int → Val} (n : Nat) (i0 : Int)
    (h : ∀ i j, i0 ≤ i → i < i0 + n → m.colFirst i ≤ j → j ≤ m.colLast i → m.get i j = .ok (g i j)) :
    ∃ d, m.rows i0 n = .ok d ∧ ∀ i, if i0 ≤ i ∧ i < i0 + n then
        (∃ r, dGet (Key.idx i) d = some (.dic r) ∧
          ∀ j, dGet (Key.idx j) r = if m.colFirst i ≤ j ∧ j ≤ m.colLast i then some (g i j) else none)
      else dGet (Key.idx i) d = none := by
  induction n generalizing i0 with
  | zero =>
    refine ⟨[], rfl, fun i => ?_⟩
    have : ¬ (i0 ≤ i ∧ i < i0 + ((0 : Nat) : Int)) := by omega
    simp only [if_neg this]; rfl
  | succ n ih =>
    obtain ⟨d, hd, hg⟩ := ih (i0 + 1) (fun i j h1 h2 => h i j (by omega) (by push_cast; omega))
    obtain ⟨r, hr, hrg⟩ := row_get (m := m) (i := i0) (g := g i0) (m.colLast i0 + 1 - m.colFirst i0).toNat (m.colFirst i0)
      (fun j h1 h2 => h i0 j (le_refl _) (by push_cast; omega) h1 (by omega))
    refine ⟨(Key.idx i0, .dic r) :: d, ?_, fun i => ?_⟩
    · simp [CMat.rows, hr, hd, bind, CRes.bind]
    · rw [dGet]
      by_cases e : i0 = i
      · subst e
        have : i0 ≤ i0 ∧ i0 < i0 + ((n + 1 : Nat) : Int) := by push_cast; omega
        simp only [if_true, if_pos this]
        refine ⟨r, rfl, fun j => ?_⟩
        rw [hrg]
        by_cases c : m.colFirst i0 ≤ j ∧ j ≤ m.colLast i0
        · rw [if_pos (by omega), if_pos c]
        · rw [if_neg (by omega), if_neg c]
      · simp only [Key.idx.injEq, e, if_false]
        have := hg i
        by_cases c : i0 + 1 ≤ i ∧ i < i0 + 1 + (n : Int)
        · have c' : i0 ≤ i ∧ i < i0 + ((n + 1 : Nat) : Int) := by push_cast; omega
          rw [if_pos c] at this; rw [if_pos c']; exact this
        · have c' : ¬ (i0 ≤ i ∧ i < i0 + ((n + 1 : Nat) : Int)) := by push_cast; omega
          rw [if_neg c] at this; rw [if_neg c']; exact this

/-- C82, matrices: a matrix whose elements have been assigned by two loops over the whole matrix, or over the part above or
below the diagonal, comes back with exactly these elements.
Partial: in the triangular cases the diagonal has to start in the corner of the matrix, and each row of the part has to
have an element for the dictionary to be the same as in Python (see `C82_matrix_fails`). -/
theorem C82_matrix_partial (zero : Val) (f : Int → Int → Val) (tri lower : Bool) (r0 r1 c0 c1 : Int)
    (ps : List (Int × Int)) (hps : ∀ i j, (i, j) ∈ ps ↔ MatPart tri lower r0 r1 c0 c1 i j)
    -- the diagonal ends in a corner
    (hdiag : tri = true → c0 + (r1 - r0) = c1) (m m' : CMat) (hm : matInit zero r0 r1 c0 c1 tri lower = .ok m)
    (h : m.puts f ps = .ok m') :
    ∃ u, m'.toPy = .ok u ∧ ∀ i j v, getArr u [i, j] = .ok v ↔ MatPart tri lower r0 r1 c0 c1 i j ∧ v = f i j := by
  unfold matInit at hm
  split at hm
  · cases hm
  rename_i hneg
  cases hm
  obtain ⟨s1, s2, s3, s4, s5, s6, _⟩ := puts_shape h
  simp only at s1 s2 s3 s4 s5 s6
  have hcols : ∀ p ∈ ps, c0 ≤ p.2 ∧ p.2 < c0 + (c1 - c0 + 1) := by
    intro p hp
    obtain ⟨i, j⟩ := p
    obtain ⟨a, b, c, d⟩ := (hps i j).1 hp
    cases tri <;> cases lower <;> simp at c d hdiag <;> simp only <;> omega
  have hcf : ∀ i, m'.colFirst i = if tri && !lower then c0 + (i - r0) else c0 := by
    intro i; unfold CMat.colFirst; rw [s1, s3, s5, s6]; cases tri <;> cases lower <;> simp
  have hcl : ∀ i, m'.colLast i = if tri && lower then c0 + (i - r0) else c1 := by
    intro i; unfold CMat.colLast; rw [s1, s3, s4, s5, s6]; cases tri <;> cases lower <;> simp <;> ring
  have hget : ∀ i j, r0 ≤ i → i < r0 + (r1 - r0 + 1) → m'.colFirst i ≤ j → j ≤ m'.colLast i → m'.get i j = .ok (f i j) := by
    intro i j h1 h2 h3 h4
    rw [hcf] at h3; rw [hcl] at h4
    have hmem : (i, j) ∈ ps := (hps i j).2 ⟨h1, by omega, h3, h4⟩
    rw [puts_get h hcols i j (hcols (i, j) hmem), if_pos hmem]
  obtain ⟨d, hd, hg⟩ := rows_get (m := m') (g := f) (r1 - r0 + 1).toNat r0 (fun i j h1 h2 => hget i j h1 (by omega))
  refine ⟨.dic d, ?_, fun i j v => ?_⟩
  · simp [CMat.toPy, s1, s2, hd, bind, CRes.bind]
  · have hi := hg i
    by_cases c : r0 ≤ i ∧ i < r0 + ((r1 - r0 + 1).toNat : Int)
    · rw [if_pos c] at hi
      obtain ⟨r, hr, hj⟩ := hi
      simp only [getArr, hr, hj, hcf, hcl]
      by_cases c2 : (if tri && !lower then c0 + (i - r0) else c0) ≤ j ∧ j ≤ (if tri && lower then c0 + (i - r0) else c1)
      · rw [if_pos c2]
        simp only [Except.ok.injEq]
        constructor
        · rintro rfl; exact ⟨⟨c.1, by omega, c2.1, c2.2⟩, rfl⟩
        · rintro ⟨_, rfl⟩; rfl
      · rw [if_neg c2]
        simp only [reduceCtorEq, false_iff, not_and]
        rintro ⟨_, _, x, y⟩ _; exact c2 ⟨x, y⟩
    · rw [if_neg c] at hi
      simp only [getArr, hi, reduceCtorEq, false_iff, not_and]
      rintro ⟨x, y, _, _⟩ _; exact c ⟨x, by omega⟩

/-- the hypotheses of `C82_matrix_partial` are met by the upper half of a 2 x 2 matrix -/
example : (∀ i j, (i, j) ∈ [((1 : Int), (1 : Int)), (1, 2), (2, 2)] ↔ MatPart true false 1 2 1 2 i j) ∧
    ∃ m m', matInit (.num (.int 0)) 1 2 1 2 true false = .ok m ∧
      m.puts (fun i j => .num (.int (10 * i + j))) [(1, 1), (1, 2), (2, 2)] = .ok m' := by
  refine ⟨fun i j => ?_, _, _, rfl, rfl⟩
  simp only [List.mem_cons, Prod.mk.injEq, List.not_mem_nil, or_false, MatPart, Bool.not_false, Bool.and_self, if_true,
    Bool.and_false, Bool.false_eq_true, if_false]
  omega

/-- The loops `for i=1 to 2`, `for j=i+1 to 2` around `x[i,j]` (matrix `init(1, 2, 2, 2, true, false)`): the compiled parser
returns an empty row 2, where the Python parser has none. -/
theorem C82_matrix_fails : ∃ (m m' : CMat) (u w : Val), matInit (.num (.int 0)) 1 2 2 2 true false = .ok m ∧
    m.puts (fun i j => .num (.int (10 * i + j))) [(1, 2)] = .ok m' ∧ m'.toPy = .ok u ∧
    setArrs none [([1, 2], .num (.int 12))] = .ok (some w) ∧
    getArr u [2] = .ok (.dic []) ∧ ¬ ∃ v, getArr w [2] = .ok v := by
  refine ⟨_, _, _, _, rfl, rfl, rfl, rfl, rfl, ?_⟩
  rintro ⟨v, hv⟩; cases hv

/-- The loops `for i=1 to 2`, `for j=1 to 2*i` around `x[i,j]` (matrix `init(1, 2, 1, 4, true, true)`): elements that have
been read are missing in what the compiled parser returns. -/
theorem C82_double_fails : ∃ (m m' : CMat) (u w : Val), matInit (.num (.int 0)) 1 2 1 4 true true = .ok m ∧
    m.puts (fun i j => .num (.int (10 * i + j))) [(1, 1), (1, 2), (2, 1), (2, 2), (2, 3), (2, 4)] = .ok m' ∧
    m'.toPy = .ok u ∧
    setArrs none ([([1, 1], 11), ([1, 2], 12), ([2, 1], 21), ([2, 2], 22), ([2, 3], 23), ([2, 4], 24)].map
      fun p => (p.1, .num (.int p.2))) = .ok (some w) ∧
    getArr w [2, 4] = .ok (.num (.int 24)) ∧ ¬ ∃ v, getArr u [2, 4] = .ok v := by
  refine ⟨_, _, _, _, rfl, rfl, rfl, rfl, rfl, ?_⟩
  rintro ⟨v, hv⟩; cases hv

/-- The loops `for i=1 to 2`, `for j=i to 2` around `x[j,i]` (matrix `init(1, 2, 1, 2, true, false)`): the compiled parser
returns x[1,2], which has not been read, in place of x[2,1]. -/
theorem C82_swapped_fails : ∃ (m m' : CMat) (u w : Val), matInit (.num (.int 0)) 1 2 1 2 true false = .ok m ∧
    m.puts (fun i j => .num (.int (10 * i + j))) [(1, 1), (2, 1), (2, 2)] = .ok m' ∧ m'.toPy = .ok u ∧
    setArrs none ([([1, 1], 11), ([2, 1], 21), ([2, 2], 22)].map fun p => (p.1, .num (.int p.2))) = .ok (some w) ∧
    getArr w [2, 1] = .ok (.num (.int 21)) ∧ (¬ ∃ v, getArr u [2, 1] = .ok v) ∧
    getArr u [1, 2] = .ok (.num (.int 0)) ∧ ¬ ∃ v, getArr w [1, 2] = .ok v := by
  refine ⟨_, _, _, _, rfl, rfl, rfl, rfl, rfl, ?_, rfl, ?_⟩
  · rintro ⟨v, hv⟩; cases hv
  · rintro ⟨v, hv⟩; cases hv

end Verif
