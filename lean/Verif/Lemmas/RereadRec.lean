import Verif.Lemmas.Plain
import Verif.Lemmas.CppFld
import Verif.Lemmas.Write
import Verif.Props.Tables
import Verif.Spec.Same
/-
Records: what has been read from lines, written again and read again.
-/
namespace Verif
open Spec

/-! ## integers that have been read from columns fit the columns -/

theorem deUnderscore_len {b : Bool} {s t : Str} (h : deUnderscore b s = some t) : t.length ≤ s.length := by
  induction s generalizing b t with
  | nil => cases h; simp
  | cons c cs ih =>
    unfold deUnderscore at h
    split at h
    · split at h
      · cases h
      · split at h
        · have := ih h
          simp only [List.length_cons] at this ⊢
          omega
        · cases h
    · rw [Option.map_eq_some_iff] at h
      obtain ⟨u, hu, rfl⟩ := h
      have := ih hu
      simp only [List.length_cons]
      omega

theorem strip_length (s : Str) : (strip s).length ≤ s.length := by
  obtain ⟨p, q, h, _⟩ := strip_decomp s
  have := congrArg List.length h
  simp only [List.length_append] at this
  omega

theorem pyInt_length {s : Str} {n : Int} (h : pyInt s = some n) : (intStr n).length ≤ s.length := by
  unfold pyInt at h
  cases ht : deUnderscore false (strip s) with
  | none => rw [ht] at h; cases h
  | some t =>
    rw [ht] at h
    have h1 := deUnderscore_len ht
    have h2 := strip_length s
    simp only [Option.bind_eq_bind, Option.bind_some] at h
    have key : ∀ neg u, (parseNat u).bind (fun n => some (applySign neg n)) = some n → (if neg then 1 else 0) + u.length ≤ t.length →
        (intStr n).length ≤ t.length := by
      intro neg u h hl
      cases hp : parseNat u with
      | none => rw [hp] at h; cases h
      | some m =>
        rw [hp] at h
        simp only [Option.bind_some, Option.some.injEq] at h
        obtain ⟨a1, a2⟩ := parseNat_inv hp
        have hm : m = digitsVal u := by
          unfold parseNat at hp
          split at hp
          · cases hp; rfl
          · cases hp
        have hlt := digitsVal_lt a1
        rw [← hm] at hlt
        have hlen : (natStr m).length ≤ u.length := by
          have := (natStr_length_le (u.length - 1) m).2
          have hpos : 0 < u.length := List.length_pos_iff.2 a2
          rw [Nat.sub_add_cancel hpos] at this
          exact this hlt
        rw [intStr_eq]
        subst h
        have hna : (applySign neg m).natAbs = m := by
          unfold applySign; split <;> simp
        rw [hna, List.length_append]
        have : (if applySign neg m < 0 then ['-'] else ([] : Str)).length ≤ (if neg then 1 else 0) := by
          cases neg with
          | true => split <;> simp
          | false =>
            have : ¬ applySign false m < 0 := by simp [applySign]
            rw [if_neg this]; simp
        omega
    have := key (splitSign t).1 (splitSign t).2 h (by
      unfold splitSign
      split
      · simp
      · simp; omega
      · simp)
    omega

theorem readFortInt_fits {s : Str} {n : Int} {w : Nat} (h : readFortInt s = .ok n) (hs : s.length ≤ w) (hw : 1 ≤ w) : FitsInt w n := by
  unfold readFortInt at h
  split at h
  · cases h
    exact hw
  · split at h
    · rename_i m hm
      cases h
      exact (pyInt_length hm).trans hs
    · cases h

theorem ctrlNum_fits {s : Str} {n : Int} {w : Nat} (h : readCtrlNum s = .ok n) (hs : s.length ≤ w) (hw : 1 ≤ w) : FitsInt w n := by
  unfold readCtrlNum at h
  dsimp only at h
  split at h
  · split at h
    · rename_i m hm
      cases h
      exact (pyInt_length hm).trans ((strip_length s).trans hs)
    · cases h
  · cases h
    exact hw

theorem slice_length_le {α : Type} (l : List α) (i j : Nat) : (slice l i j).length ≤ j - i := by
  unfold slice
  rw [List.length_drop, List.length_take]
  omega

theorem ctrl_fits {w : Nat} {l : Str} {c : Ctrl} (h : readCtrl w l = .ok c) : FitsCtrl c.mat c.mf c.mt := by
  unfold readCtrl at h
  simp only [bind_ok, pure_ok] at h
  obtain ⟨a, h1, b, h2, d, h3, rfl⟩ := h
  rw [fitsCtrl_iff]
  refine ⟨ctrlNum_fits h1 ?_ (by omega), ctrlNum_fits h2 ?_ (by omega), ctrlNum_fits h3 ?_ (by omega)⟩
  all_goals
    refine (slice_length_le _ _ _).trans ?_
    omega

theorem intField_fits {w : Nat} {l : Str} {i : Nat} {n : Int} (h : intField w l i = .ok n) (hw : 1 ≤ w) : FitsInt w n := by
  refine readFortInt_fits h ((slice_length_le _ _ _).trans ?_) hw
  rw [Nat.add_mul]
  omega

/-- a record of six fields that has been read -/
structure ContRead (w : Nat) (r : ContRec) (l1 l2 n1 n2 : Int) : Prop where
  e1 : r.l1 = .int l1
  e2 : r.l2 = .int l2
  e3 : r.n1 = .int n1
  e4 : r.n2 = .int n2
  f1 : FitsInt w l1
  f2 : FitsInt w l2
  f3 : FitsInt w n1
  f4 : FitsInt w n2
  fc : FitsCtrl r.ctrl.mat r.ctrl.mf r.ctrl.mt

theorem readCont_fits {o : ROpts} (hw : 1 ≤ o.width) {lines : List Str} {ofs : Nat} {r : ContRec} {ofs' : Nat}
    (h : readCont o lines ofs = .ok (r, ofs')) : ∃ l1 l2 n1 n2, ContRead o.width r l1 l2 n1 n2 := by
  unfold readCont at h
  simp only [bind_ok, pure_ok] at h
  obtain ⟨_, _, c1, h1, c2, h2, l1, h3, l2, h4, n1, h5, n2, h6, c, h7, h⟩ := h
  cases h
  exact ⟨l1, l2, n1, n2, rfl, rfl, rfl, rfl, intField_fits h3 hw, intField_fits h4 hw, intField_fits h5 hw, intField_fits h6 hw,
    ctrl_fits h7⟩

/-! ## values that are the same -/

theorem toNum_same {x : Num} {v : Val} {y : Num} (h : SameVal (.num (.num x)) v) (hp : PlainV v) (hy : v.toNum = .ok y) :
    y = .flt x.val := by
  cases hp with
  | num hp =>
    rename_i z
    cases z with
    | int n => cases hy; exact congrArg Num.flt h.symm
    | num z =>
      cases z with
      | flt q => cases hy; exact congrArg Num.flt h.symm
      | endf q t => cases hp
  | _ => cases hy

theorem toSlot_same {n : Int} {v : Val} {s : Slot} (h : SameVal (.num (.int n)) v) (hy : v.toSlot = .ok s) : slotRat s = n := by
  cases v with
  | num z =>
    cases z with
    | int m => cases hy; exact h.symm
    | num z => cases hy; exact h.symm
  | _ => cases hy

theorem toInt_same {n : Int} {v : Val} {m : Int} (h : SameVal (.num (.int n)) v) (hy : v.toInt = .ok m) : m = n := by
  cases v with
  | num z =>
    cases z with
    | int k =>
      cases hy
      have : (n : ℚ) = (m : ℚ) := h
      exact_mod_cast this.symm
    | num z => cases hy
  | _ => cases hy

theorem toNums_same {l : List Num} {v : Val} {m : List Num} (h : SameVal (numsVal l) v) (hp : PlainV v) (hy : v.toNums = .ok m) :
    m = l.map fun x => .flt x.val := by
  cases v with
  | lst k =>
    have hk : (l.map PyNum.num).map PyNum.val = k.map PyNum.val := h
    have hp' : ∀ x ∈ k, x.plain = true := by cases hp with | lst h => exact h
    have hy' : k.mapM (fun x => (Val.num x).toNum) = .ok m := hy
    clear h hp hy
    induction k generalizing l m with
    | nil =>
      simp only [List.map_nil, List.map_eq_nil_iff] at hk
      subst hk
      simp only [List.mapM_nil, pure_ok] at hy'
      subst hy'
      rfl
    | cons a k ih =>
      cases l with
      | nil => cases hk
      | cons x l =>
        simp only [List.map_cons, List.cons.injEq] at hk
        simp only [List.mapM_cons, bind_ok, pure_ok] at hy'
        obtain ⟨b, h1, m', h2, rfl⟩ := hy'
        rw [List.map_cons, ← ih (l := l) (m := m') hk.2 (fun x hx => hp' x (by simp [hx])) h2]
        exact congrArg (· :: m') (toNum_same (x := x) (v := .num a) hk.1 (.num (hp' a (by simp))) h1)
  | _ => cases hy

theorem toInts_same {l : List Int} {v : Val} {m : List Int} (h : SameVal (intsVal l) v) (hy : v.toInts = .ok m) : m = l := by
  cases v with
  | lst k =>
    have hk : (l.map PyNum.int).map PyNum.val = k.map PyNum.val := h
    have hy' : k.mapM (fun x => (Val.num x).toInt) = .ok m := hy
    clear h hy
    induction k generalizing l m with
    | nil =>
      simp only [List.map_nil, List.map_eq_nil_iff] at hk
      subst hk
      simp only [List.mapM_nil, pure_ok] at hy'
      subst hy'
      rfl
    | cons a k ih =>
      cases l with
      | nil => cases hk
      | cons x l =>
        simp only [List.map_cons, List.cons.injEq] at hk
        simp only [List.mapM_cons, bind_ok, pure_ok] at hy'
        obtain ⟨b, h1, m', h2, rfl⟩ := hy'
        rw [← ih (l := l) (m := m') hk.2 h2]
        exact congrArg (· :: m') (toInt_same (n := x) (v := .num a) hk.1 h1)
  | _ => cases hy

/-! ## writing with integers in place of equal floats -/

theorem slotInt_rat {o : WOpts} {s : Slot} {m n : Int} (h : slotInt o s = .ok m) (hn : slotRat s = n) : m = n := by
  cases s with
  | int k =>
    cases h
    have : (m : ℚ) = (n : ℚ) := hn
    exact_mod_cast this
  | flt v =>
    unfold slotInt at h
    dsimp only at h
    split at h
    · cases h
    · rename_i hne
      cases h
      have h1 : (truncRat v : ℚ) = v := by
        by_contra hc
        exact hne (.inl hc)
      have h2 : v = (n : ℚ) := hn
      rw [h2] at h1 ⊢
      exact_mod_cast h1

/-- what is written for the six fields only depends on the values of the integer fields -/
theorem writeCont_int {o : WOpts} {h : ContRec} {l1 l2 n1 n2 : Int} (e1 : slotRat h.l1 = l1) (e2 : slotRat h.l2 = l2)
    (e3 : slotRat h.n1 = n1) (e4 : slotRat h.n2 = n2) {ls : List Str} (hw : writeCont o h = .ok ls) :
    writeCont o ⟨h.c1, h.c2, .int l1, .int l2, .int n1, .int n2, h.ctrl⟩ = .ok ls := by
  unfold writeCont at hw ⊢
  simp only [bind_ok, pure_ok] at hw ⊢
  obtain ⟨a1, g1, a2, g2, a3, g3, a4, g4, b1, g5, b2, g6, rfl⟩ := hw
  obtain rfl := slotInt_rat g1 e1
  obtain rfl := slotInt_rat g2 e2
  obtain rfl := slotInt_rat g3 e3
  obtain rfl := slotInt_rat g4 e4
  exact ⟨a1, rfl, a2, rfl, a3, rfl, a4, rfl, b1, g5, b2, g6, rfl⟩

theorem contOf_same {r : ContRec} {l1 l2 n1 n2 : Int} {vs : List Val} {k : Ctrl} {h : ContRec}
    (hs : List.Forall₂ SameVal [.num (.num r.c1), .num (.num r.c2), .num (.int l1), .num (.int l2), .num (.int n1), .num (.int n2)] vs)
    (hp : ∀ v ∈ vs, PlainV v) (hc : contOf vs k = .ok h) :
    h.c1 = .flt r.c1.val ∧ h.c2 = .flt r.c2.val ∧ slotRat h.l1 = l1 ∧ slotRat h.l2 = l2 ∧ slotRat h.n1 = n1 ∧ slotRat h.n2 = n2 ∧
      h.ctrl = k := by
  cases hs with
  | cons a1 hs => cases hs with
  | cons a2 hs => cases hs with
  | cons a3 hs => cases hs with
  | cons a4 hs => cases hs with
  | cons a5 hs => cases hs with
  | cons a6 hs =>
    cases hs
    simp only [contOf, bind_ok, pure_ok] at hc
    obtain ⟨b1, g1, b2, g2, b3, g3, b4, g4, b5, g5, b6, g6, rfl⟩ := hc
    exact ⟨toNum_same a1 (hp _ (by simp)) g1, toNum_same a2 (hp _ (by simp)) g2, toSlot_same a3 g3, toSlot_same a4 g4,
      toSlot_same a5 g5, toSlot_same a6 g6, rfl⟩

theorem evens_length {α : Type} : ∀ (l : List α), (evens l).length = (l.length + 1) / 2
  | [] => by simp [evens]
  | [_] => by simp [evens]
  | _ :: _ :: l => by
    have := evens_length l
    simp only [evens, List.length_cons]
    omega

theorem odds_length {α : Type} : ∀ (l : List α), (odds l).length = l.length / 2
  | [] => by simp [odds]
  | [_] => by simp [odds]
  | _ :: _ :: l => by
    have := odds_length l
    simp only [odds, List.length_cons]
    omega

/-! ## the lines are not blank -/

theorem strip_ne_of_mem {s : Str} {c : Char} (hc : c ∈ s) (h : isWs c = false) : strip s ≠ [] := by
  intro e
  rw [strip_eq_nil_iff] at e
  rw [e c hc] at h
  cases h

theorem writeCtrl_mem (c : Ctrl) : ∃ x ∈ writeCtrl c, isWs x = false := by
  unfold writeCtrl
  cases h : intStr c.mt with
  | nil => exact absurd h (intStr_ne_nil _)
  | cons x l =>
    refine ⟨x, ?_, ?_⟩
    · simp [rjust]
    · exact intStr_noWs c.mt x (by rw [h]; simp)

/-- the first line is there and has control numbers -/
def Marked (ls : List Str) : Prop := ∃ a c b t, ls = (a ++ writeCtrl c ++ b) :: t

theorem writeCont_marked {o : WOpts} {h : ContRec} {ls : List Str} (hw : writeCont o h = .ok ls) (t : List Str) : Marked (ls ++ t) := by
  unfold writeCont at hw
  simp only [bind_ok, pure_ok] at hw
  obtain ⟨a1, g1, a2, g2, a3, g3, a4, g4, b1, g5, b2, g6, rfl⟩ := hw
  exact ⟨_, _, [], t, by rw [List.append_nil]; rfl⟩

theorem skip_marked {ls : List Str} (h : Marked ls) {L : List Str} {m : Nat} (hs : StandsAt L m ls) : skipBlankLines L m = .ok m := by
  obtain ⟨a, c, b, t, rfl⟩ := h
  obtain ⟨l, hl, u, hu⟩ := hs 0 _ rfl
  rw [Nat.add_zero] at hl
  obtain ⟨hlt, he⟩ := List.getElem?_eq_some_iff.1 hl
  obtain ⟨x, hx, hws⟩ := writeCtrl_mem c
  rw [skipBlankLines, dif_pos hlt, if_neg]
  unfold isBlankLine
  rw [he, decide_eq_true_eq, ← hu]
  exact strip_ne_of_mem (c := x) (by simp [hx]) hws

/-! ## records -/

/-- the number is written into a field of its own from which it is read again -/
def StaysNum (o : WOpts) (ro : ROpts) : PyNum → Prop
  | .int n => FitsInt o.width n
  | .num x => Field o ro (.flt x.val) x

/-- a value of a record that is not changed by writing it: no digits are lost, a line of text is a full line -/
def StaysVal (o : WOpts) (ro : ROpts) : Val → Prop
  | .num (.num x) => Field o ro (.flt x.val) x
  | .lst l => ∀ x ∈ l, StaysNum o ro x
  | .txt t => t.length = 6 * o.width
  | _ => True

/-- such a record; three digit INTG records are excluded (C15) -/
structure Stays (o : WOpts) (ro : ROpts) (q : ARec) : Prop where
  intg : q.kind ≠ .intg 3
  flds : ∀ v ∈ q.flds, StaysVal o ro v
  tbl : ∀ v ∈ q.tbl, StaysVal o ro v

theorem stays_nums {o : WOpts} {ro : ROpts} {l : List Num} (h : StaysVal o ro (numsVal l)) :
    List.Forall₂ (Field o ro) (l.map fun x => .flt x.val) l := by
  have h' : ∀ x ∈ l, Field o ro (.flt x.val) x := fun x hx => h (.num x) (List.mem_map.2 ⟨x, hx, rfl⟩)
  clear h
  induction l with
  | nil => exact .nil
  | cons a l ih => exact .cons (h' a (by simp)) (ih fun x hx => h' x (by simp [hx]))

theorem stays_ints {o : WOpts} {ro : ROpts} {l : List Int} (h : StaysVal o ro (intsVal l)) : ∀ n ∈ l, FitsInt o.width n :=
  fun n hn => h (.int n) (List.mem_map.2 ⟨n, hn, rfl⟩)

/-- Theorem about one record: read, written (possibly with equal numbers of another type) and read again -/
theorem readKind_written {o : WOpts} {ro : ROpts} {zab : Bool} (hw : 11 ≤ o.width) (hr : ro.width = o.width) {lines : List Str}
    {ofs ofs' : Nat} {k : RKind} {q q' : ARec} (hq : readKind ro lines ofs k = .ok (q, ofs')) (hk : Stays o ro q)
    (hs : SameRec q q') (hp : PlainRec q') {ls : List Str} (h : renderRec o zab q' = .ok ls) :
    (Marked ls ∧ (k ≠ .send → ∀ l ∈ ls, l.length = 6 * o.width + 9)) ∧ ∀ L m, StandsAt L m ls → readKind ro L m k = .ok (q, if k = .send then m else m + ls.length) := by
  have hw1 : 1 ≤ ro.width := by omega
  obtain ⟨s1, s2, s3, s4⟩ := hs
  obtain ⟨k', fl', tb', ct'⟩ := q'
  dsimp only at s1 s2 s3 s4
  have hpf : ∀ v ∈ fl', PlainV v := hp.flds
  have hpt : ∀ v ∈ tb', PlainV v := hp.tbl
  clear hp
  subst s2
  cases k with
  | text =>
    simp only [readKind, bind_ok, pure_ok] at hq
    obtain ⟨⟨r, o1⟩, h1, hq⟩ := hq
    cases hq
    dsimp only at s1 s3 s4 h ⊢
    subst s1
    cases s3 with
    | cons a b =>
      cases b
      rename_i v
      cases v <;> try (cases a; done)
      have a' : r.hl = _ := a
      subst a'
      simp only [renderRec, Except.ok.injEq] at h
      have hl : r.hl.length = 6 * o.width := hk.flds (.txt r.hl) (by simp)
      have hc : FitsCtrl r.ctrl.mat r.ctrl.mf r.ctrl.mt := by
        unfold readText at h1
        simp only [bind_ok, pure_ok] at h1
        obtain ⟨l, _, c, h2, h1⟩ := h1
        cases h1
        exact ctrl_fits h2
      obtain ⟨line, g1, g2, g3⟩ := C13_text_roundtrip o ro hr r.hl hl.le r.ctrl hc
      subst h
      refine ⟨⟨⟨ljust r.hl (o.width * 6), r.ctrl, [], [], by simp [writeText]⟩, fun _ l hl' => by
        rw [g1, List.mem_singleton] at hl'
        rw [hl', g2]⟩, fun L m hst => ?_⟩
      rw [g1] at hst ⊢
      have := g3 L m hst
      have e : ljust r.hl (6 * o.width) = r.hl := by unfold ljust; rw [hl]; simp
      rw [e] at this
      simp [readKind, this, bind, Except.bind, pure, Except.pure]
  | head =>
    simp only [readKind, bind_ok, pure_ok] at hq
    obtain ⟨⟨r, o1⟩, h1, hq⟩ := hq
    cases hq
    dsimp only at s1 s3 s4 h ⊢
    subst s1
    obtain ⟨l1, l2, n1, n2, cr⟩ := readCont_fits hw1 h1
    obtain ⟨c1, c2, _, _, _, _, ct⟩ := r
    obtain ⟨rfl, rfl, rfl, rfl, f1, f2, f3, f4, fc⟩ := cr
    simp only [renderRec, bind_ok] at h
    obtain ⟨hd, h2, h3⟩ := h
    obtain ⟨e1, e2, e3, e4, e5, e6, e7⟩ := contOf_same s3 hpf h2
    have h4 := writeCont_int e3 e4 e5 e6 h3
    rw [e1, e2, e7] at h4
    rw [hr] at f1 f2 f3 f4
    obtain ⟨line, g1, g2, g3⟩ := C12_cont_fields o ro hr _ _ c1 c2 (hk.flds (.num (.num c1)) (by simp [ContRec.vals]))
      (hk.flds (.num (.num c2)) (by simp [ContRec.vals])) l1 l2 n1 n2 f1 f2 f3 f4 ct fc
    dsimp only at h4
    rw [g1] at h4
    cases h4
    refine ⟨⟨by simpa using writeCont_marked h3 [], fun _ l hl' => by rw [List.mem_singleton.1 hl', g2]⟩, fun L m hst => ?_⟩
    have := g3 L m hst
    simp [readKind, this, bind, Except.bind, pure, Except.pure]
  | cont =>
    simp only [readKind, bind_ok, pure_ok] at hq
    obtain ⟨⟨r, o1⟩, h1, hq⟩ := hq
    cases hq
    dsimp only at s1 s3 s4 h ⊢
    subst s1
    obtain ⟨l1, l2, n1, n2, cr⟩ := readCont_fits hw1 h1
    obtain ⟨c1, c2, _, _, _, _, ct⟩ := r
    obtain ⟨rfl, rfl, rfl, rfl, f1, f2, f3, f4, fc⟩ := cr
    simp only [renderRec, bind_ok] at h
    obtain ⟨hd, h2, h3⟩ := h
    obtain ⟨e1, e2, e3, e4, e5, e6, e7⟩ := contOf_same s3 hpf h2
    have h4 := writeCont_int e3 e4 e5 e6 h3
    rw [e1, e2, e7] at h4
    rw [hr] at f1 f2 f3 f4
    obtain ⟨line, g1, g2, g3⟩ := C12_cont_fields o ro hr _ _ c1 c2 (hk.flds (.num (.num c1)) (by simp [ContRec.vals]))
      (hk.flds (.num (.num c2)) (by simp [ContRec.vals])) l1 l2 n1 n2 f1 f2 f3 f4 ct fc
    dsimp only at h4
    rw [g1] at h4
    cases h4
    refine ⟨⟨by simpa using writeCont_marked h3 [], fun _ l hl' => by rw [List.mem_singleton.1 hl', g2]⟩, fun L m hst => ?_⟩
    have := g3 L m hst
    simp [readKind, this, bind, Except.bind, pure, Except.pure]
  | dir =>
    simp only [readKind, bind_ok, pure_ok] at hq
    obtain ⟨⟨r, o1⟩, h1, hq⟩ := hq
    cases hq
    dsimp only at s1 s3 s4 h ⊢
    subst s1
    cases s3 with
    | cons a1 s3 => cases s3 with
    | cons a2 s3 => cases s3 with
    | cons a3 s3 => cases s3 with
    | cons a4 s3 =>
      cases s3
      simp only [renderRec, bind_ok, pure_ok] at h
      obtain ⟨b1, d1, b2, d2, b3, d3, b4, d4, rfl⟩ := h
      obtain rfl := toInt_same a1 d1
      obtain rfl := toInt_same a2 d2
      obtain rfl := toInt_same a3 d3
      obtain rfl := toInt_same a4 d4
      unfold readDir at h1
      simp only [bind_ok, pure_ok] at h1
      obtain ⟨line, hl, x1, y1, x2, y2, x3, y3, x4, y4, c, y5, h1⟩ := h1
      cases h1
      rw [hr] at y1 y2 y3 y4
      have hw1 : 1 ≤ o.width := by omega
      obtain ⟨line', g1, g2, _, g3⟩ := C14_dir_roundtrip o ro hr x1 x2 x3 x4 (intField_fits y1 hw1) (intField_fits y2 hw1)
        (intField_fits y3 hw1) (intField_fits y4 hw1) c (ctrl_fits y5)
      refine ⟨⟨⟨_, c, [], [], by rw [List.append_nil]; rfl⟩, fun _ l hl' => by
        dsimp only at hl'
        rw [g1, List.mem_singleton] at hl'
        rw [hl', g2]⟩, fun L m hst => ?_⟩
      dsimp only at hst ⊢
      rw [g1] at hst ⊢
      have := g3 L m hst
      simp [readKind, this, bind, Except.bind, pure, Except.pure]
  | intg n =>
    simp only [readKind, bind_ok, pure_ok] at hq
    obtain ⟨⟨r, o1⟩, h1, hq⟩ := hq
    cases hq
    dsimp only at s1 s3 s4 h ⊢
    subst s1
    cases s3 with
    | cons a1 s3 => cases s3 with
    | cons a2 s3 => cases s3 with
    | cons a3 s3 =>
      cases s3
      simp only [renderRec, bind_ok, pure_ok] at h
      obtain ⟨b1, d1, b2, d2, b3, d3, rfl⟩ := h
      obtain rfl := toInt_same a1 d1
      obtain rfl := toInt_same a2 d2
      obtain rfl := toInts_same a3 d3
      have h1' := h1
      unfold readIntg at h1
      split at h1
      · cases h1
      · rename_i hn
        simp only [bind_ok, pure_ok] at h1
        obtain ⟨line, hl, x1, y1, x2, y2, x3, y3, c, y5, h1⟩ := h1
        cases h1
        have hne : n ≠ 3 := fun e => hk.intg (by rw [e])
        obtain ⟨nd, rfl⟩ : ∃ nd : Nat, n = nd := ⟨n.toNat, by omega⟩
        rw [Int.toNat_natCast] at y3
        have hnd : nd = 2 ∨ nd = 4 ∨ nd = 5 ∨ nd = 6 := by omega
        have hlen : x3.length = intgSlots nd := by
          rw [mapM_length y3, intgCols_eq nd hnd]; simp
        have hfit : ∀ v ∈ x3, FitsInt (nd + 1) v :=
          mapM_all (P := fun v => FitsInt (nd + 1) v)
            (fun i v h => readFortInt_fits h ((slice_length_le _ _ _).trans (by omega)) (by omega)) y3
        obtain ⟨line', g1, g2, g3⟩ := C15_partial o hw ro hr nd hnd x1 x2
          (readFortInt_fits y1 (slice_length_le _ _ _) (by omega)) (readFortInt_fits y2 (slice_length_le _ _ _) (by omega))
          x3 hlen hfit c (ctrl_fits y5)
        refine ⟨⟨⟨_, c, [], [], by rw [List.append_nil]; rfl⟩, fun _ l hl' => by
        dsimp only at hl'
        rw [g1, List.mem_singleton] at hl'
        rw [hl', g2]⟩, fun L m hst => ?_⟩
        dsimp only at hst ⊢
        rw [g1] at hst ⊢
        have := g3 L m hst
        simp [readKind, this, bind, Except.bind, pure, Except.pure]
  | tab1 =>
    simp only [readKind, bind_ok, pure_ok] at hq
    obtain ⟨⟨r, o1⟩, h1, hq⟩ := hq
    cases hq
    dsimp only at s1 s3 s4 h ⊢
    subst s1
    unfold readTab1 at h1
    simp only [bind_ok, pure_ok] at h1
    obtain ⟨⟨hd, _⟩, g1, ⟨v1, _⟩, g2, ⟨v2, _⟩, g3, h1⟩ := h1
    cases h1
    obtain ⟨l1, l2, n1, n2, cr⟩ := readCont_fits hw1 g1
    obtain ⟨c1, c2, _, _, _, _, ct⟩ := hd
    obtain ⟨rfl, rfl, rfl, rfl, f1, f2, f3, f4, fc⟩ := cr
    obtain ⟨len1, -, -⟩ := CF.readNumbers_get g2
    obtain ⟨len2, -, -⟩ := CF.readNumbers_get g3
    dsimp only [slotVal] at len1 len2
    have hi1 : (toInts v1).length = v1.length := by simp [toInts]
    have ea := evens_length (toInts v1)
    have eb := odds_length (toInts v1)
    have ec := evens_length v2
    have ed := odds_length v2
    dsimp only [ContRec.vals, List.take] at s3
    cases s4 with
    | cons t1 s4 => cases s4 with
    | cons t2 s4 => cases s4 with
    | cons t3 s4 => cases s4 with
    | cons t4 s4 =>
      cases s4
      rename_i w1 w2 w3 w4
      simp only [renderRec, bind_ok] at h
      obtain ⟨h', h2, nbt, h3, int, h4, xs, h5, ys, h6, h7⟩ := h
      obtain rfl := toInts_same t1 h3
      obtain rfl := toInts_same t2 h4
      have e5 := toNums_same t3 (hpt _ (by simp)) h5
      have e6 := toNums_same t4 (hpt _ (by simp)) h6
      have hfull : List.Forall₂ SameVal [.num (.num c1), .num (.num c2), .num (.int l1), .num (.int l2), .num (.int 0), .num (.int 0)]
          (fl' ++ [.num (.int 0), .num (.int 0)]) := by
        refine List.rel_append (R := SameVal) s3 ?_
        exact .cons rfl (.cons rfl .nil)
      obtain ⟨e1, e2, e3, e4, -, -, e7⟩ := contOf_same (r := ⟨c1, c2, .int 0, .int 0, .int 0, .int 0, ct⟩) hfull (by
        intro v hv
        rcases List.mem_append.1 hv with hv | hv
        · exact hpf v hv
        · simp only [List.mem_cons, List.not_mem_nil, or_false, or_self] at hv
          subst hv
          exact .num rfl) h2
      have hn1 : FitsInt o.width (evens (toInts v1)).length := by
        have : ((evens (toInts v1)).length : Int) = n1 ∨ (evens (toInts v1)).length = 0 := by omega
        rcases this with h | h
        · rw [h, ← hr]; exact f3
        · rw [h]; show 1 ≤ o.width; omega
      have hn2 : FitsInt o.width xs.length := by
        have : xs.length = (evens v2).length := by rw [e5]; simp
        rw [this]
        have : ((evens v2).length : Int) = n2 ∨ (evens v2).length = 0 := by omega
        rcases this with h | h
        · rw [h, ← hr]; exact f4
        · rw [h]; show 1 ≤ o.width; omega
      -- the tables are not empty, as writing would have failed
      have hne : evens (toInts v1) ≠ [] ∧ xs ≠ [] := by
        unfold writeTab1 at h7
        simp only [bind_ok] at h7
        obtain ⟨_, _, h7⟩ := h7
        split at h7
        · cases h7
        · rename_i hl
          simp only [bind_ok] at h7
          obtain ⟨_, i1, _, i2, _⟩ := h7
          constructor
          · intro e
            rw [e] at i1
            simp [interleave, writeInts, chunks6_nil, padLast] at i1
          · intro e
            rw [e] at i2
            simp [interleave, writeNumbers, chunks6_nil, padLast, bind, Except.bind, pure, Except.pure] at i2
      have h8 : writeTab1 o ⟨⟨.flt c1.val, .flt c2.val, .int l1, .int l2, .int 0, .int 0, ct⟩, evens (toInts v1), odds (toInts v1), xs, ys⟩
          = .ok ls := by
        unfold writeTab1 at h7 ⊢
        simp only [bind_ok] at h7 ⊢
        obtain ⟨x, h8, h9⟩ := h7
        have := writeCont_int (h := { h' with n1 := .int (evens (toInts v1)).length, n2 := .int xs.length })
          (n1 := (evens (toInts v1)).length) (n2 := xs.length) e3 e4 (by simp [slotRat]) (by simp [slotRat]) h8
        dsimp only at this e7
        rw [e1, e2, e7] at this
        rw [e7] at h9
        exact ⟨x, this, h9⟩
      rw [hr] at f1 f2
      obtain ⟨recs, i1, i2, i3, i4⟩ := C17_partial o ro hr _ _ c1 c2 (hk.flds (.num (.num c1)) (by simp [ContRec.vals]))
        (hk.flds (.num (.num c2)) (by simp [ContRec.vals])) l1 l2 (.int 0) (.int 0) f1 f2 ct fc (evens (toInts v1)) (odds (toInts v1)) hne.1
        (by omega) hn1 (stays_ints (hk.tbl _ (by simp))) (stays_ints (hk.tbl _ (by simp))) xs ys (evens v2) (odds v2) hne.2
        (by rw [e5, e6]; simp only [List.length_map]; omega) hn2 (by rw [e5]; exact stays_nums (hk.tbl _ (by simp)))
        (by rw [e6]; exact stays_nums (hk.tbl _ (by simp)))
      rw [i1] at h8
      cases h8
      refine ⟨⟨?_, fun _ => i3⟩, ?_⟩
      · unfold writeTab1 at h7
        simp only [bind_ok] at h7
        obtain ⟨x, h8, h9⟩ := h7
        split at h9
        · cases h9
        · simp only [bind_ok, pure_ok] at h9
          obtain ⟨_, _, _, _, rfl⟩ := h9
          exact writeCont_marked h8 _
      · intro L m hst
        have := i4 L m hst
        simp [readKind, this, bind, Except.bind, pure, Except.pure, ContRec.vals]
  | tab2 =>
    simp only [readKind, bind_ok, pure_ok] at hq
    obtain ⟨⟨r, o1⟩, h1, hq⟩ := hq
    cases hq
    dsimp only at s1 s3 s4 h ⊢
    subst s1
    unfold readTab2 at h1
    simp only [bind_ok, pure_ok] at h1
    obtain ⟨⟨hd, _⟩, g1, ⟨v1, _⟩, g2, h1⟩ := h1
    cases h1
    obtain ⟨l1, l2, n1, n2, cr⟩ := readCont_fits hw1 g1
    obtain ⟨c1, c2, _, _, _, _, ct⟩ := hd
    obtain ⟨rfl, rfl, rfl, rfl, f1, f2, f3, f4, fc⟩ := cr
    obtain ⟨len1, -, -⟩ := CF.readNumbers_get g2
    dsimp only [slotVal] at len1
    have hi1 : (toInts v1).length = v1.length := by simp [toInts]
    have ea := evens_length (toInts v1)
    have eb := odds_length (toInts v1)
    dsimp only [ContRec.vals, List.take, List.drop, List.cons_append, List.nil_append] at s3
    cases s4 with
    | cons t1 s4 => cases s4 with
    | cons t2 s4 =>
      cases s4
      simp only [renderRec, bind_ok] at h
      obtain ⟨h', h2, nbt, h3, int, h4, h7⟩ := h
      obtain rfl := toInts_same t1 h3
      obtain rfl := toInts_same t2 h4
      have hfull : List.Forall₂ SameVal [.num (.num c1), .num (.num c2), .num (.int l1), .num (.int l2), .num (.int 0), .num (.int n2)]
          (fl'.take 4 ++ [.num (.int 0)] ++ fl'.drop 4) := by
        cases s3 with
        | cons a1 s3 => cases s3 with
        | cons a2 s3 => cases s3 with
        | cons a3 s3 => cases s3 with
        | cons a4 s3 => cases s3 with
        | cons a5 s3 =>
          cases s3
          exact .cons a1 (.cons a2 (.cons a3 (.cons a4 (.cons rfl (.cons a5 .nil)))))
      obtain ⟨e1, e2, e3, e4, -, e6, e7⟩ := contOf_same (r := ⟨c1, c2, .int 0, .int 0, .int 0, .int 0, ct⟩) hfull (by
        intro v hv
        rcases List.mem_append.1 hv with hv | hv
        · rcases List.mem_append.1 hv with hv | hv
          · exact hpf v (List.mem_of_mem_take hv)
          · rw [List.mem_singleton] at hv
            subst hv
            exact .num rfl
        · exact hpf v (List.mem_of_mem_drop hv)) h2
      have hn1 : FitsInt o.width (evens (toInts v1)).length := by
        have : ((evens (toInts v1)).length : Int) = n1 ∨ (evens (toInts v1)).length = 0 := by omega
        rcases this with h | h
        · rw [h, ← hr]; exact f3
        · rw [h]; show 1 ≤ o.width; omega
      have h7' := h7
      unfold writeTab2 at h7
      split at h7
      · cases h7
      · rename_i hl
        simp only [bind_ok, pure_ok] at h7
        obtain ⟨x, i1, t, i2, rfl⟩ := h7
        have hne : evens (toInts v1) ≠ [] := by
          intro e
          rw [e] at i2
          simp [interleave, writeInts, chunks6_nil, padLast] at i2
        have h8 : writeTab2 o ⟨⟨.flt c1.val, .flt c2.val, .int l1, .int l2, .int 0, .int n2, ct⟩, evens (toInts v1), odds (toInts v1)⟩
            = .ok (x ++ t.map (· ++ writeCtrl h'.ctrl)) := by
          unfold writeTab2
          rw [if_neg hl]
          simp only [bind_ok, pure_ok]
          have := writeCont_int (h := { h' with n1 := .int (evens (toInts v1)).length })
            (n1 := (evens (toInts v1)).length) (n2 := n2) e3 e4 (by simp [slotRat]) e6 i1
          dsimp only at this e7
          rw [e1, e2, e7] at this
          exact ⟨x, this, t, i2, by rw [e7]⟩
        rw [hr] at f1 f2 f4
        obtain ⟨recs, j1, j2, j3, j4⟩ := C18_partial o ro hr _ _ c1 c2 (hk.flds (.num (.num c1)) (by simp [ContRec.vals]))
          (hk.flds (.num (.num c2)) (by simp [ContRec.vals])) l1 l2 n2 (.int 0) f1 f2 f4 ct fc (evens (toInts v1)) (odds (toInts v1)) hne
          (by omega) hn1 (stays_ints (hk.tbl _ (by simp))) (stays_ints (hk.tbl _ (by simp)))
        rw [j1] at h8
        cases h8
        refine ⟨⟨writeCont_marked i1 _, fun _ => j3⟩, fun L m hst => ?_⟩
        have := j4 L m hst
        simp [readKind, this, bind, Except.bind, pure, Except.pure, ContRec.vals]
  | list =>
    simp only [readKind, bind_ok, pure_ok] at hq
    obtain ⟨⟨r, o1⟩, h1, hq⟩ := hq
    cases hq
    dsimp only at s1 s3 s4 h ⊢
    subst s1
    -- what the record reader has returned
    obtain ⟨hd, vals⟩ := r
    have hin : ∃ o2, readCont ro lines ofs = .ok (hd, o2) ∧ vals.length = (slotVal hd.n1).toNat := by
      unfold readList at h1
      simp only [bind_ok] at h1
      obtain ⟨⟨hd', o2⟩, g1, h1⟩ := h1
      split at h1
      · rename_i h0
        cases h1
        exact ⟨_, g1, by simp [h0]⟩
      · simp only [bind_ok, pure_ok] at h1
        obtain ⟨⟨v, _⟩, g2, h1⟩ := h1
        cases h1
        exact ⟨_, g1, (CF.readNumbers_get g2).1⟩
    obtain ⟨o2, g1, len1⟩ := hin
    obtain ⟨l1, l2, n1, n2, cr⟩ := readCont_fits hw1 g1
    obtain ⟨c1, c2, _, _, _, _, ct⟩ := hd
    obtain ⟨rfl, rfl, rfl, rfl, f1, f2, f3, f4, fc⟩ := cr
    dsimp only [slotVal] at len1
    dsimp only [ContRec.vals] at s3
    cases s4 with
    | cons t1 s4 =>
      cases s4
      simp only [renderRec, bind_ok] at h
      obtain ⟨h', h2, vs, h3, h7⟩ := h
      have e5 := toNums_same (l := vals) t1 (hpt _ (by simp)) h3
      obtain ⟨e1, e2, e3, e4, en, e6, e7⟩ := contOf_same (r := ⟨c1, c2, .int 0, .int 0, .int 0, .int 0, ct⟩) s3 hpf h2
      have hvl : vs.length = vals.length := by rw [e5]; simp
      unfold writeList at h7
      dsimp only at h7
      split at h7
      · cases h7
      · split at h7
        · cases h7
        · rename_i hlt1 hlt2
          simp only [bind_ok, pure_ok] at h7
          obtain ⟨x, i1, b, i2, rfl⟩ := h7
          have hcount : n1 = vs.length := by
            rw [en] at hlt1 hlt2
            have : (n1 : ℚ) = (vs.length : ℚ) := le_antisymm (not_lt.1 hlt2) (not_lt.1 hlt1)
            exact_mod_cast this
          have i3 : listBody o (.int vs.length) vs = .ok b := by
            unfold listBody at i2 ⊢
            dsimp only at i2 ⊢
            split
            · rename_i h0; rw [if_pos h0] at i2; exact i2
            · rename_i h0
              rw [if_neg h0] at i2
              split
              · rename_i h6
                rw [if_pos h6] at i2
                split at i2
                · exact i2
                · cases i2
              · rename_i h6
                rw [if_neg h6] at i2
                exact i2
          have h8 : writeList o ⟨⟨.flt c1.val, .flt c2.val, .int l1, .int l2, .int vs.length, .int n2, ct⟩, vs⟩
              = .ok (x ++ b.map (· ++ writeCtrl h'.ctrl)) := by
            unfold writeList
            simp only [slotRat, Int.cast_natCast, lt_irrefl, if_false, bind_ok, pure_ok]
            have := writeCont_int e3 e4 en e6 i1
            rw [e1, e2, e7] at this
            dsimp only at this e7
            rw [hcount] at this
            exact ⟨x, this, b, i3, by rw [e7]⟩
          rw [hr] at f1 f2 f3 f4
          rw [hcount] at f3
          obtain ⟨recs, j1, j2, j3, j4⟩ := C16_list_fields o (by omega) ro hr _ _ c1 c2 (hk.flds (.num (.num c1)) (by simp [ContRec.vals]))
            (hk.flds (.num (.num c2)) (by simp [ContRec.vals])) l1 l2 n2 f1 f2 f4 ct fc vs vals f3
            (by rw [e5]; exact stays_nums (hk.tbl _ (by simp [numsVal])))
          rw [j1] at h8
          cases h8
          refine ⟨⟨writeCont_marked i1 _, fun _ => j3⟩, fun L m hst => ?_⟩
          have := j4 L m hst
          simp [readKind, this, bind, Except.bind, pure, Except.pure, hcount]
  | send =>
    simp only [readKind, bind_ok, pure_ok] at hq
    obtain ⟨⟨r, o1⟩, h1, hq⟩ := hq
    cases hq
    dsimp only at s1 s3 s4 h ⊢
    subst s1
    cases s3
    cases s4
    unfold readSend at h1
    simp only [bind_ok] at h1
    obtain ⟨⟨r', o2⟩, g1, h1⟩ := h1
    split at h1
    · cases h1
    · rename_i hz
      cases h1
      obtain ⟨l1, l2, n1, n2, cr⟩ := readCont_fits hw1 g1
      have hmt : r'.ctrl.mt = 0 := by
        by_contra hne
        exact hz (by simp [hne])
      have fc := cr.fc
      simp only [renderRec] at h
      obtain ⟨line, i1, i2, i3⟩ := C12_end_records o (by omega) zab ro hr r'.ctrl.mat r'.ctrl.mf r'.ctrl.mt fc _ _
        (List.mem_cons_self ..)
      rw [i1] at h
      cases h
      refine ⟨⟨?_, fun hne => absurd rfl hne⟩, ?_⟩
      · unfold writeSend at i1
        simp only [bind_ok, pure_ok] at i1
        obtain ⟨z, _, i1⟩ := i1
        exact ⟨z, _, _, [], i1.symm⟩
      · intro L m hst
        obtain ⟨y1, y2, _, _, hy⟩ := i3 L m hst
        have : (⟨r'.ctrl.mat, r'.ctrl.mf, 0⟩ : Ctrl) = r'.ctrl := by rw [← hmt]
        simp [readKind, hy, this, bind, Except.bind, pure, Except.pure]

/-- all lines of a record other than SEND end with its control numbers -/
theorem renderRec_ends {o : WOpts} {zab : Bool} {r : ARec} {ls : List Str} (hk : r.kind ≠ .send) (h : renderRec o zab r = .ok ls) :
    ls ≠ [] ∧ ∀ l ∈ ls, ∃ a, l = a ++ writeCtrl r.ctrl := by
  have hcont : ∀ {vs c hd ls'}, contOf vs c = .ok hd → writeCont o hd = .ok ls' → ∃ a, ls' = [a ++ writeCtrl c] := by
    intro vs c hd ls' h1 h2
    have hc : hd.ctrl = c := by
      unfold contOf at h1
      split at h1
      · simp only [bind_ok, pure_ok] at h1
        obtain ⟨_, _, _, _, _, _, _, _, _, _, _, _, rfl⟩ := h1
        rfl
      · cases h1
    unfold writeCont at h2
    simp only [bind_ok, pure_ok] at h2
    obtain ⟨_, _, _, _, _, _, _, _, _, _, _, _, rfl⟩ := h2
    exact ⟨_, by rw [hc]⟩
  have htab : ∀ {a : Str} {b : List Str}, ∀ l ∈ [a ++ writeCtrl r.ctrl] ++ b.map (· ++ writeCtrl r.ctrl), ∃ a, l = a ++ writeCtrl r.ctrl := by
    intro a b l hl
    rcases List.mem_append.1 hl with hl | hl
    · exact ⟨a, List.mem_singleton.1 hl⟩
    · obtain ⟨y, _, rfl⟩ := List.mem_map.1 hl
      exact ⟨y, rfl⟩
  obtain ⟨k, fl, tb, c⟩ := r
  unfold renderRec at h
  dsimp only at h hk htab ⊢
  split at h
  · cases h
    exact ⟨by simp [writeText], fun l hl => ⟨_, List.mem_singleton.1 hl⟩⟩
  · simp only [bind_ok] at h
    obtain ⟨hd, h1, h2⟩ := h
    obtain ⟨a, rfl⟩ := hcont h1 h2
    exact ⟨by simp, fun l hl => ⟨_, List.mem_singleton.1 hl⟩⟩
  · simp only [bind_ok] at h
    obtain ⟨hd, h1, h2⟩ := h
    obtain ⟨a, rfl⟩ := hcont h1 h2
    exact ⟨by simp, fun l hl => ⟨_, List.mem_singleton.1 hl⟩⟩
  · simp only [bind_ok, pure_ok] at h
    obtain ⟨_, _, _, _, _, _, _, _, rfl⟩ := h
    exact ⟨by simp [writeDir], fun l hl => ⟨_, List.mem_singleton.1 hl⟩⟩
  · simp only [bind_ok, pure_ok] at h
    obtain ⟨_, _, _, _, _, _, rfl⟩ := h
    exact ⟨by simp [writeIntg], fun l hl => ⟨_, List.mem_singleton.1 hl⟩⟩
  · simp only [bind_ok] at h
    obtain ⟨hd, h1, _, _, _, _, _, _, _, _, h2⟩ := h
    have hc : hd.ctrl = c := by
      unfold contOf at h1
      split at h1
      · simp only [bind_ok, pure_ok] at h1
        obtain ⟨_, _, _, _, _, _, _, _, _, _, _, _, rfl⟩ := h1
        rfl
      · cases h1
    unfold writeTab1 at h2
    simp only [bind_ok] at h2
    obtain ⟨x, h3, h2⟩ := h2
    split at h2
    · cases h2
    · simp only [bind_ok, pure_ok] at h2
      obtain ⟨t1, _, t2, _, rfl⟩ := h2
      unfold writeCont at h3
      simp only [bind_ok, pure_ok] at h3
      obtain ⟨_, _, _, _, _, _, _, _, _, _, _, _, rfl⟩ := h3
      rw [hc]
      exact ⟨by simp, htab⟩
  · simp only [bind_ok] at h
    obtain ⟨hd, h1, _, _, _, _, h2⟩ := h
    have hc : hd.ctrl = c := by
      unfold contOf at h1
      split at h1
      · simp only [bind_ok, pure_ok] at h1
        obtain ⟨_, _, _, _, _, _, _, _, _, _, _, _, rfl⟩ := h1
        rfl
      · cases h1
    unfold writeTab2 at h2
    split at h2
    · cases h2
    · simp only [bind_ok, pure_ok] at h2
      obtain ⟨x, h3, t1, _, rfl⟩ := h2
      unfold writeCont at h3
      simp only [bind_ok, pure_ok] at h3
      obtain ⟨_, _, _, _, _, _, _, _, _, _, _, _, rfl⟩ := h3
      rw [hc]
      exact ⟨by simp, htab⟩
  · simp only [bind_ok] at h
    obtain ⟨hd, h1, _, _, h2⟩ := h
    unfold writeList at h2
    dsimp only at h2
    split at h2
    · cases h2
    split at h2
    · cases h2
    · simp only [bind_ok, pure_ok] at h2
      obtain ⟨x, h3, t1, _, rfl⟩ := h2
      obtain ⟨a, rfl⟩ := hcont h1 h3
      have hc : hd.ctrl = c := by
        unfold contOf at h1
        split at h1
        · simp only [bind_ok, pure_ok] at h1
          obtain ⟨_, _, _, _, _, _, _, _, _, _, _, _, rfl⟩ := h1
          rfl
        · cases h1
      rw [hc]
      exact ⟨by simp, htab⟩
  · exact absurd rfl hk
  · cases h

end Verif
