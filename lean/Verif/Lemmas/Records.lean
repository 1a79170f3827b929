import Verif.Props.Fields
import Verif.Model.Records
import Verif.Spec.Layout
/-
Column arithmetic of records.
-/
namespace Verif
open Spec

/-! ### slices -/

theorem slice_mid {α} (a b c : List α) (i j : Nat) (hi : i = a.length) (hj : j = a.length + b.length) :
    slice (a ++ b ++ c) i j = b := by
  subst hi hj
  unfold slice
  rw [List.take_append_of_le_length (by simp), List.take_of_length_le (by simp), List.drop_left]

theorem slice_fields (w : Nat) (fs : List Str) (h : ∀ f ∈ fs, f.length = w) (rest : Str) (i : Nat)
    (f : Str) (hf : fs[i]? = some f) :
    slice (fs.flatten ++ rest) (i * w) (i * w + w) = f := by
  have hi : i < fs.length := by
    by_contra hc
    rw [List.getElem?_eq_none (by omega)] at hf; cases hf
  have h1 : fs = fs.take i ++ f :: fs.drop (i+1) := by
    rw [List.getElem?_eq_getElem hi] at hf
    cases hf
    simp
  have hl : (fs.take i).flatten.length = i * w := by
    have : ∀ (l : List Str), (∀ f ∈ l, f.length = w) → l.flatten.length = l.length * w := by
      intro l hl
      induction l with
      | nil => simp
      | cons a l ih =>
        rw [List.flatten_cons, List.length_append, ih (fun f hf => hl f (by simp [hf])), hl a (by simp),
          List.length_cons]; ring
    rw [this _ (fun f hf => h f (List.mem_of_mem_take hf)), List.length_take]
    rw [Nat.min_eq_left hi.le]
  have hfw : f.length = w := h f (List.mem_of_getElem? hf)
  rw [h1, List.flatten_append, List.flatten_cons]
  have := slice_mid (fs.take i).flatten f ((fs.drop (i+1)).flatten ++ rest) (i*w) (i*w+w) hl.symm (by rw [hl, hfw])
  simpa [List.append_assoc] using this

theorem flatten_length {w : Nat} : ∀ (l : List Str), (∀ f ∈ l, f.length = w) → l.flatten.length = l.length * w := by
  intro l hl
  induction l with
  | nil => simp
  | cons a l ih =>
    rw [List.flatten_cons, List.length_append, ih (fun f hf => hl f (by simp [hf])), hl a (by simp),
      List.length_cons]; ring

theorem StandsAt.get {lines : List Str} {ofs : Nat} {recs : List Str} (h : StandsAt lines ofs recs)
    {i : Nat} {s : Str} (hs : recs[i]? = some s) : ∃ t, lineAt lines (ofs + i) = .ok (s ++ t) := by
  obtain ⟨l, h1, t, h2⟩ := h i s hs
  exact ⟨t, by unfold lineAt; rw [h1, h2]⟩

theorem StandsAt.head {lines : List Str} {ofs : Nat} {a : Str} {recs : List Str}
    (h : StandsAt lines ofs (a :: recs)) : ∃ t, lineAt lines ofs = .ok (a ++ t) := by
  have := StandsAt.get h (i := 0) (s := a) rfl
  simpa using this

theorem StandsAt.tail {lines : List Str} {ofs : Nat} {a : Str} {recs : List Str}
    (h : StandsAt lines ofs (a :: recs)) : StandsAt lines (ofs + 1) recs := by
  intro i s hs
  have := h (i+1) s (by simpa using hs)
  rwa [show ofs + (i+1) = ofs + 1 + i by omega] at this

theorem StandsAt.append {lines : List Str} {ofs : Nat} {a b : List Str}
    (h : StandsAt lines ofs (a ++ b)) : StandsAt lines ofs a ∧ StandsAt lines (ofs + a.length) b := by
  constructor
  · intro i s hs
    apply h i s
    rw [List.getElem?_append_left]
    · exact hs
    · by_contra hc; rw [List.getElem?_eq_none (by omega)] at hs; cases hs
  · intro i s hs
    have := h (a.length + i) s (by rw [List.getElem?_append_right (by omega)]; simpa using hs)
    rwa [← Nat.add_assoc] at this

theorem StandsAt.of_prefix {lines : List Str} {ofs : Nat} {a b : List Str}
    (h : StandsAt lines ofs b) (hp : List.Forall₂ (· <+: ·) a b) : StandsAt lines ofs a := by
  intro i s hs
  have hl := hp.length_eq
  have hi : i < a.length := by
    by_contra hc; rw [List.getElem?_eq_none (by omega)] at hs; cases hs
  rw [List.getElem?_eq_getElem hi] at hs; cases hs
  obtain ⟨l, h1, h2⟩ := h i (b[i]'(by omega)) (List.getElem?_eq_getElem _)
  refine ⟨l, h1, List.IsPrefix.trans ?_ h2⟩
  have := List.forall₂_iff_get.1 hp
  simpa using this.2 i hi (by omega)

/-! ### control columns -/

theorem rjust_fits_read {n : Int} {k : Nat} : readCtrlNum (rjust (intStr n) k) = .ok n := by
  unfold readCtrlNum
  simp only [strip_rjust (intStr_noWs n) k]
  rw [if_pos (intStr_ne_nil n), pyInt_of_strip (strip_noWs (intStr_noWs n))]

theorem fitsCtrl_iff (mat mf mt : Int) : FitsCtrl mat mf mt ↔
    FitsInt 4 mat ∧ FitsInt 2 mf ∧ FitsInt 3 mt := by
  unfold FitsCtrl FitsInt
  have h1 := C02_fits_iff mat 2
  have h2 := C02_fits_iff mf 0
  have h3 := C02_fits_iff mt 1
  norm_num at h1 h2 h3
  rw [h1, h2, h3]

theorem writeCtrl_length_le (c : Ctrl) : 9 ≤ (writeCtrl c).length := by
  unfold writeCtrl
  simp only [List.length_append, rjust_length]; omega

theorem writeCtrl_length_iff (c : Ctrl) : (writeCtrl c).length = 9 ↔ FitsCtrl c.mat c.mf c.mt := by
  rw [fitsCtrl_iff]
  unfold writeCtrl FitsInt
  simp only [List.length_append, rjust_length]; omega

theorem readCtrl_writeCtrl (w : Nat) (body : Str) (hb : body.length = 6 * w) (c : Ctrl)
    (hc : FitsCtrl c.mat c.mf c.mt) (tail : Str) :
    readCtrl w (body ++ writeCtrl c ++ tail) = .ok c := by
  obtain ⟨h1, h2, h3⟩ := (fitsCtrl_iff _ _ _).1 hc
  have l1 := rjust_length_le h1
  have l2 := rjust_length_le h2
  have l3 := rjust_length_le h3
  unfold readCtrl writeCtrl
  have e1 : slice (body ++ (rjust (intStr c.mat) 4 ++ rjust (intStr c.mf) 2 ++ rjust (intStr c.mt) 3) ++ tail)
      (6*w) (6*w+4) = rjust (intStr c.mat) 4 := by
    have := slice_mid body (rjust (intStr c.mat) 4) (rjust (intStr c.mf) 2 ++ rjust (intStr c.mt) 3 ++ tail)
      (6*w) (6*w+4) (by omega) (by omega)
    simpa [List.append_assoc] using this
  have e2 : slice (body ++ (rjust (intStr c.mat) 4 ++ rjust (intStr c.mf) 2 ++ rjust (intStr c.mt) 3) ++ tail)
      (6*w+4) (6*w+6) = rjust (intStr c.mf) 2 := by
    have := slice_mid (body ++ rjust (intStr c.mat) 4) (rjust (intStr c.mf) 2) (rjust (intStr c.mt) 3 ++ tail)
      (6*w+4) (6*w+6) (by rw [List.length_append]; omega) (by rw [List.length_append]; omega)
    simpa [List.append_assoc] using this
  have e3 : slice (body ++ (rjust (intStr c.mat) 4 ++ rjust (intStr c.mf) 2 ++ rjust (intStr c.mt) 3) ++ tail)
      (6*w+6) (6*w+9) = rjust (intStr c.mt) 3 := by
    have := slice_mid (body ++ rjust (intStr c.mat) 4 ++ rjust (intStr c.mf) 2) (rjust (intStr c.mt) 3) tail
      (6*w+6) (6*w+9) (by simp only [List.length_append]; omega) (by simp only [List.length_append]; omega)
    simpa [List.append_assoc] using this
  simp only [e1, e2, e3, rjust_fits_read]
  rfl

/-! ### six field records -/

theorem intField_fields {w : Nat} {fs : List Str} (h : ∀ f ∈ fs, f.length = w) (rest : Str) {i : Nat}
    {n : Int} (hf : fs[i]? = some (rjust (intStr n) w)) (hn : FitsInt w n) :
    intField w (fs.flatten ++ rest) i = .ok n := by
  unfold intField
  rw [show (i+1) * w = i * w + w by ring, slice_fields w fs h rest i _ hf]
  exact (C02_int_roundtrip n w hn).2.1

/-- `y` is what a reader with options `r` makes of the field that a writer with options `o` writes
for `x`; the field has the width of the writer. -/
def Field (o : WOpts) (r : ROpts) (x y : Num) : Prop :=
  ∃ s, float2fortstr o x = .ok s ∧ s.length = o.width ∧ readFloat r s = .ok y

theorem Field.of_inRange {o : WOpts} (hw : 9 ≤ o.width) {r : ROpts} (hr : r.width = o.width) {v : ℚ}
    (hv : InRange v) : ∃ y, Field o r (.flt v) y := by
  by_cases hp : o.preferNoexp = true
  · obtain ⟨s, es, h1, h2, _, h4⟩ := C08_noexp o hw hp v hv
    obtain ⟨x, _, h5, _⟩ := h4 r hr
    exact ⟨x, s, h1, h2, h5⟩
  · obtain ⟨s, h1, h2⟩ := C05_float_width o hw v hv
    obtain ⟨pad, t, _, h4, h5, _⟩ := C06_exp_accuracy o hw v hv
    obtain ⟨x, h6, _⟩ := h5 r hr
    refine ⟨x, s, h1, h2, ?_⟩
    have : float2fortstr o (.flt v) = float2expformstr o v := by
      unfold float2fortstr
      have hp' : o.preferNoexp = false := by simpa using hp
      simp only [h4, bind, Except.bind, hp', pure, Except.pure, Bool.not_false, if_true]
    rw [this, h4] at h1
    cases h1
    exact h6

theorem readCont_line {r : ROpts} {s1 s2 : Str} {y1 y2 : Num} (h1 : s1.length = r.width)
    (h2 : s2.length = r.width) (hy1 : readFloat r s1 = .ok y1) (hy2 : readFloat r s2 = .ok y2)
    {l1 l2 n1 n2 : Int} (hl1 : FitsInt r.width l1) (hl2 : FitsInt r.width l2) (hn1 : FitsInt r.width n1)
    (hn2 : FitsInt r.width n2) {c : Ctrl} (hc : FitsCtrl c.mat c.mf c.mt) {lines : List Str} {ofs : Nat} {t : Str}
    (hl : lineAt lines ofs = .ok (s1 ++ s2 ++ rjust (intStr l1) r.width ++ rjust (intStr l2) r.width ++
      rjust (intStr n1) r.width ++ rjust (intStr n2) r.width ++ writeCtrl c ++ t)) :
    readCont r lines ofs = .ok (⟨y1, y2, .int l1, .int l2, .int n1, .int n2, c⟩, ofs + 1) := by
  set fs : List Str := [s1, s2, rjust (intStr l1) r.width, rjust (intStr l2) r.width,
      rjust (intStr n1) r.width, rjust (intStr n2) r.width] with hfs
  have hlen : ∀ f ∈ fs, f.length = r.width := by
    intro f hf
    simp only [hfs, List.mem_cons, List.not_mem_nil, or_false] at hf
    rcases hf with h | h | h | h | h | h <;> subst h
    · exact h1
    · exact h2
    · exact rjust_length_le hl1
    · exact rjust_length_le hl2
    · exact rjust_length_le hn1
    · exact rjust_length_le hn2
  have e : s1 ++ s2 ++ rjust (intStr l1) r.width ++ rjust (intStr l2) r.width ++
      rjust (intStr n1) r.width ++ rjust (intStr n2) r.width ++ writeCtrl c ++ t
      = fs.flatten ++ (writeCtrl c ++ t) := by simp [hfs, List.append_assoc]
  rw [e] at hl
  have hb : fs.flatten.length = 6 * r.width := by rw [flatten_length fs hlen]; simp [hfs]
  have hctrl := readCtrl_writeCtrl r.width fs.flatten hb c hc t
  rw [List.append_assoc] at hctrl
  have g0 : slice (fs.flatten ++ (writeCtrl c ++ t)) 0 r.width = s1 := by
    have := slice_fields r.width fs hlen (writeCtrl c ++ t) 0 s1 rfl
    simpa using this
  have g1 : slice (fs.flatten ++ (writeCtrl c ++ t)) r.width (2 * r.width) = s2 := by
    have := slice_fields r.width fs hlen (writeCtrl c ++ t) 1 s2 rfl
    simpa [two_mul] using this
  unfold readCont
  simp only [hl, bind, Except.bind, g0, g1, hy1, hy2, hctrl,
    intField_fields hlen (writeCtrl c ++ t) (i := 2) (n := l1) rfl hl1,
    intField_fields hlen (writeCtrl c ++ t) (i := 3) (n := l2) rfl hl2,
    intField_fields hlen (writeCtrl c ++ t) (i := 4) (n := n1) rfl hn1,
    intField_fields hlen (writeCtrl c ++ t) (i := 5) (n := n2) rfl hn2]
  rfl

/-- integers of a CONT record that are written without complaint -/
def SlotIs (o : WOpts) (s : Slot) (n : Int) : Prop := slotInt o s = .ok n

theorem writeCont_eq {o : WOpts} {c : ContRec} {l1 l2 n1 n2 : Int} (a1 : slotInt o c.l1 = .ok l1)
    (a2 : slotInt o c.l2 = .ok l2) (a3 : slotInt o c.n1 = .ok n1) (a4 : slotInt o c.n2 = .ok n2)
    {s1 s2 : Str} (b1 : float2fortstr o c.c1 = .ok s1) (b2 : float2fortstr o c.c2 = .ok s2) :
    writeCont o c = .ok [s1 ++ s2 ++ rjust (intStr l1) o.width ++ rjust (intStr l2) o.width ++
      rjust (intStr n1) o.width ++ rjust (intStr n2) o.width ++ writeCtrl c.ctrl] := by
  unfold writeCont
  simp only [a1, a2, a3, a4, b1, b2, bind, Except.bind]
  rfl

/-! ### number blocks -/

theorem chunks6_nil {α} : chunks6 ([] : List α) = [] := by rw [chunks6]

theorem chunks6_ne {α} {l : List α} (h : l ≠ []) : chunks6 l = l.take 6 :: chunks6 (l.drop 6) := by
  cases l with
  | nil => exact absurd rfl h
  | cons a l => rw [chunks6]

theorem chunks6_length {α} (l : List α) : (chunks6 l).length = (l.length + 5) / 6 := by
  induction h : l.length using Nat.strong_induction_on generalizing l with
  | _ n ih =>
    by_cases hl : l = []
    · subst hl; subst h; simp [chunks6_nil]
    · rw [chunks6_ne hl, List.length_cons]
      have hp : 0 < l.length := List.length_pos_iff.2 hl
      rw [ih (l.drop 6).length (by rw [List.length_drop]; omega) _ rfl, List.length_drop]
      omega

theorem chunks6_flatten {α} (l : List α) : (chunks6 l).flatten = l := by
  induction h : l.length using Nat.strong_induction_on generalizing l with
  | _ n ih =>
    by_cases hl : l = []
    · subst hl; simp [chunks6_nil]
    · rw [chunks6_ne hl, List.flatten_cons]
      have hp : 0 < l.length := List.length_pos_iff.2 hl
      rw [ih (l.drop 6).length (by rw [List.length_drop]; omega) _ rfl, List.take_append_drop]

theorem chunks6_map {α β} (f : α → β) (l : List α) : chunks6 (l.map f) = (chunks6 l).map (List.map f) := by
  induction h : l.length using Nat.strong_induction_on generalizing l with
  | _ n ih =>
    by_cases hl : l = []
    · subst hl; simp [chunks6_nil]
    · rw [chunks6_ne hl, chunks6_ne (by simpa using hl), List.map_cons]
      have hp : 0 < l.length := List.length_pos_iff.2 hl
      rw [← List.map_drop, ih (l.drop 6).length (by rw [List.length_drop]; omega) _ rfl, List.map_take]

theorem mapM_ok {α β : Type} {f : α → Res β} {l : List α} {ys : List β}
    (h : List.Forall₂ (fun a b => f a = .ok b) l ys) : l.mapM f = .ok ys := by
  induction h with
  | nil => rfl
  | cons h1 _ ih => rw [List.mapM_cons, h1, ih]; rfl

theorem mapM_ok_iff {α β : Type} {f : α → Res β} {l : List α} {ys : List β} :
    l.mapM f = .ok ys ↔ List.Forall₂ (fun a b => f a = .ok b) l ys := by
  constructor
  · induction l generalizing ys with
    | nil => intro h; cases h; exact .nil
    | cons a l ih =>
      intro h
      rw [List.mapM_cons] at h
      cases ha : f a with
      | error e => rw [ha] at h; cases h
      | ok b =>
        cases hl : l.mapM f with
        | error e => rw [ha, hl] at h; cases h
        | ok bs =>
          rw [ha, hl] at h; cases h
          exact .cons ha (ih hl)
  · exact mapM_ok

theorem readFortFloats_fields {r : ROpts} {fs : List Str} (h : ∀ f ∈ fs, f.length = r.width) (rest : Str)
    {ys : List Num} (hy : List.Forall₂ (fun f y => readFloat r f = .ok y) fs ys) (n : Nat) (hn : n = fs.length) :
    readFortFloats r (fs.flatten ++ rest) n = .ok ys := by
  subst hn
  unfold readFortFloats
  apply mapM_ok
  rw [List.forall₂_iff_get]
  have hl := hy.length_eq
  refine ⟨by simpa using hl, ?_⟩
  intro i h1 h2
  simp only [List.length_range] at h1
  have hg : fs[i]? = some fs[i] := List.getElem?_eq_getElem h1
  simp only [List.get_eq_getElem, List.getElem_range]
  rw [slice_fields r.width fs h rest i _ hg]
  have := (List.forall₂_iff_get.1 hy).2 i h1 (by omega)
  simpa using this

theorem forall₂_take {α β} {R : α → β → Prop} {l : List α} {m : List β} (h : List.Forall₂ R l m) (n : Nat) :
    List.Forall₂ R (l.take n) (m.take n) := List.forall₂_take n h

theorem readNumbers_fields {r : ROpts} (lines : List Str) : ∀ (fs : List Str) (ofs : Nat) (ys : List Num),
    (∀ f ∈ fs, f.length = r.width) → StandsAt lines ofs ((chunks6 fs).map List.flatten) →
    List.Forall₂ (fun f y => readFloat r f = .ok y) fs ys →
    readNumbers r lines fs.length ofs = .ok (ys, ofs + (chunks6 fs).length) := by
  intro fs
  induction h : fs.length using Nat.strong_induction_on generalizing fs with
  | _ n ih =>
    intro ofs ys hlen hst hy
    by_cases hl : fs = []
    · subst hl
      cases hy
      subst h
      rw [readNumbers]; simp [chunks6_nil]
    · have hp : 0 < fs.length := List.length_pos_iff.2 hl
      rw [chunks6_ne hl] at hst ⊢
      rw [List.map_cons] at hst
      obtain ⟨t, ht⟩ := StandsAt.head hst
      rw [readNumbers, if_neg (by omega)]
      have h1 : readFortFloats r ((fs.take 6).flatten ++ t) (min 6 n) = .ok (ys.take 6) := by
        apply readFortFloats_fields
        · intro f hf; exact hlen f (List.mem_of_mem_take hf)
        · exact forall₂_take hy 6
        · rw [List.length_take, h]
      have h2 := ih (n - 6) (by omega) (fs.drop 6) (by rw [List.length_drop, h]) (ofs + 1) (ys.drop 6)
        (fun f hf => hlen f (List.mem_of_mem_drop hf)) (StandsAt.tail hst) (List.forall₂_drop 6 hy)
      simp only [ht, bind, Except.bind, h1, h2, pure, Except.pure]
      rw [List.take_append_drop, List.length_cons]
      congr 2
      omega

/-- values padded in the last line do not matter -/
theorem chunks6_pad_prefix : ∀ (a b : List Str), (a = [] → b = []) → b.length ≤ (6 - a.length % 6) % 6 →
    List.Forall₂ (· <+: ·) ((chunks6 a).map List.flatten) ((chunks6 (a ++ b)).map List.flatten) := by
  intro a
  induction h : a.length using Nat.strong_induction_on generalizing a with
  | _ n ih =>
    intro b hab hb
    by_cases ha : a = []
    · rw [hab ha, ha]; simp [chunks6_nil]
    · have hp : 0 < a.length := List.length_pos_iff.2 ha
      rw [chunks6_ne ha, chunks6_ne (l := a ++ b) (by simp [ha]), List.map_cons, List.map_cons]
      by_cases h6 : 6 ≤ a.length
      · rw [List.take_append_of_le_length h6, List.drop_append_of_le_length h6]
        refine .cons (List.prefix_refl _) ?_
        refine ih (a.drop 6).length (by rw [List.length_drop]; omega) _ rfl b ?_ (by rw [List.length_drop]; omega)
        intro he
        have : a.length ≤ 6 := by
          have := congrArg List.length he
          rw [List.length_drop] at this; simp at this; omega
        have : b.length = 0 := by
          have : a.length = 6 := by omega
          omega
        exact List.length_eq_zero_iff.1 this
      · have h3 : (a ++ b).drop 6 = [] := by
          rw [List.drop_eq_nil_iff, List.length_append]; omega
        rw [h3, List.drop_eq_nil_of_le (by omega), chunks6_nil]
        refine .cons ?_ .nil
        rw [List.take_of_length_le (by omega), List.take_of_length_le (by rw [List.length_append]; omega),
          List.flatten_append]
        exact List.prefix_append _ _

theorem writeFortFloats_ok {o : WOpts} {vs : List Num} {fs : List Str}
    (h : List.Forall₂ (fun v f => float2fortstr o v = .ok f) vs fs) :
    writeFortFloats o vs = .ok fs.flatten := by
  induction h with
  | nil => rfl
  | cons h1 _ ih => rw [writeFortFloats, h1, ih]; rfl

theorem chunks6_forall₂ {α β} {R : α → β → Prop} : ∀ {l : List α} {m : List β}, List.Forall₂ R l m →
    List.Forall₂ (List.Forall₂ R) (chunks6 l) (chunks6 m) := by
  intro l
  induction h : l.length using Nat.strong_induction_on generalizing l with
  | _ n ih =>
    intro m hm
    by_cases hl : l = []
    · subst hl; cases hm; simp [chunks6_nil]
    · have hp : 0 < l.length := List.length_pos_iff.2 hl
      have hml := hm.length_eq
      rw [chunks6_ne hl, chunks6_ne (l := m) (by intro e; rw [e] at hml; simp at hml; exact hl hml)]
      exact .cons (List.forall₂_take 6 hm)
        (ih (l.drop 6).length (by rw [List.length_drop]; omega) rfl (List.forall₂_drop 6 hm))

theorem padLast_ok (w : Nat) : ∀ (ls : List Str), ls ≠ [] → ∃ ls', padLast w ls = .ok ls' ∧
    List.Forall₂ (· <+: ·) ls ls' ∧ ls'.length = ls.length ∧
    ((∀ l ∈ ls.dropLast, l.length = w) → (∀ l ∈ ls, l.length ≤ w) → ∀ l ∈ ls', l.length = w) := by
  intro ls
  induction ls with
  | nil => intro h; exact absurd rfl h
  | cons a l ih =>
    intro _
    cases l with
    | nil =>
      refine ⟨[ljust a w], rfl, .cons (List.prefix_append _ _) .nil, rfl, ?_⟩
      intro _ h2 x hx
      simp at hx; subst hx
      exact ljust_length_le (h2 a (by simp))
    | cons b l =>
      obtain ⟨ls', h1, h2, h3, h4⟩ := ih (by simp)
      refine ⟨a :: ls', ?_, .cons (List.prefix_refl _) h2, by simp [h3], ?_⟩
      · rw [padLast]; rw [h1]; rfl; simp
      · intro h5 h6 x hx
        rw [List.mem_cons] at hx
        rcases hx with rfl | hx
        · exact h5 _ (by simp [List.dropLast])
        · refine h4 ?_ ?_ x hx
          · intro y hy; exact h5 y (by rw [List.dropLast_cons_of_ne_nil (by simp)]; simp [hy])
          · intro y hy; exact h6 y (by simp [hy])

theorem chunks6_bounds {α} (l : List α) : (∀ c ∈ (chunks6 l).dropLast, c.length = 6) ∧
    (∀ c ∈ chunks6 l, c.length ≤ 6 ∧ ∀ x ∈ c, x ∈ l) := by
  induction h : l.length using Nat.strong_induction_on generalizing l with
  | _ n ih =>
    by_cases hl : l = []
    · subst hl; simp [chunks6_nil]
    · have hp : 0 < l.length := List.length_pos_iff.2 hl
      obtain ⟨h1, h2⟩ := ih (l.drop 6).length (by rw [List.length_drop]; omega) _ rfl
      rw [chunks6_ne hl]
      constructor
      · intro c hc
        by_cases hd : l.drop 6 = []
        · rw [hd, chunks6_nil] at hc; simp at hc
        · rw [List.dropLast_cons_of_ne_nil (by rw [chunks6_ne hd]; simp), List.mem_cons] at hc
          rcases hc with rfl | hc
          · rw [List.drop_eq_nil_iff] at hd
            rw [List.length_take]; omega
          · exact h1 c hc
      · intro c hc
        rw [List.mem_cons] at hc
        rcases hc with rfl | hc
        · exact ⟨by rw [List.length_take]; omega, fun x hx => List.mem_of_mem_take hx⟩
        · exact ⟨(h2 c hc).1, fun x hx => List.mem_of_mem_drop ((h2 c hc).2 x hx)⟩

/-- lines made of fields: widths, prefixes -/
theorem padLast_fields (w : Nat) (fs : List Str) (hne : fs ≠ []) (h : ∀ f ∈ fs, f.length = w) :
    ∃ ls, padLast (w * 6) ((chunks6 fs).map List.flatten) = .ok ls ∧
      List.Forall₂ (· <+: ·) ((chunks6 fs).map List.flatten) ls ∧
      ls.length = (fs.length + 5) / 6 ∧ ∀ l ∈ ls, l.length = w * 6 := by
  obtain ⟨ls, h1, h2, h3, h4⟩ := padLast_ok (w * 6) ((chunks6 fs).map List.flatten)
    (by rw [chunks6_ne hne]; simp)
  refine ⟨ls, h1, h2, by rw [h3, List.length_map, chunks6_length], h4 ?_ ?_⟩
  · intro l hl
    rw [← List.map_dropLast, List.mem_map] at hl
    obtain ⟨c, hc, rfl⟩ := hl
    rw [flatten_length c (fun f hf => h f (((chunks6_bounds fs).2 c (List.mem_of_mem_dropLast hc)).2 f hf)),
      (chunks6_bounds fs).1 c hc, Nat.mul_comm]
  · intro l hl
    rw [List.mem_map] at hl
    obtain ⟨c, hc, rfl⟩ := hl
    rw [flatten_length c (fun f hf => h f (((chunks6_bounds fs).2 c hc).2 f hf)), Nat.mul_comm]
    exact Nat.mul_le_mul_left _ ((chunks6_bounds fs).2 c hc).1

theorem writeNumbers_fields {o : WOpts} {vs : List Num} {fs : List Str}
    (h : List.Forall₂ (fun v f => float2fortstr o v = .ok f) vs fs) :
    writeNumbers o vs = padLast (o.width * 6) ((chunks6 fs).map List.flatten) := by
  unfold writeNumbers
  have : (chunks6 vs).mapM (writeFortFloats o) = .ok ((chunks6 fs).map List.flatten) := by
    apply mapM_ok
    rw [List.forall₂_map_right_iff]
    exact (chunks6_forall₂ h).imp (fun a b hab => writeFortFloats_ok hab)
  rw [this]; rfl

theorem writeInts_fields (o : WOpts) (vs : List Int) :
    writeInts o vs = padLast (o.width * 6)
      ((chunks6 (vs.map fun v => rjust (intStr v) o.width)).map List.flatten) := by
  unfold writeInts
  rw [chunks6_map, List.map_map]
  rfl


theorem fields_of {o : WOpts} {r : ROpts} {vs ys : List Num} (h : List.Forall₂ (Field o r) vs ys) :
    ∃ fs, List.Forall₂ (fun v f => float2fortstr o v = .ok f) vs fs ∧ (∀ f ∈ fs, f.length = o.width) ∧
      List.Forall₂ (fun f y => readFloat r f = .ok y) fs ys := by
  induction h with
  | nil => exact ⟨[], .nil, by simp, .nil⟩
  | cons h1 _ ih =>
    obtain ⟨s, a, b, c⟩ := h1
    obtain ⟨fs, a', b', c'⟩ := ih
    refine ⟨s :: fs, .cons a a', ?_, .cons c c'⟩
    intro f hf
    rw [List.mem_cons] at hf
    rcases hf with rfl | hf
    · exact b
    · exact b' f hf

theorem Field.list_of_inRange {o : WOpts} (hw : 9 ≤ o.width) {r : ROpts} (hr : r.width = o.width) (vs : List ℚ)
    (h : ∀ v ∈ vs, InRange v) : ∃ ys, List.Forall₂ (Field o r) (vs.map Num.flt) ys := by
  induction vs with
  | nil => exact ⟨[], .nil⟩
  | cons v vs ih =>
    obtain ⟨y, hy⟩ := Field.of_inRange hw hr (h v (by simp))
    obtain ⟨ys, hys⟩ := ih (fun v hv => h v (by simp [hv]))
    exact ⟨y :: ys, .cons hy hys⟩

theorem intFields {o : WOpts} {r : ROpts} (hr : r.width = o.width) (vs : List Int)
    (h : ∀ v ∈ vs, FitsInt o.width v) :
    ∃ ys, List.Forall₂ (fun f y => readFloat r f = .ok y) (vs.map fun v => rjust (intStr v) o.width) ys ∧
      toInts ys = vs := by
  induction vs with
  | nil => exact ⟨[], .nil, rfl⟩
  | cons v vs ih =>
    obtain ⟨ys, h1, h2⟩ := ih (fun v hv => h v (by simp [hv]))
    obtain ⟨y, h3, h4⟩ := (C02_int_roundtrip v o.width (h v (by simp))).2.2 r hr
    refine ⟨y :: ys, .cons h3 h1, ?_⟩
    unfold toInts at h2 ⊢
    rw [List.map_cons, h2, h4, truncRat_int]

theorem interleave_evens {α} : ∀ (a b : List α), a.length = b.length → evens (interleave a b) = a
  | [], [], _ => rfl
  | x :: a, y :: b, h => by
    rw [interleave, evens, interleave_evens a b (by simpa using h)]

theorem interleave_odds {α} : ∀ (a b : List α), a.length = b.length → odds (interleave a b) = b
  | [], [], _ => rfl
  | x :: a, y :: b, h => by
    rw [interleave, odds, interleave_odds a b (by simpa using h)]

theorem interleave_length {α} : ∀ (a b : List α), a.length = b.length → (interleave a b).length = 2 * a.length
  | [], [], _ => rfl
  | x :: a, y :: b, h => by
    rw [interleave, List.length_cons, List.length_cons, interleave_length a b (by simpa using h),
      List.length_cons]; ring

theorem interleave_mem {α} {x : α} : ∀ (a b : List α), x ∈ interleave a b → x ∈ a ∨ x ∈ b
  | [], _, h => by simp [interleave] at h
  | _ :: _, [], h => by simp [interleave] at h
  | y :: a, z :: b, h => by
    rw [interleave, List.mem_cons, List.mem_cons] at h
    rcases h with rfl | rfl | h
    · simp
    · simp
    · rcases interleave_mem a b h with h | h <;> simp [h]

theorem interleave_forall₂ {α β} {R : α → β → Prop} : ∀ {a b : List α} {c d : List β},
    List.Forall₂ R a c → List.Forall₂ R b d → List.Forall₂ R (interleave a b) (interleave c d)
  | _, _, _, _, .nil, _ => by simp [interleave]
  | _, _, _, _, .cons _ _, .nil => by simp [interleave]
  | _, _, _, _, .cons h h', .cons g g' => by
    rw [interleave, interleave]; exact .cons h (.cons g (interleave_forall₂ h' g'))

/-- read a block of numbers that stands in the file, each line possibly followed by other text -/
theorem readNumbers_written {r : ROpts} {lines : List Str} {fs : List Str} {ofs : Nat} {ys : List Num}
    {ls : List Str} {suf : Str} (hlen : ∀ f ∈ fs, f.length = r.width)
    (hp : List.Forall₂ (· <+: ·) ((chunks6 fs).map List.flatten) ls)
    (hst : StandsAt lines ofs (ls.map (· ++ suf)))
    (hy : List.Forall₂ (fun f y => readFloat r f = .ok y) fs ys) :
    readNumbers r lines fs.length ofs = .ok (ys, ofs + ls.length) := by
  have hl : ls.length = (chunks6 fs).length := by
    have := hp.length_eq; rw [List.length_map] at this; exact this.symm
  rw [hl]
  apply readNumbers_fields lines fs ofs ys hlen _ hy
  apply StandsAt.of_prefix hst
  rw [List.forall₂_map_right_iff]
  exact hp.imp (fun a b hab => hab.trans (List.prefix_append _ _))

end Verif
