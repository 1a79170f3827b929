import Verif.Lemmas.CppLines
import Verif.Lemmas.DotText
import Verif.Props.CppWriteFun
import Verif.Props.ShippedWrite
/-
C93: the lines the two parsers write for a record.
-/
namespace Verif
open Verif.Spec

/-! ### fields -/

theorem SameField.rfl' {s : Str} : SameField s s := .inl rfl

theorem LineAs.mk' {l l' : Str} {c : Ctrl} (h : slice l 66 75 = writeCtrl c) (h' : slice l' 66 75 = writeCtrl c)
    (hf : ∀ i < 6, SameField (slice l (11 * i) (11 * i + 11)) (slice l' (11 * i) (11 * i + 11)) ∧
      (2 ≤ i → SameInt (slice l (11 * i) (11 * i + 11)) (slice l' (11 * i) (11 * i + 11)))) : LineAs l l' :=
  ⟨by rw [h, h'], fun i hi => (hf i hi).1, fun i h2 hi => (hf i hi).2 h2, notBlank_of_ctrl h, notBlank_of_ctrl h'⟩

/-- the same text, or texts that are read as the same number, and as the same integer if the first is an integer -/
def SameText (s s' : Str) : Prop := SameField s s' ∧ SameInt s s'

theorem SameText.rfl' {s : Str} : SameText s s := ⟨.inl rfl, fun _ h => h⟩

theorem reads_plain {s : Str} (hl : s.length = 11) (hp : PlainText s) {v : ℚ}
    (h : ∀ r : ROpts, r.width = 11 → ∃ y, readFloat r s = .ok y ∧ y.val = v) : ReadsAs s v := by
  refine ⟨fun acc => ?_, h⟩
  obtain ⟨y, h1, h2⟩ := h { acceptSpaces := acc } rfl
  rw [← h2]
  exact C66_partial acc false s hl hp.2 hp.1 y h1

theorem readsAs_blank : ReadsAs blank11 0 := by
  refine ⟨fun acc => ?_, fun r hr => ⟨.flt 0, ?_, rfl⟩⟩
  · cases acc <;> decide +kernel
  · unfold readFloat fortstr2float
    rw [hr]
    rfl

theorem reads_int0 : ReadsAs (rjust (intStr 0) 11) 0 := by
  refine ⟨fun acc => ?_, fun r hr => ?_⟩
  · cases acc <;> decide +kernel
  · obtain ⟨acc, pres, w⟩ := r
    dsimp only at hr
    subst hr
    have h : (readFloat ⟨acc, pres, 11⟩ (rjust (intStr 0) 11)).map Num.val = .ok 0 := by cases acc <;> cases pres <;> decide +kernel
    cases hx : readFloat ⟨acc, pres, 11⟩ (rjust (intStr 0) 11) with
    | error e => rw [hx] at h; cases h
    | ok y => rw [hx] at h; exact ⟨y, rfl, by simpa [Except.map] using h⟩

/-- a float field -/
theorem float_same {o : WOpts} (ho : o.width = 11) (hp : o.preferNoexp = false) {v u : Val} (hk : KeptVal v) (hs : SameVal v u) {x : Num}
    (hx : v.toNum = .ok x) {j : Nat} (hj : j < 2) : ∃ s s', float2fortstr o x = .ok s ∧ fieldText o false j u = some s' ∧ s.length = 11 ∧
      s'.length = 11 ∧ SameText s s' := by
  obtain ⟨q, rfl, hq, hv⟩ : ∃ q, x = .flt q ∧ KeptNum q ∧ ∃ y, v = .num y ∧ y.val = q := by
    unfold KeptVal at hk
    split at hk
    · cases hx; exact ⟨_, rfl, hk, _, rfl, rfl⟩
    · cases hx; exact ⟨_, rfl, hk, _, rfl, rfl⟩
    · exact absurd hk id
  obtain ⟨y, rfl, hy⟩ := hv
  cases u with
  | num z =>
    have hz : z.val = q := by rw [← hy]; exact (show y.val = z.val from hs).symm
    obtain ⟨s, s', w, a1, a2, a3, a4, a5, a6, a7⟩ := C75_partial o ho hp false q hq
    refine ⟨s', s, a2, ?_, a4, a3, .inr ⟨w, ⟨a6, fun r hr => ?_⟩, ⟨a5, fun r hr => ?_⟩⟩, fun n hn => absurd hn (readFortInt_float ho hp a2 n)⟩
    · unfold fieldText
      dsimp only
      rw [if_pos hj, ← a1]
      cases z with
      | int n => subst hz; rfl
      | num z => cases z with
        | flt w => subst hz; rfl
        | endf w orig => subst hz; unfold cppFloatField; simp only [PyNum.toNum, or_true, if_true]; rfl
    · obtain ⟨_, y', _, g2, _, g4⟩ := a7 r hr; exact ⟨y', g2, g4⟩
    · obtain ⟨y', _, g1, _, g3, _⟩ := a7 r hr; exact ⟨y', g1, g3⟩
  | _ => exact absurd hs id

/-- an integer field -/
theorem int_same {o : WOpts} {v u : Val} (hf : FitsVal v) (hs : SameVal v u) {sl : Slot} {n : Int}
    (hx : v.toSlot = .ok sl) (hn : slotInt o sl = .ok n) {j : Nat} (hj : 2 ≤ j) :
    fieldText o false j u = some (rjust (intStr n) 11) ∧ (rjust (intStr n) 11).length = 11 := by
  cases v with
  | num y =>
    have hyn : y.val = n := by
      cases y with
      | int m => cases hx; cases hn; rfl
      | num z =>
        cases hx
        simp only [slotInt] at hn
        split at hn
        · cases hn
        · rename_i h
          cases hn
          simp only [not_or, not_not] at h
          exact h.1.symm
    cases u with
    | num z =>
      have hz : z.val = n := by rw [← hyn]; exact (show y.val = z.val from hs).symm
      constructor
      · unfold fieldText
        dsimp only
        rw [if_neg (by omega), hz, truncRat_int]
        rfl
      · apply rjust_length_le
        rw [C02_fits_iff n 9]
        obtain ⟨h1, h2⟩ : -10 ^ 10 < y.val ∧ y.val < 10 ^ 11 := hf
        rw [hyn] at h1 h2
        have h1' : (-10 ^ 10 : Int) < n := by exact_mod_cast h1
        have h2' : n < (10 ^ 11 : Int) := by exact_mod_cast h2
        norm_num at h1' h2' ⊢
        omega
    | _ => exact absurd hs id
  | _ => exact absurd hf id

/-- the six fields and the control numbers of a line of the interpreter -/
theorem line_slices {c : Ctrl} (hc : FitsCtrl c.mat c.mf c.mt) {fs : List Str} (h6 : fs.length = 6) (h : ∀ f ∈ fs, f.length = 11) (t : Str) :
    slice (fs.flatten ++ (writeCtrl c ++ t)) 66 75 = writeCtrl c ∧
    ∀ i f, fs[i]? = some f → slice (fs.flatten ++ (writeCtrl c ++ t)) (11 * i) (11 * i + 11) = f := by
  constructor
  · rw [← List.append_assoc]
    exact slice_mid _ _ _ _ _ (by rw [flatten_length fs h, h6]) (by rw [flatten_length fs h, h6, (writeCtrl_length_iff c).2 hc])
  · intro i f hf
    have := slice_fields 11 fs h (writeCtrl c ++ t) i f hf
    rwa [Nat.mul_comm i 11] at this

/-- the first line of a record -/
theorem head_same {o : WOpts} (ho : o.width = 11) (hp : o.preferNoexp = false) {c : Ctrl} (hc : FitsCtrl c.mat c.mf c.mt) {vs : List Val}
    {fs : Dict Nat Val} (hF : FieldsAs fs 0 vs) (hok : FieldsOk 0 vs) {r : ContRec} (hr : contOf vs c = .ok r) {ls : List Str}
    (hw : writeCont o r = .ok ls) (ln : Int) : ∃ l l' ln', ls = [l] ∧ headLine o false c fs ln = some (l', ln') ∧ LineAs l l' ∧
      ∀ i, 2 ≤ i → i < 6 → intField 11 l i = intField 11 l' i := by
  unfold contOf at hr
  split at hr
  swap
  · cases hr
  rename_i a b c1 c2 c3 c4
  simp only [bind_ok, pure_ok] at hr
  obtain ⟨xa, ha, xb, hb, s1, h1, s2, h2, s3, h3, s4, h4, rfl⟩ := hr
  unfold writeCont at hw
  simp only [bind_ok, pure_ok] at hw
  obtain ⟨n1, k1, n2, k2, n3, k3, n4, k4, t1, g1, t2, g2, rfl⟩ := hw
  obtain ⟨⟨u0, d0, e0⟩, ⟨u1, d1, e1⟩, ⟨u2, d2, e2⟩, ⟨u3, d3, e3⟩, ⟨u4, d4, e4⟩, ⟨u5, d5, e5⟩, _⟩ := hF
  obtain ⟨o0, o1, o2, o3, o4, o5, _⟩ := hok
  norm_num at o0 o1 o2 o3 o4 o5 d0 d1 d2 d3 d4 d5
  obtain ⟨p0, q0, w0, x0, y0, z0, S0⟩ := float_same ho hp o0 e0 ha (j := 0) (by omega)
  obtain ⟨p1, q1, w1, x1, y1, z1, S1⟩ := float_same ho hp o1 e1 hb (j := 1) (by omega)
  rw [g1] at w0; cases w0
  rw [g2] at w1; cases w1
  obtain ⟨x2, y2⟩ := int_same o2 e2 h1 k1 (j := 2) (by omega)
  obtain ⟨x3, y3⟩ := int_same o3 e3 h2 k2 (j := 3) (by omega)
  obtain ⟨x4, y4⟩ := int_same o4 e4 h3 k3 (j := 4) (by omega)
  obtain ⟨x5, y5⟩ := int_same o5 e5 h4 k4 (j := 5) (by omega)
  obtain ⟨l', ln', H1, H2, H3, H4⟩ := headLine_slices o false hc fs ln (by
    intro j hj v hv
    interval_cases j
    · rw [d0] at hv; cases hv; exact ⟨_, x0, z0⟩
    · rw [d1] at hv; cases hv; exact ⟨_, x1, z1⟩
    · rw [d2] at hv; cases hv; exact ⟨_, x2, y2⟩
    · rw [d3] at hv; cases hv; exact ⟨_, x3, y3⟩
    · rw [d4] at hv; cases hv; exact ⟨_, x4, y4⟩
    · rw [d5] at hv; cases hv; exact ⟨_, x5, y5⟩)
  have E0 := H4 0 (by omega) _ d0; rw [x0, Option.some.injEq] at E0
  have E1 := H4 1 (by omega) _ d1; rw [x1, Option.some.injEq] at E1
  have E2 := H4 2 (by omega) _ d2; rw [x2, Option.some.injEq] at E2
  have E3 := H4 3 (by omega) _ d3; rw [x3, Option.some.injEq] at E3
  have E4 := H4 4 (by omega) _ d4; rw [x4, Option.some.injEq] at E4
  have E5 := H4 5 (by omega) _ d5; rw [x5, Option.some.injEq] at E5
  obtain ⟨P1, P2⟩ := line_slices hc (fs := [t1, t2, rjust (intStr n1) 11, rjust (intStr n2) 11, rjust (intStr n3) 11, rjust (intStr n4) 11]) rfl
    (by intro f hf; simp only [List.mem_cons, List.not_mem_nil, or_false] at hf; rcases hf with rfl | rfl | rfl | rfl | rfl | rfl <;> assumption) []
  have hline : [t1, t2, rjust (intStr n1) 11, rjust (intStr n2) 11, rjust (intStr n3) 11, rjust (intStr n4) 11].flatten ++ (writeCtrl c ++ []) =
      t1 ++ t2 ++ rjust (intStr n1) o.width ++ rjust (intStr n2) o.width ++ rjust (intStr n3) o.width ++ rjust (intStr n4) o.width ++ writeCtrl c := by
    rw [ho]; simp only [List.flatten_cons, List.flatten_nil, List.append_assoc, List.append_nil]
  rw [hline] at P1 P2
  refine ⟨_, l', ln', rfl, H1, LineAs.mk' P1 H2 fun i hi => ?_, fun i hi hi' => ?_⟩
  · interval_cases i
    · rw [P2 0 _ rfl, ← E0]; exact ⟨S0.1, fun _ => S0.2⟩
    · rw [P2 1 _ rfl, ← E1]; exact ⟨S1.1, fun _ => S1.2⟩
    · rw [P2 2 _ rfl, ← E2]; exact ⟨.inl rfl, fun _ _ h => h⟩
    · rw [P2 3 _ rfl, ← E3]; exact ⟨.inl rfl, fun _ _ h => h⟩
    · rw [P2 4 _ rfl, ← E4]; exact ⟨.inl rfl, fun _ _ h => h⟩
    · rw [P2 5 _ rfl, ← E5]; exact ⟨.inl rfl, fun _ _ h => h⟩
  · unfold intField
    have : i * 11 = 11 * i ∧ (i + 1) * 11 = 11 * i + 11 := by omega
    rw [this.1, this.2]
    interval_cases i
    · rw [P2 2 _ rfl, ← E2]
    · rw [P2 3 _ rfl, ← E3]
    · rw [P2 4 _ rfl, ← E4]
    · rw [P2 5 _ rfl, ← E5]

/-! ### bodies -/

/-- the texts in the fields of two lines -/
def TextsAs (ts ts' : List Str) : Prop := ∀ i < 6, SameText ((ts[i]?).getD blank11) ((ts'[i]?).getD blank11)

theorem shows_same {c : Ctrl} {cs cs' : List (List Str)} {ls ls' : List Str} (h : List.Forall₂ TextsAs cs cs')
    (h1 : List.Forall₂ (Shows c) cs ls) (h2 : List.Forall₂ (Shows c) cs' ls') : List.Forall₂ LineAs ls ls' := by
  induction h generalizing ls ls' with
  | nil => cases h1; cases h2; exact .nil
  | cons h0 _ ih =>
    cases h1 with
    | cons a1 b1 => cases h2 with
      | cons a2 b2 =>
        refine .cons (LineAs.mk' a1.1 a2.1 fun i hi => ?_) (ih b1 b2)
        rw [a1.2 i hi, a2.2 i hi]
        exact ⟨(h0 i hi).1, fun _ => (h0 i hi).2⟩

theorem forall₂_texts {ts ts' : List Str} (h : List.Forall₂ SameText ts ts') (i : Nat) :
    SameText ((ts[i]?).getD blank11) ((ts'[i]?).getD blank11) := by
  induction h generalizing i with
  | nil => exact SameText.rfl'
  | cons h0 _ ih => cases i with
    | zero => exact h0
    | succ i => exact ih i

theorem chunks_texts {fs fs' : List Str} (h : List.Forall₂ SameText fs fs') : List.Forall₂ TextsAs (chunks6 fs) (chunks6 fs') :=
  (chunks6_forall₂ h).imp fun _ _ hx i _ => forall₂_texts hx i

/-- zeros behind the last number of the last line, where the other line is blank -/
theorem chunks_padded {z : Str} (hz : ReadsAs z 0) (hn : ∀ n, readFortInt z ≠ .ok n) (fs : List Str) : ∀ fs' : List Str, List.Forall₂ SameText fs fs' → ∀ k : Nat, fs ≠ [] →
    k ≤ (6 - fs.length % 6) % 6 → List.Forall₂ TextsAs (chunks6 (fs ++ List.replicate k z)) (chunks6 fs') := by
  induction h : fs.length using Nat.strong_induction_on generalizing fs with
  | _ n ih =>
    intro fs' hs k hne hk
    have hl := hs.length_eq
    have hp : 0 < fs.length := List.length_pos_iff.2 hne
    have hne' : fs' ≠ [] := by intro e; rw [e] at hl; simp at hl; exact hne hl
    rw [chunks6_ne (l := fs ++ List.replicate k z) (by simp [hne]), chunks6_ne hne']
    by_cases h6 : 6 ≤ fs.length
    · rw [List.take_append_of_le_length h6, List.drop_append_of_le_length h6]
      refine .cons (fun i _ => forall₂_texts (List.forall₂_take 6 hs) i) ?_
      by_cases hd : fs.drop 6 = []
      · have : fs.length = 6 := by rw [List.drop_eq_nil_iff] at hd; omega
        have hk0 : k = 0 := by omega
        have hd' : fs'.drop 6 = [] := by rw [List.drop_eq_nil_iff]; omega
        rw [hd, hd', hk0]
        simp [chunks6_nil]
      · exact ih (fs.drop 6).length (by rw [List.length_drop]; omega) _ rfl _ (List.forall₂_drop 6 hs) k hd
          (by rw [List.length_drop]; omega)
    · rw [List.drop_of_length_le (by simp; omega), List.drop_of_length_le (by omega), chunks6_nil]
      refine .cons (fun i hi => ?_) .nil
      rw [List.take_of_length_le (by simp; omega), List.take_of_length_le (by omega)]
      by_cases h3 : i < fs.length
      · rw [List.getElem?_append_left h3]
        exact forall₂_texts hs i
      · rw [List.getElem?_append_right (by omega), List.getElem?_eq_none (l := fs') (by omega), List.getElem?_replicate]
        split
        · exact ⟨.inr ⟨0, hz, readsAs_blank⟩, fun n h => absurd h (hn n)⟩
        · exact SameText.rfl'

/-- the numbers of a column -/
theorem floats_same {o : WOpts} (ho : o.width = 11) (hp : o.preferNoexp = false) {xs : List Num} {us : List Val}
    (h : List.Forall₂ (fun x u => ∃ v, KeptVal v ∧ v.toNum = .ok x ∧ SameVal v u) xs us) : ∃ fs fs',
    List.Forall₂ (fun x f => float2fortstr o x = .ok f) xs fs ∧ us.mapM (fieldText o false 0) = some fs' ∧ (∀ f ∈ fs, f.length = 11) ∧
      (∀ f ∈ fs', f.length = 11) ∧ List.Forall₂ SameText fs fs' := by
  induction h with
  | nil => exact ⟨[], [], .nil, rfl, by simp, by simp, .nil⟩
  | cons h0 _ ih =>
    obtain ⟨v, k1, k2, k3⟩ := h0
    obtain ⟨fs, fs', a1, a2, a3, a4, a5⟩ := ih
    obtain ⟨s, s', b1, b2, b3, b4, b5⟩ := float_same ho hp k1 k3 k2 (j := 0) (by omega)
    refine ⟨s :: fs, s' :: fs', .cons b1 a1, ?_, ?_, ?_, .cons b5 a5⟩
    · rw [List.mapM_cons, b2, a2]; rfl
    · intro f hf; rcases List.mem_cons.1 hf with rfl | hf
      · exact b3
      · exact a3 f hf
    · intro f hf; rcases List.mem_cons.1 hf with rfl | hf
      · exact b4
      · exact a4 f hf

theorem interleave_map' {α β : Type} (f : α → β) : ∀ a b : List α, interleave (a.map f) (b.map f) = (interleave a b).map f := by
  intro a
  induction a with
  | nil => intro b; simp [interleave]
  | cons x a ih => intro b; cases b with
    | nil => simp [interleave]
    | cons y b => simp [interleave, ih]

/-- a column of integers -/
theorem colInts_same {v u : Val} {l : List Int} (hv : v.toInts = .ok l) (hf : FitsList v) (hs : SameVal v u) :
    colInts u = some l ∧ (∀ n ∈ l, (rjust (intStr n) 11).length = 11) ∧ l.length < 10 ^ 10 := by
  cases v with
  | lst xs =>
    cases u with
    | lst ys =>
      replace hs : xs.map PyNum.val = ys.map PyNum.val := hs
      have h := (mapM_ok_iff (f := fun x => (Val.num x).toInt)).1 hv
      have hx : xs.map (fun y => truncRat y.val) = l ∧ ∀ n ∈ l, ∃ y ∈ xs, y.val = n := by
        clear hs hf hv
        induction h with
        | nil => exact ⟨rfl, by simp⟩
        | @cons a b as bs h0 _ ih =>
          cases a with
          | num z => cases h0
          | int n =>
            cases h0
            refine ⟨by rw [List.map_cons, ih.1]; congr 1; exact truncRat_int b, fun m hm => ?_⟩
            rcases List.mem_cons.1 hm with rfl | hm
            · exact ⟨.int m, by simp, rfl⟩
            · obtain ⟨y, h1, h2⟩ := ih.2 m hm
              exact ⟨y, by simp [h1], h2⟩
      refine ⟨?_, fun n hn => ?_, ?_⟩
      · unfold colInts
        rw [← hx.1]
        have : (fun y : PyNum => truncRat y.val) = truncRat ∘ PyNum.val := rfl
        dsimp only
        rw [this, ← List.map_map, ← hs, List.map_map]
      · obtain ⟨y, hy, hyn⟩ := hx.2 n hn
        apply rjust_length_le
        rw [C02_fits_iff n 9]
        obtain ⟨h1, h2⟩ : -10 ^ 10 < y.val ∧ y.val < 10 ^ 11 := hf.1 y hy
        rw [hyn] at h1 h2
        have h1' : (-10 ^ 10 : Int) < n := by exact_mod_cast h1
        have h2' : n < (10 ^ 11 : Int) := by exact_mod_cast h2
        norm_num at h1' h2' ⊢
        omega
      · have := hf.2
        rwa [h.length_eq] at this
    | _ => exact absurd hs id
  | _ => exact absurd hf id

/-- a column of numbers -/
theorem colNums_same {v u : Val} {l : List Num} (hv : v.toNums = .ok l) (hk : KeptList v) (hs : SameVal v u) :
    ∃ ys : List PyNum, u = .lst ys ∧ l.length < 10 ^ 10 ∧
      List.Forall₂ (fun x u => ∃ v, KeptVal v ∧ v.toNum = .ok x ∧ SameVal v u) l (ys.map Val.num) := by
  cases v with
  | lst xs =>
    cases u with
    | lst ys =>
      replace hs : xs.map PyNum.val = ys.map PyNum.val := hs
      have h := (mapM_ok_iff (f := fun x => (Val.num x).toNum)).1 hv
      obtain ⟨hk, hl⟩ := hk
      refine ⟨ys, rfl, by rwa [h.length_eq] at hl, ?_⟩
      clear hl hv
      induction h generalizing ys with
      | nil => cases ys with
        | nil => exact .nil
        | cons y ys => cases hs
      | @cons a b as bs h0 _ ih => cases ys with
        | nil => cases hs
        | cons y ys =>
          simp only [List.map_cons, List.cons.injEq] at hs
          exact .cons ⟨.num a, hk a (by simp), h0, hs.1⟩ (ih ys hs.2 (fun z hz => hk z (by simp [hz])))
    | _ => exact absurd hs id
  | _ => exact absurd hk id

theorem mapM_fieldText (o : WOpts) (pres : Bool) (l : List PyNum) :
    (l.map PyNum.toNum).mapM (cppFloatField o pres) = (l.map Val.num).mapM (fieldText o pres 0) := by
  induction l with
  | nil => rfl
  | cons y l ih =>
    rw [List.map_cons, List.map_cons, List.mapM_cons, List.mapM_cons, ih]
    rfl

theorem contOf_length {vs : List Val} {c : Ctrl} {r : ContRec} (h : contOf vs c = .ok r) : vs.length = 6 := by
  unfold contOf at h
  split at h
  · rfl
  · cases h

theorem contOf_ctrl {vs : List Val} {c : Ctrl} {r : ContRec} (h : contOf vs c = .ok r) : r.ctrl = c := by
  unfold contOf at h
  split at h
  · simp only [bind_ok, pure_ok] at h
    obtain ⟨_, _, _, _, _, _, _, _, _, _, _, _, rfl⟩ := h
    rfl
  · cases h

theorem forall₂_replicate {α β : Type} {R : α → β → Prop} {a : α} {b : β} (k : Nat) (h : R a b) :
    List.Forall₂ R (List.replicate k a) (List.replicate k b) := by
  induction k with
  | zero => exact .nil
  | succ k ih => exact .cons h ih

theorem pyZero {o : WOpts} (ho : o.width = 11) (hp : o.preferNoexp = false) :
    ∃ z, float2fortstr o (.flt 0) = .ok z ∧ z.length = 11 ∧ ReadsAs z 0 := by
  obtain ⟨s, s', x, h1, h2, _, h3, h4, h5, h6⟩ := C75_partial o ho hp false 0 ((.inl rfl))
  obtain ⟨s₂, x₂, g1, g2, _, g3, _⟩ := C74_partial o false 0 ((.inl rfl))
  rw [h1] at g1
  cases g1
  have hx := g3 rfl
  have := h4 true
  rw [g2 true] at this
  cases this
  rw [hx] at h5 h6
  exact ⟨s', h2, h3, h5, fun r hr => by obtain ⟨_, y, _, a, _, b⟩ := h6 r hr; exact ⟨y, a, b⟩⟩

theorem fieldsAs_dSet {fs : Dict Nat Val} {j : Nat} {x : Val} : ∀ {i : Nat} {vs : List Val}, FieldsAs fs i vs → i + vs.length ≤ j →
    FieldsAs (dSet j x fs) i vs := by
  intro i vs
  induction vs generalizing i with
  | nil => intro _ _; trivial
  | cons v vs ih =>
    intro h hj
    rw [List.length_cons] at hj
    obtain ⟨⟨u, h1, h2⟩, h3⟩ := h
    exact ⟨⟨u, by rw [dGet_dSet_ne (by omega)]; exact h1, h2⟩, ih h3 (by omega)⟩

theorem fieldsAs_append {fs : Dict Nat Val} : ∀ {i : Nat} {vs ws : List Val}, FieldsAs fs i vs → FieldsAs fs (i + vs.length) ws →
    FieldsAs fs i (vs ++ ws) := by
  intro i vs
  induction vs generalizing i with
  | nil => intro ws _ h; exact h
  | cons v vs ih =>
    intro ws h h'
    refine ⟨h.1, ih h.2 ?_⟩
    rw [List.length_cons] at h'
    rwa [show i + 1 + vs.length = i + (vs.length + 1) by omega]

theorem fieldsOk_append : ∀ {i : Nat} {vs ws : List Val}, FieldsOk i vs → FieldsOk (i + vs.length) ws → FieldsOk i (vs ++ ws) := by
  intro i vs
  induction vs generalizing i with
  | nil => intro ws _ h; exact h
  | cons v vs ih =>
    intro ws h h'
    refine ⟨h.1, ih h.2 ?_⟩
    rw [List.length_cons] at h'
    rwa [show i + 1 + vs.length = i + (vs.length + 1) by omega]

theorem fitsVal_length {n : Nat} (h : n < 10 ^ 10) : FitsVal (.num (.int n)) := by
  refine ⟨?_, ?_⟩
  · have : (0 : ℚ) ≤ n := by positivity
    show (-10 ^ 10 : ℚ) < ((n : Int) : ℚ)
    push_cast
    linarith [show (0 : ℚ) < 10 ^ 10 by norm_num]
  · show ((n : Int) : ℚ) < 10 ^ 11
    have h' : (n : ℚ) < 10 ^ 10 := by exact_mod_cast h
    push_cast
    linarith [show (10 : ℚ) ^ 10 < 10 ^ 11 by norm_num]

theorem slice_left {a b : Str} {i j : Nat} (h : j ≤ a.length) : slice (a ++ b) i j = slice a i j := by
  unfold slice
  rw [List.take_append_of_le_length h]

/-- **C93** (partial) For records that say the same, such as those of `C90_partial`, the compiled function writes lines whenever the
interpreter does: as many, with the same control numbers, with fields that both parsers read as the same numbers, and with the same
integers in the integer fields of the first line.  The texts of the fields may differ (`C75_text_fails`).
Missing: option `prefer_noexp` and the numbers of `C74_fails`; numbers with their original text; empty LIST records, see
`C93_empty_list_fails`; the columns behind the control numbers (`C67`). -/
theorem C93_record_partial (o : WOpts) (ho : o.width = 11) (hp : o.preferNoexp = false) (zab : Bool) (r : ARec) (c : CRec) (h : RecAs r c)
    (hok : RecOk r) (ls : List Str) (hw : renderRec o zab r = .ok ls) (ln : Int) :
    ∃ ls' ln', c.lines o false ln = some (ls', ln') ∧ List.Forall₂ LineAs ls ls' ∧ FirstAs ls ls' := by
  obtain ⟨kind, flds, tbl, ctrl⟩ := r
  obtain ⟨hc, hok⟩ := hok
  dsimp only at hc hok
  have first : ∀ {l l' : Str} {t t' : List Str}, (∀ i, 2 ≤ i → i < 6 → intField 11 l i = intField 11 l' i) → FirstAs (l :: t) (l' :: t') := by
    intro l l' t t' h a b ha hb
    cases ha; cases hb; exact h
  cases c with
  | text hl k =>
    obtain ⟨h1, h2, t, h3, h4⟩ := h
    dsimp only at h1 h2 h3
    subst h1 h2 h3
    dsimp only at hok
    have h66 := hok t rfl
    obtain rfl := h4 h66
    cases hw
    obtain ⟨T, hT⟩ := prepare_form hc o.includeLinenum ln
    have e1 : ljust hl 66 = hl := by unfold ljust; rw [h66]; simp
    have e2 : hl ++ (cppPrepareLine o.includeLinenum ctrl ln).1.drop 66 = (hl ++ writeCtrl ctrl) ++ T := by
      rw [hT, List.drop_left' (by simp), List.append_assoc]
    have e3 : (hl ++ writeCtrl ctrl).length = 75 := by rw [List.length_append, h66, (writeCtrl_length_iff ctrl).2 hc]
    have e4 : ∀ i j, j ≤ 75 → slice (ljust hl (o.width * 6) ++ writeCtrl ctrl) i j =
        slice (hl ++ (cppPrepareLine o.includeLinenum ctrl ln).1.drop 66) i j := by
      intro i j hj
      rw [e2, slice_left (a := hl ++ writeCtrl ctrl) (by omega), ho, e1]
    have e5 : slice (hl ++ (cppPrepareLine o.includeLinenum ctrl ln).1.drop 66) 66 75 = writeCtrl ctrl := by
      rw [e2, slice_left (a := hl ++ writeCtrl ctrl) (by omega)]
      unfold slice
      rw [List.take_of_length_le (by omega), List.drop_left' h66]
    exact ⟨_, _, rfl, .cons (LineAs.mk' ((e4 66 75 (by omega)).trans e5) e5 fun i hi => by
      rw [e4 _ _ (by omega)]; exact ⟨.inl rfl, fun _ _ h => h⟩) .nil, first fun i h2 hi => by
      unfold intField; exact congrArg readFortInt (e4 _ _ (by omega))⟩
  | cont fs k =>
    obtain ⟨h1, h2⟩ := h
    dsimp only at h1 h2
    subst h1
    rcases h2 with ⟨h2 | h2, h3⟩ | ⟨h2, h3, h4, h5⟩
    · subst h2
      simp only [renderRec, bind_ok] at hw
      obtain ⟨rec, hr, hw⟩ := hw
      obtain ⟨l, l', ln', rfl, g1, g2, g3⟩ := head_same ho hp hc h3 hok hr hw ln
      exact ⟨[l'], ln', by simp only [CRec.lines, g1]; rfl, .cons g2 .nil, first g3⟩
    · subst h2
      simp only [renderRec, bind_ok] at hw
      obtain ⟨rec, hr, hw⟩ := hw
      obtain ⟨l, l', ln', rfl, g1, g2, g3⟩ := head_same ho hp hc h3 hok hr hw ln
      exact ⟨[l'], ln', by simp only [CRec.lines, g1]; rfl, .cons g2 .nil, first g3⟩
    · subst h2
      obtain ⟨v2, v3, v4, v5, rfl⟩ : ∃ v2 v3 v4 v5, flds = [v2, v3, v4, v5] := by
        unfold renderRec at hw
        split at hw <;> simp only [reduceCtorEq] at *
        exact ⟨_, _, _, _, ‹_›⟩
      simp only [renderRec, bind_ok, pure_ok] at hw
      obtain ⟨n2, i2, n3, i3, n4, i4, n5, i5, rfl⟩ := hw
      have toInt : ∀ {v : Val} {n : Int}, v.toInt = .ok n → v.toSlot = .ok (.int n) := by
        intro v n hv
        unfold Val.toInt at hv
        split at hv
        · cases hv; rfl
        · cases hv
      obtain ⟨⟨u2, d2, e2⟩, ⟨u3, d3, e3⟩, ⟨u4, d4, e4⟩, ⟨u5, d5, e5⟩, _⟩ := h3
      obtain ⟨o2, o3, o4, o5, _⟩ := hok
      norm_num at o2 o3 o4 o5 d2 d3 d4 d5
      obtain ⟨x2, y2⟩ := int_same (o := o) o2 e2 (toInt i2) rfl (j := 2) (by omega)
      obtain ⟨x3, y3⟩ := int_same (o := o) o3 e3 (toInt i3) rfl (j := 3) (by omega)
      obtain ⟨x4, y4⟩ := int_same (o := o) o4 e4 (toInt i4) rfl (j := 4) (by omega)
      obtain ⟨x5, y5⟩ := int_same (o := o) o5 e5 (toInt i5) rfl (j := 5) (by omega)
      obtain ⟨l', ln', H1, H2, H3, H4⟩ := headLine_slices o false hc fs ln (by
        intro j hj v hv
        interval_cases j
        · rw [h4] at hv; cases hv
        · rw [h5] at hv; cases hv
        · rw [d2] at hv; cases hv; exact ⟨_, x2, y2⟩
        · rw [d3] at hv; cases hv; exact ⟨_, x3, y3⟩
        · rw [d4] at hv; cases hv; exact ⟨_, x4, y4⟩
        · rw [d5] at hv; cases hv; exact ⟨_, x5, y5⟩)
      have E0 := H3 0 (by omega) h4
      have E1 := H3 1 (by omega) h5
      have E2 := H4 2 (by omega) _ d2; rw [x2, Option.some.injEq] at E2
      have E3 := H4 3 (by omega) _ d3; rw [x3, Option.some.injEq] at E3
      have E4 := H4 4 (by omega) _ d4; rw [x4, Option.some.injEq] at E4
      have E5 := H4 5 (by omega) _ d5; rw [x5, Option.some.injEq] at E5
      have hb : blank11.length = 11 := rfl
      obtain ⟨P1, P2⟩ := line_slices hc (fs := [blank11, blank11, rjust (intStr n2) 11, rjust (intStr n3) 11, rjust (intStr n4) 11, rjust (intStr n5) 11]) rfl
        (by intro f hf; simp only [List.mem_cons, List.not_mem_nil, or_false] at hf; rcases hf with rfl | rfl | rfl | rfl | rfl | rfl <;> assumption) []
      have hline : [blank11, blank11, rjust (intStr n2) 11, rjust (intStr n3) 11, rjust (intStr n4) 11, rjust (intStr n5) 11].flatten ++ (writeCtrl ctrl ++ []) =
          blanks o.width ++ blanks o.width ++ rjust (intStr n2) o.width ++ rjust (intStr n3) o.width ++ rjust (intStr n4) o.width ++
            rjust (intStr n5) o.width ++ writeCtrl ctrl := by
        rw [ho]; simp only [blank11, List.flatten_cons, List.flatten_nil, List.append_assoc, List.append_nil]
      rw [hline] at P1 P2
      refine ⟨[l'], ln', by simp only [CRec.lines, H1]; rfl, .cons (LineAs.mk' P1 H2 fun i hi => ?_) .nil, first fun i hi hi' => ?_⟩
      · suffices h : ∀ s s' : Str, s = s' → SameField s s' ∧ (2 ≤ i → SameInt s s') by
          apply h
          dsimp only
          interval_cases i
          · rw [P2 0 _ rfl, E0]
          · rw [P2 1 _ rfl, E1]
          · rw [P2 2 _ rfl, ← E2]
          · rw [P2 3 _ rfl, ← E3]
          · rw [P2 4 _ rfl, ← E4]
          · rw [P2 5 _ rfl, ← E5]
        rintro s _ rfl
        exact ⟨.inl rfl, fun _ _ h => h⟩
      · unfold intField
        have : i * 11 = 11 * i ∧ (i + 1) * 11 = 11 * i + 11 := by omega
        rw [this.1, this.2]
        dsimp only
        interval_cases i
        · rw [P2 2 _ rfl, ← E2]
        · rw [P2 3 _ rfl, ← E3]
        · rw [P2 4 _ rfl, ← E4]
        · rw [P2 5 _ rfl, ← E5]
  | tab1 fs nbt int xs ys k =>
    obtain ⟨h1, h2, h3, h4⟩ := h
    dsimp only at h1 h2 h3 h4
    subst h1 h2
    dsimp only at hok
    obtain ⟨hok1, hok2⟩ := hok
    cases h4 with
    | @cons a _ _ _ ha h4 => cases h4 with
      | @cons b _ _ _ hb h4 => cases h4 with
        | @cons x _ _ _ hx h4 => cases h4 with
          | @cons y _ _ _ hy h4 =>
            cases h4
            obtain ⟨fa, fb, fx, fy⟩ := hok2 a b x y rfl
            simp only [renderRec, bind_ok] at hw
            obtain ⟨rec, hrec, la, hla, lb, hlb, lx, hlx, ly, hly, hw⟩ := hw
            obtain ⟨ca1, ca2, ca3⟩ := colInts_same hla fa ha
            obtain ⟨cb1, cb2, cb3⟩ := colInts_same hlb fb hb
            obtain ⟨px, rfl, cx2, cx3⟩ := colNums_same hlx fx hx
            obtain ⟨py, rfl, cy2, cy3⟩ := colNums_same hly fy hy
            unfold writeTab1 at hw
            simp only [bind_ok] at hw
            obtain ⟨lh, hlh, hw⟩ := hw
            split at hw
            · cases hw
            rename_i hlen
            simp only [bind_ok, pure_ok] at hw
            obtain ⟨t1, ht1, t2, ht2, rfl⟩ := hw
            simp only [not_or, not_not] at hlen
            -- the first line
            have h4 : flds.length = 4 := by have := contOf_length hrec; simp at this; omega
            have hrec' : contOf (flds ++ [.num (.int lb.length), .num (.int px.length)]) ctrl =
                .ok { rec with n1 := .int la.length, n2 := .int lx.length } := by
              have hxl : lx.length = px.length := by have := cx3.length_eq; simpa using this
              rw [hlen.1, hxl]
              obtain ⟨v0, v1, v2, v3, rfl⟩ : ∃ v0 v1 v2 v3, flds = [v0, v1, v2, v3] := by
                match flds, h4 with
                | [v0, v1, v2, v3], _ => exact ⟨_, _, _, _, rfl⟩
              simp only [contOf, List.cons_append, List.nil_append, bind_ok, pure_ok] at hrec ⊢
              obtain ⟨w0, g0, w1, g1, w2, g2, w3, g3, w4, g4, w5, g5, rfl⟩ := hrec
              exact ⟨w0, g0, w1, g1, w2, g2, w3, g3, _, rfl, _, rfl, rfl⟩
            have hF : FieldsAs (dSet 5 (.num (.int px.length)) (dSet 4 (.num (.int lb.length)) fs)) 0
                (flds ++ [.num (.int lb.length), .num (.int px.length)]) := by
              refine fieldsAs_append (fieldsAs_dSet (fieldsAs_dSet h3 (by omega)) (by omega)) ?_
              rw [h4]
              refine ⟨⟨.num (.int lb.length), by rw [dGet_dSet_ne (by omega), dGet_dSet_self], rfl⟩, ⟨.num (.int px.length), by rw [dGet_dSet_self], rfl⟩, trivial⟩
            have hO : FieldsOk 0 (flds ++ [.num (.int lb.length), .num (.int px.length)]) := by
              refine fieldsOk_append hok1 ?_
              rw [h4]
              have hxl : lx.length = px.length := by have := cx3.length_eq; simpa using this
              refine ⟨?_, ?_, trivial⟩
              · rw [if_neg (by omega)]; exact fitsVal_length cb3
              · rw [if_neg (by omega)]; exact fitsVal_length (by omega)
            obtain ⟨l, l', ln1, rfl, g1, g2, g3⟩ := head_same ho hp hc hF hO hrec' hlh ln
            -- the body
            rw [writeInts_fields, ho] at ht1
            have hi1 : ∀ f ∈ (interleave la lb).map fun v => rjust (intStr v) 11, f.length = 11 := by
              intro f hf
              rw [List.mem_map] at hf
              obtain ⟨n, hn, rfl⟩ := hf
              rcases interleave_mem _ _ hn with h | h
              · exact ca2 n h
              · exact cb2 n h
            obtain ⟨hne1, sh1⟩ := body_shows hc hi1 ht1
            have sh1' := fill_shows o.includeLinenum hc hi1 hne1 ln1
            have hil := interleave_forall₂ cx3 cy3
            rw [interleave_map'] at hil
            obtain ⟨ff, ff', b1, b2, b3, b4, b5⟩ := floats_same ho hp hil
            rw [writeNumbers_fields b1, ho] at ht2
            obtain ⟨hne2, sh2⟩ := body_shows hc b3 ht2
            have hne2' : ff' ≠ [] := by intro e; rw [e] at b5; cases b5; exact hne2 rfl
            have sh2' := fill_shows o.includeLinenum hc b4 hne2' (cppFill o.includeLinenum ctrl ((interleave la lb).map cppIntText) ln1).2
            have hbody : List.Forall₂ LineAs ((t1 ++ t2).map (· ++ writeCtrl ctrl))
                ((cppFill o.includeLinenum ctrl ((interleave la lb).map cppIntText) ln1).1 ++ (cppFill o.includeLinenum ctrl ff'
                  (cppFill o.includeLinenum ctrl ((interleave la lb).map cppIntText) ln1).2).1) := by
              rw [List.map_append]
              exact List.rel_append (shows_same (chunks_texts (List.forall₂_same.2 fun _ _ => SameText.rfl')) sh1 sh1') (shows_same (chunks_texts b5) sh2 sh2')
            rw [contOf_ctrl hrec]
            refine ⟨_, (cppFill o.includeLinenum ctrl ff' (cppFill o.includeLinenum ctrl ((interleave la lb).map cppIntText) ln1).2).2,
              ?_, .cons g2 hbody, first g3⟩
            have hn : (interleave (px.map PyNum.toNum) (py.map PyNum.toNum)).mapM (cppFloatField o false) = some ff' := by
              rw [interleave_map', mapM_fieldText, b2]
            simp only [CRec.lines, ca1, cb1, colNums, Option.bind_eq_bind, Option.bind_some, List.length_map, g1, cppWriteTab1, hn]
            rfl
  | tab2 fs nbt int k =>
    obtain ⟨h1, h2, h3, h3', h4⟩ := h
    dsimp only at h1 h2 h3 h3' h4
    subst h1 h2
    dsimp only at hok
    obtain ⟨hok1, hok1', hok2⟩ := hok
    cases h4 with
    | @cons a _ _ _ ha h4 => cases h4 with
      | @cons b _ _ _ hb h4 =>
        cases h4
        obtain ⟨fa, fb⟩ := hok2 a b rfl
        simp only [renderRec, bind_ok] at hw
        obtain ⟨rec, hrec, la, hla, lb, hlb, hw⟩ := hw
        obtain ⟨ca1, ca2, ca3⟩ := colInts_same hla fa ha
        obtain ⟨cb1, cb2, cb3⟩ := colInts_same hlb fb hb
        unfold writeTab2 at hw
        split at hw
        · cases hw
        rename_i hlen
        simp only [bind_ok, pure_ok, not_not] at hw hlen
        obtain ⟨lh, hlh, t1, ht1, rfl⟩ := hw
        have h5 : flds.length = 5 := by have := contOf_length hrec; simp at this; omega
        obtain ⟨v0, v1, v2, v3, v5, rfl⟩ : ∃ v0 v1 v2 v3 v5, flds = [v0, v1, v2, v3, v5] := by
          match flds, h5 with
          | [v0, v1, v2, v3, v5], _ => exact ⟨_, _, _, _, _, rfl⟩
        simp only [List.take_succ_cons, List.take_zero, List.drop_succ_cons, List.drop_zero, List.cons_append, List.nil_append] at hrec h3 h3' hok1 hok1'
        have hrec' : contOf [v0, v1, v2, v3, .num (.int lb.length), v5] ctrl = .ok { rec with n1 := .int la.length } := by
          rw [hlen]
          simp only [contOf, bind_ok, pure_ok] at hrec ⊢
          obtain ⟨w0, g0, w1, g1, w2, g2, w3, g3, w4, g4, w5, g5, rfl⟩ := hrec
          exact ⟨w0, g0, w1, g1, w2, g2, w3, g3, _, rfl, w5, g5, rfl⟩
        have hF : FieldsAs (dSet 4 (.num (.int lb.length)) fs) 0 ([v0, v1, v2, v3] ++ [.num (.int lb.length), v5]) := by
          refine fieldsAs_append (fieldsAs_dSet h3 (by simp)) ⟨⟨_, dGet_dSet_self _ _ _, rfl⟩, ?_, trivial⟩
          obtain ⟨⟨u, e1, e2⟩, _⟩ := h3'
          exact ⟨u, by rw [dGet_dSet_ne (by simp)]; exact e1, e2⟩
        have hO : FieldsOk 0 ([v0, v1, v2, v3] ++ [.num (.int lb.length), v5]) :=
          fieldsOk_append hok1 ⟨by simpa using fitsVal_length cb3, hok1'.1, trivial⟩
        obtain ⟨l, l', ln1, rfl, g1, g2, g3⟩ := head_same ho hp hc hF hO hrec' hlh ln
        rw [writeInts_fields, ho] at ht1
        have hi1 : ∀ f ∈ (interleave la lb).map fun v => rjust (intStr v) 11, f.length = 11 := by
          intro f hf
          rw [List.mem_map] at hf
          obtain ⟨n, hn, rfl⟩ := hf
          rcases interleave_mem _ _ hn with h | h
          · exact ca2 n h
          · exact cb2 n h
        obtain ⟨hne1, sh1⟩ := body_shows hc hi1 ht1
        have sh1' := fill_shows o.includeLinenum hc hi1 hne1 ln1
        have hbody := shows_same (chunks_texts (List.forall₂_same.2 fun _ _ => SameText.rfl')) sh1 sh1'
        rw [contOf_ctrl hrec]
        refine ⟨_, (cppFill o.includeLinenum ctrl ((interleave la lb).map cppIntText) ln1).2, ?_, .cons g2 hbody, first g3⟩
        simp only [CRec.lines, ca1, cb1, Option.bind_eq_bind, Option.bind_some, g1, cppWriteTab2]
        rfl
  | list fs vals k =>
    obtain ⟨h1, h2, h3, l, h4, h5⟩ := h
    dsimp only at h1 h2 h3 h4
    subst h1 h2 h4
    dsimp only at hok
    obtain ⟨hok1, hok2⟩ := hok
    obtain ⟨kl, hnil⟩ := hok2 _ rfl
    simp only [renderRec, bind_ok] at hw
    obtain ⟨rec, hrec, xs, hxs, hw⟩ := hw
    have hx := (mapM_ok_iff (f := fun x => (Val.num x).toNum)).1 hxs
    have hx' : List.Forall₂ (fun x u => ∃ v, KeptVal v ∧ v.toNum = .ok x ∧ SameVal v u) xs vals := by
      replace kl := kl.1
      clear hnil hok2 hxs hw
      induction hx generalizing vals with
      | nil => cases h5; exact .nil
      | @cons a b as bs h0 _ ih => cases h5 with
        | cons h5 h6 => exact .cons ⟨_, kl a (by simp), h0, h5⟩ (ih _ h6 fun y hy => kl y (by simp [hy]))
    have hxne : xs ≠ [] := by
      rintro rfl
      cases hx
      exact hnil rfl
    unfold writeList at hw
    dsimp only at hw
    split at hw
    · cases hw
    split at hw
    · cases hw
    simp only [bind_ok, pure_ok] at hw
    obtain ⟨lh, hlh, body, hb, rfl⟩ := hw
    obtain ⟨l, l', ln1, rfl, g1, g2, g3⟩ := head_same ho hp hc h3 hok1 hrec hlh ln
    obtain ⟨ff, ff', b1, b2, b3, b4, b5⟩ := floats_same ho hp hx'
    have hfl : ff.length = xs.length := b1.length_eq.symm
    have hffne : ff ≠ [] := by rintro rfl; cases b1; exact hxne rfl
    have hne2' : ff' ≠ [] := by intro e; rw [e] at b5; cases b5; exact hffne rfl
    obtain ⟨z, z1, z2, z3⟩ := pyZero ho hp
    have hb' : ∃ k, k ≤ (6 - ff.length % 6) % 6 ∧ writeNumbers o (xs ++ List.replicate k (.flt 0)) = .ok body := by
      unfold listBody at hb
      rw [if_neg (by simpa using hxne)] at hb
      split at hb
      · split at hb
        · exact ⟨_, by rw [hfl]; omega, hb⟩
        · cases hb
      · exact ⟨0, by omega, by simpa using hb⟩
    obtain ⟨k, hk, hb⟩ := hb'
    rw [writeNumbers_fields (List.rel_append b1 (forall₂_replicate k z1)), ho] at hb
    obtain ⟨_, sh⟩ := body_shows hc (fun f hf => by
      rcases List.mem_append.1 hf with h | h
      · exact b3 f h
      · rw [(List.mem_replicate.1 h).2]; exact z2) hb
    have sh' := fill_shows o.includeLinenum hc b4 hne2' ln1
    have hbody := shows_same (chunks_padded z3 (readFortInt_float ho hp z1) ff ff' b5 k hffne hk) sh sh'
    rw [contOf_ctrl hrec]
    refine ⟨_, (cppFill o.includeLinenum ctrl ff' ln1).2, ?_, .cons g2 hbody, first g3⟩
    simp only [CRec.lines, Option.bind_eq_bind, Option.bind_some, g1, b2]
    rfl
  | send k =>
    obtain ⟨h1, h2⟩ := h
    dsimp only at h1 h2
    subst h1 h2
    have hc0 : FitsCtrl ctrl.mat ctrl.mf 0 := ⟨hc.1, hc.2.1, by decide⟩
    obtain ⟨z, t, z1, z2, z3, z4, z5⟩ := cppSend_form o false hc0
    have li : (cppIntText 0).length = 11 := by decide +kernel
    obtain ⟨Q1, Q2⟩ := line_slices (c := ⟨ctrl.mat, ctrl.mf, 0⟩) hc0 (fs := [z, z, cppIntText 0, cppIntText 0, cppIntText 0, cppIntText 0]) rfl
      (by intro f hf; simp only [List.mem_cons, List.not_mem_nil, or_false] at hf; rcases hf with rfl | rfl | rfl | rfl | rfl | rfl <;> assumption) t
    have hl' : cppSend o false ctrl.mat ctrl.mf = some ([z, z, cppIntText 0, cppIntText 0, cppIntText 0, cppIntText 0].flatten ++
        (writeCtrl ⟨ctrl.mat, ctrl.mf, 0⟩ ++ t)) := by
      rw [z5]
      simp only [writeCtrl, List.flatten_cons, List.flatten_nil, List.append_assoc, List.append_nil]
    -- the line of the interpreter
    obtain ⟨p, q, p1, q1, p2, q2, q3, hz⟩ : ∃ p q, p.length = 11 ∧ q.length = 11 ∧ ReadsAs p 0 ∧ ReadsAs q 0 ∧ readFortInt q = readFortInt (cppIntText 0) ∧
        zeroFields o zab = .ok [p, p, q, q, q, q].flatten := by
      unfold zeroFields
      cases zab with
      | true =>
        refine ⟨blank11, blank11, rfl, rfl, readsAs_blank, readsAs_blank, by decide +kernel, ?_⟩
        rw [ho]
        rfl
      | false =>
        obtain ⟨p, e1, e2, e3⟩ := pyZero ho hp
        refine ⟨p, rjust ['0'] 11, e2, by decide, e3, reads_int0, by decide +kernel, ?_⟩
        simp only [Bool.false_eq_true, if_false, e1, ho]
        simp [bind, Except.bind, pure, Except.pure]
    simp only [renderRec, writeSend, bind_ok, pure_ok] at hw
    obtain ⟨zf, hzf, rfl⟩ := hw
    rw [hz] at hzf
    cases hzf
    generalize (if o.includeLinenum then "99999".toList else []) = tl
    obtain ⟨P1, P2⟩ := line_slices (c := { ctrl with mt := 0 }) hc0 (fs := [p, p, q, q, q, q]) rfl
      (by intro f hf; simp only [List.mem_cons, List.not_mem_nil, or_false] at hf; rcases hf with rfl | rfl | rfl | rfl | rfl | rfl <;> assumption) tl
    have rz : ReadsAs z 0 := reads_plain z1 z2 z4
    have ri : ReadsAs (cppIntText 0) 0 := reads_int0
    refine ⟨_, _, by simp only [CRec.lines, hl']; rfl, .cons (LineAs.mk' (by rw [List.append_assoc]; exact P1) Q1 fun i hi => ⟨.inr ⟨0, ?_⟩, fun h2 n => ?_⟩) .nil, first fun i hi hi' => ?_⟩
    · rw [List.append_assoc]
      interval_cases i
      · rw [P2 0 _ rfl, Q2 0 _ rfl]; exact ⟨p2, rz⟩
      · rw [P2 1 _ rfl, Q2 1 _ rfl]; exact ⟨p2, rz⟩
      · rw [P2 2 _ rfl, Q2 2 _ rfl]; exact ⟨q2, ri⟩
      · rw [P2 3 _ rfl, Q2 3 _ rfl]; exact ⟨q2, ri⟩
      · rw [P2 4 _ rfl, Q2 4 _ rfl]; exact ⟨q2, ri⟩
      · rw [P2 5 _ rfl, Q2 5 _ rfl]; exact ⟨q2, ri⟩
    · rw [List.append_assoc]
      interval_cases i
      · rw [P2 2 _ rfl, Q2 2 _ rfl, q3]; exact id
      · rw [P2 3 _ rfl, Q2 3 _ rfl, q3]; exact id
      · rw [P2 4 _ rfl, Q2 4 _ rfl, q3]; exact id
      · rw [P2 5 _ rfl, Q2 5 _ rfl, q3]; exact id
    · unfold intField
      have : i * 11 = 11 * i ∧ (i + 1) * 11 = 11 * i + 11 := by omega
      rw [this.1, this.2, List.append_assoc]
      interval_cases i
      · rw [P2 2 _ rfl, Q2 2 _ rfl, q3]
      · rw [P2 3 _ rfl, Q2 3 _ rfl, q3]
      · rw [P2 4 _ rfl, Q2 4 _ rfl, q3]
      · rw [P2 5 _ rfl, Q2 5 _ rfl, q3]

/-! ### sections -/

theorem lines_same {o : WOpts} (ho : o.width = 11) (hp : o.preferNoexp = false) (zab : Bool) {rs : List ARec} {cs : List CRec}
    (h : List.Forall₂ RecAs rs cs) : (∀ r ∈ rs, RecOk r) → ∀ lss, rs.mapM (renderRec o zab) = .ok lss → ∀ ln,
    ∃ ls', recLines o false ln cs = some ls' ∧ List.Forall₂ LineAs lss.flatten ls' := by
  induction h with
  | nil =>
    intro _ lss hl ln
    cases hl
    exact ⟨[], rfl, .nil⟩
  | cons h0 _ ih =>
    intro hok lss hl ln
    rw [List.mapM_cons] at hl
    simp only [bind_ok, pure_ok] at hl
    obtain ⟨l, h1, lss, h2, rfl⟩ := hl
    obtain ⟨a, ln', a1, a2, _⟩ := C93_record_partial o ho hp zab _ _ h0 (hok _ (by simp)) l h1 ln
    obtain ⟨b, b1, b2⟩ := ih (fun r hr => hok r (by simp [hr])) lss h2 ln'
    refine ⟨a ++ b, ?_, by rw [List.flatten_cons]; exact List.rel_append a2 b2⟩
    simp only [recLines, a1, b1, Option.bind_eq_bind, Option.bind_some]
    rfl

/-- **C93** (partial) Sections as in `C90_partial`: if the interpreter writes its lines, and all numbers fit into the columns, the
compiled function writes as many lines, with the same control numbers and with fields that both parsers read as the same numbers. -/
theorem C93_partial (o : WOpts) (ho : o.width = 11) (hp : o.preferNoexp = false) (zab : Bool)
    (depth : Nat) (p : Prog) (code : Code) (defs : List VKey) (hcomp : compile depth p = some (code, defs))
    (hok : writeOk depth code defs = true) (hwf : WF p) (htx : plainTexts p = true) (fuel fuel' : Nat) (mf mt : Int) (omt : Option Int)
    (hmt : omt = some mt ∨ omt = none) (d : DDic) (hd : Clean (.dic d)) (k : Ctrl) (hC : CtrlAll k (numbered mf mt d))
    (hU : Unshadowed (looked p) (numbered mf mt d)) (hP : Positive (starts p) (numbered mf mt d)) (w : WSt) (v : WFun)
    (hpy : writeSection fuel mf mt p d = .ok w) (hcpp : writeFun fuel' mf omt code defs d = .ok v) (hrec : ∀ r ∈ w.out, RecOk r)
    (ls : List Str) (c : Ctrl) (hls : sectionLines fuel o zab mf mt p d = .ok (ls, c)) (ln : Int) :
    ∃ ls', recLines o false ln v.out = some ls' ∧ List.Forall₂ LineAs ls ls' := by
  have h := C90_partial depth p code defs hcomp hok hwf htx fuel fuel' mf mt omt hmt d hd k hC hU hP w v hpy hcpp
  unfold sectionLines at hls
  rw [hpy] at hls
  simp only [bind_ok, pure_ok] at hls
  obtain ⟨_, hw, lss, h1, _, _, h2⟩ := hls
  cases hw
  cases h2
  exact lines_same ho hp zab h hrec lss h1 ln

/-! ### reading these lines -/

theorem slice_inner {l l' : Str} {a b : Nat} (h : slice l a b = slice l' a b) (i j : Nat) (hj : a + j ≤ b) :
    slice l (a + i) (a + j) = slice l' (a + i) (a + j) := by
  have e : ∀ s : Str, slice s (a + i) (a + j) = slice (slice s a b) i j := by
    intro s
    unfold slice
    rw [List.take_drop, List.drop_drop, List.take_take, Nat.min_eq_left hj]
  rw [e, e, h]

theorem lineCtrl_same {l l' : Str} (h : LineAs l l') : readCtrl 11 l = readCtrl 11 l' := by
  unfold readCtrl
  have h1 := slice_inner h.1 0 4 (by omega)
  have h2 := slice_inner h.1 4 6 (by omega)
  have h3 := slice_inner h.1 6 9 (by omega)
  simp only [Nat.add_zero] at h1
  dsimp only
  rw [h1, h2, h3]

theorem readFloat_same {s s' : Str} (h : SameField s s') {r : ROpts} (hr : r.width = 11) {x : Num} (hx : readFloat r s = .ok x) :
    ∃ x', readFloat r s' = .ok x' ∧ x'.val = x.val := by
  rcases h with rfl | ⟨v, h1, h2⟩
  · exact ⟨x, hx, rfl⟩
  · obtain ⟨y, a, b⟩ := h1.2 r hr
    obtain ⟨y', a', b'⟩ := h2.2 r hr
    rw [hx] at a
    cases a
    exact ⟨y', a', by rw [b', b]⟩

/-- The first line of a record: the interpreter reads the same CONT record from the lines of the compiled function. -/
theorem C93_read_cont (r : ROpts) (hr : r.width = 11) (ls ls' : List Str) (h : List.Forall₂ LineAs ls ls') (hf : FirstAs ls ls') (x : ContRec) (n : Nat)
    (hx : readCont r ls 0 = .ok (x, n)) : ∃ x', readCont r ls' 0 = .ok (x', n) ∧ x'.c1.val = x.c1.val ∧ x'.c2.val = x.c2.val ∧
      x'.l1 = x.l1 ∧ x'.l2 = x.l2 ∧ x'.n1 = x.n1 ∧ x'.n2 = x.n2 ∧ x'.ctrl = x.ctrl := by
  cases h with
  | nil => cases hx
  | @cons l l' t t' h0 _ =>
    have hf := hf l l' rfl rfl
    unfold readCont at hx ⊢
    rw [hr] at hx ⊢
    simp only [bind_ok, pure_ok, lineAt, List.getElem?_cons_zero, Except.ok.injEq, exists_eq_left', Nat.reduceMul, Prod.mk.injEq] at hx ⊢
    obtain ⟨c1, e1, c2, e2, l1, e3, l2, e4, n1, e5, n2, e6, c, e7, rfl, rfl⟩ := hx
    obtain ⟨c1', g1, v1⟩ := readFloat_same (h0.2.1 0 (by omega)) hr e1
    obtain ⟨c2', g2, v2⟩ := readFloat_same (h0.2.1 1 (by omega)) hr e2
    rw [hf 2 (by omega) (by omega)] at e3
    rw [hf 3 (by omega) (by omega)] at e4
    rw [hf 4 (by omega) (by omega)] at e5
    rw [hf 5 (by omega) (by omega)] at e6
    rw [lineCtrl_same h0] at e7
    exact ⟨_, ⟨c1', g1, c2', g2, l1, e3, l2, e4, n1, e5, n2, e6, c, e7, rfl, rfl⟩, v1, v2, rfl, rfl, rfl, rfl, rfl⟩

theorem readFloats_same {l l' : Str} (h : LineAs l l') {r : ROpts} (hr : r.width = 11) {n : Nat} (hn : n ≤ 6) {xs : List Num}
    (hx : readFortFloats r l n = .ok xs) : ∃ xs', readFortFloats r l' n = .ok xs' ∧ xs'.map Num.val = xs.map Num.val := by
  unfold readFortFloats at hx ⊢
  have hi : ∀ i ∈ List.range n, i < 6 := fun i hi => by have := List.mem_range.1 hi; omega
  generalize List.range n = is at *
  rw [hr] at hx ⊢
  induction is generalizing xs with
  | nil => cases hx; exact ⟨[], rfl, rfl⟩
  | cons i is ih =>
    rw [List.mapM_cons] at hx
    simp only [bind_ok, pure_ok] at hx
    obtain ⟨x, h1, xs, h2, rfl⟩ := hx
    obtain ⟨xs', g1, g2⟩ := ih h2 (fun j hj => hi j (by simp [hj]))
    have h0 := h.2.1 i (hi i (by simp))
    rw [Nat.mul_comm] at h0
    obtain ⟨x', e1, e2⟩ := readFloat_same h0 hr h1
    refine ⟨x' :: xs', ?_, by simp [e2, g2]⟩
    rw [List.mapM_cons, e1, g1]
    rfl

/-- The lines of a table or a list: the interpreter reads the same numbers from the lines of the compiled function. -/
theorem C93_read_numbers (r : ROpts) (hr : r.width = 11) (ls ls' : List Str) (h : List.Forall₂ LineAs ls ls') (num ofs n : Nat) (xs : List Num)
    (hx : readNumbers r ls num ofs = .ok (xs, n)) : ∃ xs', readNumbers r ls' num ofs = .ok (xs', n) ∧ xs'.map Num.val = xs.map Num.val := by
  induction num using Nat.strong_induction_on generalizing ofs n xs with
  | _ num ih =>
    rw [readNumbers] at hx ⊢
    split at hx
    · rename_i h0
      cases hx
      exact ⟨[], by rw [if_pos h0], rfl⟩
    rename_i h0
    rw [if_neg h0]
    simp only [bind_ok, pure_ok] at hx
    obtain ⟨l, hl, vs, hv, ⟨rest, n'⟩, hrest, hx⟩ := hx
    cases hx
    have hl' : ∃ l', lineAt ls' ofs = .ok l' ∧ LineAs l l' := by
      unfold lineAt at hl ⊢
      cases hls : ls[ofs]? with
      | none => rw [hls] at hl; cases hl
      | some a =>
        rw [hls] at hl
        cases hl
        obtain ⟨hlt, he⟩ := List.getElem?_eq_some_iff.1 hls
        have hlt' : ofs < ls'.length := by rw [← h.length_eq]; exact hlt
        refine ⟨ls'[ofs], by rw [List.getElem?_eq_getElem hlt'], ?_⟩
        have := (List.forall₂_iff_get.1 h).2 ofs hlt hlt'
        simp only [List.get_eq_getElem] at this
        rwa [he] at this
    obtain ⟨l', hl', hs⟩ := hl'
    obtain ⟨vs', g1, g2⟩ := readFloats_same hs hr (by omega) hv
    obtain ⟨rest', g3, g4⟩ := ih (num - 6) (by omega) (ofs + 1) n' rest hrest
    refine ⟨vs' ++ rest', ?_, by simp [g2, g4]⟩
    simp only [bind_ok, pure_ok]
    exact ⟨l', hl', vs', g1, (rest', n'), g3, rfl⟩

/-! ### examples -/

def keptB (q : ℚ) : Bool := decide (q = 0) || decide ((10 : ℚ) ^ (-99 : Int) ≤ |q|) && decide (|q| < (10 : ℚ) ^ (99 : Int))

theorem keptB_ok {q : ℚ} (h : keptB q = true) : KeptNum q := by
  unfold keptB at h
  rw [Bool.or_eq_true, Bool.and_eq_true] at h
  rcases h with h | ⟨h1, h2⟩
  · exact .inl (of_decide_eq_true h)
  · exact keptNum_of_bounds (of_decide_eq_true h1) (of_decide_eq_true h2)

def keptValB : Val → Bool
  | .num (.int n) => keptB n
  | .num (.num (.flt q)) => keptB q
  | _ => false

theorem keptValB_ok {v : Val} (h : keptValB v = true) : KeptVal v := by
  unfold keptValB at h
  split at h
  · exact keptB_ok h
  · exact keptB_ok h
  · cases h

def fitsValB : Val → Bool
  | .num y => decide (-10 ^ 10 < y.val) && decide (y.val < 10 ^ 11)
  | _ => false

theorem fitsValB_ok {v : Val} (h : fitsValB v = true) : FitsVal v := by
  unfold fitsValB at h
  split at h
  · rw [Bool.and_eq_true] at h
    exact ⟨of_decide_eq_true h.1, of_decide_eq_true h.2⟩
  · cases h

def listB (f : Val → Bool) : Val → Bool
  | .lst l => l.all (fun y => f (.num y)) && decide (l.length < 10 ^ 10)
  | _ => false

theorem listB_kept {v : Val} (h : listB keptValB v = true) : KeptList v := by
  unfold listB at h
  split at h
  · rw [Bool.and_eq_true, List.all_eq_true] at h
    exact ⟨fun y hy => keptValB_ok (h.1 y hy), of_decide_eq_true h.2⟩
  · cases h

theorem listB_fits {v : Val} (h : listB fitsValB v = true) : FitsList v := by
  unfold listB at h
  split at h
  · rw [Bool.and_eq_true, List.all_eq_true] at h
    exact ⟨fun y hy => fitsValB_ok (h.1 y hy), of_decide_eq_true h.2⟩
  · cases h

def fieldsB : Nat → List Val → Bool
  | _, [] => true
  | i, v :: vs => (if i < 2 then keptValB v else fitsValB v) && fieldsB (i + 1) vs

theorem fieldsB_ok {vs : List Val} : ∀ {i : Nat}, fieldsB i vs = true → FieldsOk i vs := by
  induction vs with
  | nil => intro i _; trivial
  | cons v vs ih =>
    intro i h
    rw [fieldsB, Bool.and_eq_true] at h
    refine ⟨?_, ih h.2⟩
    have h1 := h.1
    split at h1
    · rename_i hi; rw [if_pos hi]; exact keptValB_ok h1
    · rename_i hi; rw [if_neg hi]; exact fitsValB_ok h1

/-- a check of `RecOk` for the records of the examples -/
def recB (r : ARec) : Bool :=
  decide ((-1000 < r.ctrl.mat ∧ r.ctrl.mat < 10000) ∧ (-10 < r.ctrl.mf ∧ r.ctrl.mf < 100) ∧ (-100 < r.ctrl.mt ∧ r.ctrl.mt < 1000)) &&
  match r.kind, r.flds, r.tbl with
  | .head, vs, _ | .cont, vs, _ => fieldsB 0 vs
  | .dir, vs, _ => fieldsB 2 vs
  | .text, [.txt t], _ => decide (t.length = 66)
  | .tab1, vs, [a, b, x, y] => fieldsB 0 vs && listB fitsValB a && listB fitsValB b && listB keptValB x && listB keptValB y
  | .tab2, vs, [a, b] => fieldsB 0 (vs.take 4) && fieldsB 5 (vs.drop 4) && listB fitsValB a && listB fitsValB b
  | .list, vs, [.lst l] => fieldsB 0 vs && listB keptValB (.lst l) && !l.isEmpty
  | .send, _, _ => true
  | _, _, _ => false

theorem recB_ok {r : ARec} (h : recB r = true) : RecOk r := by
  obtain ⟨kind, flds, tbl, ctrl⟩ := r
  unfold recB at h
  rw [Bool.and_eq_true] at h
  refine ⟨by have := h.1; simpa only [decide_eq_true_eq, FitsCtrl] using this, ?_⟩
  have h := h.2
  dsimp only at h ⊢
  split at h <;> simp only [Bool.and_eq_true, reduceCtorEq, Bool.not_eq_true', Bool.false_eq_true] at h ⊢
  · exact fieldsB_ok h
  · exact fieldsB_ok h
  · exact fieldsB_ok h
  · intro t e
    cases e
    exact of_decide_eq_true h
  · obtain ⟨⟨⟨⟨h0, h1⟩, h2⟩, h3⟩, h4⟩ := h
    refine ⟨fieldsB_ok h0, fun a b x y e => ?_⟩
    simp only [List.cons.injEq, and_true] at e
    obtain ⟨rfl, rfl, rfl, rfl⟩ := e
    exact ⟨listB_fits h1, listB_fits h2, listB_kept h3, listB_kept h4⟩
  · obtain ⟨⟨⟨h0, h1⟩, h2⟩, h3⟩ := h
    refine ⟨fieldsB_ok h0, fieldsB_ok h1, fun a b e => ?_⟩
    simp only [List.cons.injEq, and_true] at e
    obtain ⟨rfl, rfl⟩ := e
    exact ⟨listB_fits h2, listB_fits h3⟩
  · obtain ⟨⟨h0, h1⟩, h2⟩ := h
    refine ⟨fieldsB_ok h0, fun x e => ?_⟩
    simp only [List.cons.injEq, and_true] at e
    subst e
    refine ⟨listB_kept h1, ?_⟩
    rintro ⟨⟩
    cases h2

open FunEx CF in
/-- the hypotheses of `C93_partial` are met by the data with two subsections, with a table and a list in each of them -/
example : ∃ w v ls c ls', writeSection 100 2 99 recipe data = .ok w ∧ cppWrite recipe data = some (.ok v) ∧
    sectionLines 100 { strictDatatypes := false } false 2 99 recipe data = .ok (ls, c) ∧ recLines { strictDatatypes := false } false 0 v.out = some ls' ∧ List.Forall₂ LineAs ls ls' ∧ ls.length = 14 := by
  obtain ⟨w, v, h1, h2, h3⟩ := bothWrite_ok (p := recipe) (d := data) (f := fun w _ => w.all recB) (by decide +kernel)
  have hs : (match sectionLines 100 { strictDatatypes := false } false 2 99 recipe data with
    | .ok (ls, _) => decide (ls.length = 14)
    | .error _ => false) = true := by decide +kernel
  have hall : writable recipe data = true := by decide +kernel
  simp only [writable, Bool.and_eq_true] at hall
  obtain ⟨⟨⟨⟨⟨hok, htx⟩, hcl⟩, hC⟩, hU⟩, hP⟩ := hall
  have h2' := h2
  unfold cppWrite at h2
  split at hs
  swap
  · cases hs
  rename_i ls c hls
  cases hc : compile 9 recipe with
  | none => rw [hc] at hok; cases hok
  | some x =>
    obtain ⟨code, defs⟩ := x
    rw [hc] at hok h2
    simp only [Option.map_some, Option.some.injEq] at h2
    obtain ⟨ls', g1, g2⟩ := C93_partial { strictDatatypes := false } rfl rfl false 9 recipe code defs hc hok (by simp [recipe, WF, ActWF]) htx 100 100 2 99 (some 99) (.inl rfl) data (cleanB_ok hcl) _ (ctrlAllB_ok hC)
      (unshadowedB_ok hU) (positiveB_ok hP) w v h1 h2 (fun r hr => recB_ok (List.all_eq_true.1 h3 r hr)) ls c hls 0
    exact ⟨w, v, ls, c, ls', h1, h2', hls, g1, g2, of_decide_eq_true hs⟩

/-! ### differences -/

namespace FunEx

/-- the lines both write -/
def bothLines (p : Prog) (d : DDic) (f : List Str → List Str → Bool) : Bool :=
  match cppWrite p d, sectionLines 100 { strictDatatypes := false } false 2 99 p d with
  | some (.ok v), .ok (ls, _) => match recLines { strictDatatypes := false } false 0 v.out with
    | some ls' => f ls ls'
    | none => false
  | _, _ => false

theorem bothLines_ok {p : Prog} {d : DDic} {f : List Str → List Str → Bool} (h : bothLines p d f = true) : ∃ v ls c ls',
    cppWrite p d = some (.ok v) ∧ sectionLines 100 { strictDatatypes := false } false 2 99 p d = .ok (ls, c) ∧
    recLines { strictDatatypes := false } false 0 v.out = some ls' ∧ f ls ls' = true := by
  unfold bothLines at h
  split at h
  · rename_i v ls c h1 h2
    split at h
    · rename_i ls' h3
      exact ⟨v, ls, c, ls', h1, h2, h3, h⟩
    · cases h
  · cases h

end FunEx

open FunEx

/-- A LIST record without values: the compiled function writes one more line, with nothing but control numbers.  The interpreter takes
this line for the next record, and then refuses the section. -/
theorem C93_empty_list_fails : ∃ (p : Prog) (d : DDic) (v : WFun) (ls : List Str) (c : Ctrl) (ls' : List Str),
    cppWrite p d = some (.ok v) ∧ sectionLines 100 { strictDatatypes := false } false 2 99 p d = .ok (ls, c) ∧
    recLines { strictDatatypes := false } false 0 v.out = some ls' ∧ ls.length = 4 ∧ ls'.length = 5 ∧
    (∃ s, readSection (strict ls) false p = .ok s ∧ numAt (valAt (.dic s.cur) [.var "X"]) = some 4) ∧
    ∃ e s, readSection (strict ls') false p = .err e s ∧ numAt (valAt (.dic s.cur) [.var "X"]) = some 0 := by
  have h : bothLines values (base 0 [(.var "X", flt 4)]) (fun ls ls' => decide (ls.length = 4 ∧ ls'.length = 5) &&
      match readSection (strict ls) false values, readSection (strict ls') false values with
      | .ok s, .err _ s' => decide (numAt (valAt (.dic s.cur) [.var "X"]) = some 4) && decide (numAt (valAt (.dic s'.cur) [.var "X"]) = some 0)
      | _, _ => false) = true := by decide +kernel
  obtain ⟨v, ls, c, ls', h1, h2, h3, h4⟩ := bothLines_ok h
  rw [Bool.and_eq_true] at h4
  obtain ⟨h4, h5⟩ := h4
  obtain ⟨h6, h7⟩ := of_decide_eq_true h4
  split at h5
  · rename_i s e s' g1 g2
    rw [Bool.and_eq_true] at h5
    exact ⟨_, _, v, ls, c, ls', h1, h2, h3, h6, h7, ⟨s, g1, of_decide_eq_true h5.1⟩, e, s', g2, of_decide_eq_true h5.2⟩
  · cases h5

end Verif
