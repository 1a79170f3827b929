import Verif.Props.CppLib
import Verif.Lemmas.Eval

/-! Property C78: sequences of numbers and table bodies in the compiled parser. -/

namespace Verif
open Spec

/-! ## agreement with the Python reader -/

/-- a line with six complete fields, without underscores and other white space than blanks -/
def PlainLine (l : Str) : Prop := 66 ≤ l.length ∧ '_' ∉ l ∧ ∀ c ∈ l, isWs c = true → c = ' '

/-- with `validate_control_records` the line carries the control numbers `c` -/
def Validated (val : Bool) (c : Ctrl) (l : Str) : Prop :=
  val = true → cppMat l = .ok c.mat ∧ cppMf l = .ok c.mf ∧ cppMt l = .ok c.mt

theorem readLine_ok {val : Bool} {c : Ctrl} {l : Str} {ls : List Str} (h : Validated val c l) :
    cppReadLine val c (l :: ls) = .ok (l, ls) := by
  unfold cppReadLine nextLine
  cases val with
  | false => rfl
  | true =>
    obtain ⟨h1, h2, h3⟩ := h rfl
    simp only [if_true, h1, h2, h3, cbind_ok, ne_eq, not_true_eq_false, or_self, if_false]

/-- a part of one line -/
theorem vecLoop_chunk {α : Type} {rd : Str → Nat → CRes α} {val : Bool} {c : Ctrl} {line : Str} (vs : List α) :
    ∀ {j n : Nat} (ls : List Str), vs ≠ [] → vs.length ≤ n → j + vs.length ≤ 6 → (vs.length < n → j + vs.length = 6) →
    (∀ k v, vs[k]? = some v → rd line (j + k) = .ok v) →
    cppVecLoop rd val c n j line ls =
      if vs.length = n then .ok (vs, ls) else (do
        let (l, r) ← cppReadLine val c ls
        let (ws, r') ← cppVecLoop rd val c (n - vs.length) 0 l r
        .ok (vs ++ ws, r')) := by
  induction vs with
  | nil => intro j n ls h; exact absurd rfl h
  | cons v vs ih =>
    intro j n ls _ hn hj hlt hrd
    obtain ⟨n, rfl⟩ : ∃ m, n = m + 1 := ⟨n - 1, by simp at hn; omega⟩
    have hv : rd line j = .ok v := by simpa using hrd 0 v rfl
    simp only [List.length_cons] at hn hj hlt ⊢
    rw [cppVecLoop, hv, cbind_ok]
    by_cases hvs : vs = []
    · subst hvs
      simp only [List.length_nil] at *
      by_cases hn0 : n = 0
      · subst hn0
        rw [if_neg (by omega), cbind_ok]
        simp [cppVecLoop, cbind_ok]
      · have : j = 5 := by have := hlt (by omega); omega
        subst this
        rw [if_pos (by omega), if_neg (by omega)]
        cases hl : cppReadLine val c ls with
        | throw => simp only [cbind_throw]
        | undef => simp only [cbind_undef]
        | ok p =>
          simp only [cbind_ok]
          rw [show n + 1 - (0 + 1) = n by omega]
          cases cppVecLoop rd val c n 0 p.1 p.2 with
          | throw => rfl
          | undef => rfl
          | ok q => rfl
    · have hpos : 0 < vs.length := List.length_pos_iff.2 hvs
      rw [if_neg (by omega), cbind_ok]
      have := ih (j := j + 1) (n := n) ls hvs (by omega) (by omega) (fun h => by have := hlt (by omega); omega)
        (fun k w hk => by
          have := hrd (k + 1) w (by simpa using hk)
          rw [← this]; congr 1; omega)
      dsimp only
      rw [this]
      by_cases he : vs.length = n
      · rw [if_pos he, if_pos (by omega), cbind_ok]
      · rw [if_neg he, if_neg (by omega)]
        cases hl : cppReadLine val c ls with
        | throw => simp only [cbind_throw]
        | undef => simp only [cbind_undef]
        | ok p =>
          simp only [cbind_ok]
          rw [show n + 1 - (vs.length + 1) = n - vs.length by omega]
          cases cppVecLoop rd val c (n - vs.length) 0 p.1 p.2 with
          | throw => rfl
          | undef => rfl
          | ok q => rfl

theorem readFortFloats_get {o : ROpts} {l : Str} {n : Nat} {vals : List Num} (h : readFortFloats o l n = .ok vals) :
    vals.length = n ∧ ∀ k v, vals[k]? = some v → k < n ∧ readFloat o (slice l (k * o.width) (k * o.width + o.width)) = .ok v := by
  have h2 := mapM_ok_iff.1 h
  have hl : vals.length = n := by rw [← h2.length_eq]; simp
  refine ⟨hl, fun k v hk => ?_⟩
  obtain ⟨hk1, hk2⟩ := List.getElem?_eq_some_iff.1 hk
  have hkn : k < n := by omega
  have := List.forall₂_iff_get.1 h2 |>.2 k (by simpa using hkn) hk1
  refine ⟨hkn, ?_⟩
  simp only [List.get_eq_getElem, List.getElem_range] at this
  rw [this, hk2]

/-- sequences of numbers are read alike by any two readers that agree on the fields -/
theorem readVec_agree {α : Type} (o : ROpts) (ho : o.width = 11) (rd : Str → Nat → CRes α) (g : Num → α) (val : Bool) (c : Ctrl)
    (lines : List Str) : ∀ (num : Nat), 1 ≤ num → ∀ (ofs : Nat) (vals : List Num) (ofs' : Nat),
    (∀ k l, ofs ≤ k → k < ofs' → lines[k]? = some l → Validated val c l ∧
      ∀ i < 6, ∀ x, readFloat o (slice l (11 * i) (11 * i + 11)) = .ok x → rd l i = .ok (g x)) →
    readNumbers o lines num ofs = .ok (vals, ofs') →
    cppReadVec rd val c num (lines.drop ofs) = .ok (vals.map g, lines.drop ofs') ∧ ofs < ofs' := by
  intro num
  induction num using Nat.strong_induction_on with
  | _ num ih =>
    intro hnum ofs vals ofs' hrd h
    rw [readNumbers, if_neg (by omega)] at h
    obtain ⟨l, hl, h⟩ := bind_ok.1 h
    obtain ⟨v1, hv1, h⟩ := bind_ok.1 h
    obtain ⟨⟨rest, ofs2⟩, hr, h⟩ := bind_ok.1 h
    cases h
    have hl' : lines[ofs]? = some l := by
      unfold lineAt at hl
      split at hl
      · rename_i x hx; cases hl; exact hx
      · cases hl
    have hdrop : lines.drop ofs = l :: lines.drop (ofs + 1) := by
      obtain ⟨hlt, he⟩ := List.getElem?_eq_some_iff.1 hl'
      rw [List.drop_eq_getElem_cons hlt, he]
    obtain ⟨hlen, hget⟩ := readFortFloats_get hv1
    have hofs : ofs + 1 ≤ ofs' := by
      by_cases h6 : num - 6 = 0
      · rw [h6, readNumbers, if_pos rfl] at hr; cases hr; omega
      · by_contra hc
        -- the lines read are counted upwards
        have key : ∀ (num ofs : Nat) (vals : List Num) (ofs' : Nat), readNumbers o lines num ofs = .ok (vals, ofs') → ofs ≤ ofs' := by
          intro num
          induction num using Nat.strong_induction_on with
          | _ num ih =>
            intro ofs vals ofs' h
            rw [readNumbers] at h
            split at h
            · cases h; omega
            · obtain ⟨_, _, h⟩ := bind_ok.1 h
              obtain ⟨_, _, h⟩ := bind_ok.1 h
              obtain ⟨⟨_, _⟩, hr, h⟩ := bind_ok.1 h
              cases h
              have := ih (num - 6) (by omega) _ _ _ hr
              omega
        have := key _ _ _ _ hr
        omega
    obtain ⟨hval, hfield⟩ := hrd ofs l (by omega) (by omega) hl'
    refine ⟨?_, by omega⟩
    unfold cppReadVec
    rw [hdrop, readLine_ok hval, cbind_ok]
    dsimp only
    have hne : v1.map g ≠ [] := by
      rw [Ne, List.map_eq_nil_iff]
      rintro rfl
      simp at hlen; omega
    rw [vecLoop_chunk (v1.map g) _ hne (by simp; omega) (by simp; omega) (by simp; omega)
      (fun k v hk => by
        rw [List.getElem?_map] at hk
        cases hk' : v1[k]? with
        | none => rw [hk'] at hk; cases hk
        | some w =>
          rw [hk'] at hk
          cases hk
          obtain ⟨a1, a2⟩ := hget k w hk'
          rw [Nat.zero_add]
          refine hfield k (by omega) w ?_
          rw [ho, Nat.mul_comm] at a2
          exact a2)]
    rw [List.length_map, hlen]
    by_cases h6 : num ≤ 6
    · rw [if_pos (by omega)]
      rw [show num - 6 = 0 by omega, readNumbers, if_pos rfl] at hr
      cases hr
      simp
    · rw [if_neg (by omega), show min 6 num = 6 by omega]
      have := (ih (num - 6) (by omega) (by omega) (ofs + 1) rest ofs' (fun k l hk1 hk2 hk => hrd k l (by omega) hk2 hk) hr).1
      unfold cppReadVec at this
      cases hq : cppReadLine val c (lines.drop (ofs + 1)) with
      | throw => rw [hq] at this; cases this
      | undef => rw [hq] at this; cases this
      | ok p =>
        rw [hq, cbind_ok] at this
        rw [cbind_ok]
        dsimp only at this ⊢
        rw [this, cbind_ok, List.map_append]

theorem plainLine_float {o : ROpts} (ho : o.width = 11) {l : Str} (hp : PlainLine l) {i : Nat} (hi : i < 6) {x : Num}
    (h : readFloat o (slice l (11 * i) (11 * i + 11)) = .ok x) : cppFloat o.acceptSpaces l i = .ok x.val := by
  obtain ⟨h1, h2, h3⟩ := hp
  have hsub : ∀ c ∈ slice l (11 * i) (11 * i + 11), c ∈ l := fun c hc => List.mem_of_mem_take (List.mem_of_mem_drop hc)
  unfold readFloat at h
  rw [ho] at h
  have := C66_partial _ _ _ (by unfold slice; simp; omega) (fun c hc => h3 c (hsub c hc)) (fun hc => h2 (hsub _ hc)) x h
  unfold cppFloat
  rw [cppBytes_ok (by omega), cbind_ok, this]
  rfl

/-- **C78** (partial) Whenever the Python parser reads a sequence of at least one number, as in LIST and TAB1 records, the
compiled parser reads the same numbers and continues at the same line.
Missing: empty sequences (`C78_empty_fails`), and lines that are shorter or have underscores or other white space
(see C66 and C76). -/
theorem C78_partial (o : ROpts) (ho : o.width = 11) (val : Bool) (c : Ctrl) (lines : List Str) (num ofs : Nat) (vals : List Num)
    (ofs' : Nat) (hnum : 1 ≤ num) (hp : ∀ k l, ofs ≤ k → k < ofs' → lines[k]? = some l → PlainLine l ∧ Validated val c l)
    (h : readNumbers o lines num ofs = .ok (vals, ofs')) :
    cppReadVec (cppFloat o.acceptSpaces) val c num (lines.drop ofs) = .ok (vals.map Num.val, lines.drop ofs') := by
  refine (readVec_agree o ho _ Num.val val c lines num hnum ofs vals ofs' (fun k l h1 h2 h3 => ?_) h).1
  obtain ⟨h4, h5⟩ := hp k l h1 h2 h3
  exact ⟨h5, fun i hi x hx => plainLine_float ho h4 hi hx⟩

/-- an integer is also read as a float of the same value -/
theorem readFloat_int {o : ROpts} (ho : o.width = 11) {f : Str} (hl : f.length ≤ 11) (hws : ∀ c ∈ f, isWs c = true → c = ' ')
    (hu : '_' ∉ f) {n : Int} (h : readFortInt f = .ok n) {x : Num} (hx : readFloat o f = .ok x) : x.val = n := by
  obtain ⟨p, q, h1, h2, h3⟩ := strip_decomp f
  have hp := blanks_of_ws hws (l := p) (fun c hc => by rw [h1]; simp [hc]) h2
  have hq := blanks_of_ws hws (l := q) (fun c hc => by rw [h1]; simp [hc]) h3
  have hcut : cutWidth (some 11) f = f := List.take_of_length_le (by omega)
  unfold readFortInt at h
  split at h
  · rename_i hs
    cases h
    unfold readFloat fortstr2float at hx
    rw [ho, hcut, if_pos hs] at hx
    cases hx; rfl
  · cases hpi : pyInt f with
    | none => rw [hpi] at h; cases h
    | some m =>
      rw [hpi] at h
      cases h
      have hu' : '_' ∉ strip f := fun hc => hu (by rw [h1]; simp [hc])
      obtain ⟨t, ht⟩ : ∃ t, strip f = t := ⟨_, rfl⟩
      unfold pyInt at hpi
      rw [deUnderscore_id _ hu', ht] at hpi
      simp only [Option.bind_eq_bind, Option.bind_some] at hpi
      cases hpn : parseNat (splitSign t).2 with
      | none => rw [hpn] at hpi; cases hpi
      | some d =>
        rw [hpn] at hpi
        obtain ⟨g1, g2⟩ := parseNat_inv hpn
        have hd : d = digitsVal (splitSign t).2 := by
          unfold parseNat at hpn; split at hpn <;> cases hpn; rfl
        have hn : applySign (splitSign t).1 d = n := by simpa using hpi
        -- the text as a number text
        obtain ⟨sg, hsg1, hsg2⟩ : ∃ sg : Sgn, t = sg.text ++ (splitSign t).2 ∧
            ∀ y : ℚ, sg.apply y = if (splitSign t).1 then -y else y := by
          cases t with
          | nil => exact ⟨.none, rfl, fun y => rfl⟩
          | cons a r =>
            by_cases hm : a = '-'
            · subst hm; exact ⟨.minus, rfl, fun y => rfl⟩
            by_cases hpl : a = '+'
            · subst hpl; exact ⟨.plus, rfl, fun y => rfl⟩
            have e1 : splitSign (a :: r) = (false, a :: r) := by
              unfold splitSign
              split
              · rename_i h3; cases h3; exact absurd rfl hpl
              · rename_i h3; cases h3; exact absurd rfl hm
              · rfl
            rw [e1]
            exact ⟨.none, rfl, fun y => rfl⟩
        let T : NumText := ⟨sg, (splitSign t).2, none, none⟩
        have hwf : T.WF := ⟨g1, (by intro f hf; cases hf), .inl g2, (by intro s d h; cases h)⟩
        have hT : T.withE 'E' = t := by
          show sg.text ++ (splitSign t).2 ++ [] ++ [] = t
          rw [List.append_nil, List.append_nil, ← hsg1]
        have hf : f = List.replicate p.length ' ' ++ T.withE 'E' ++ List.replicate q.length ' ' := by
          rw [hT, ← hp, ← hq, ← ht]; exact h1
        have hlen := congrArg List.length hf
        simp only [List.length_append, List.length_replicate] at hlen
        unfold readFloat at hx
        rw [ho, hf, fortstr2float_withE hwf (.inr rfl) _ _ _ _ _ (by intro k hk; cases hk; omega)] at hx
        cases hx
        have hv : T.value = n := by
          show sg.apply ((digitsVal ((splitSign t).2 ++ []) : ℚ) * 10 ^ ((0 : Int) - ((0 : Nat) : Int))) = _
          rw [hsg2, List.append_nil, ← hd, ← hn]
          unfold applySign
          split <;> simp
        split <;> exact hv

theorem plainLine_int {o : ROpts} (ho : o.width = 11) {l : Str} (hp : PlainLine l) {i : Nat} (hi : i < 6) {x : Num} {n : Int}
    (hn : readFortInt (slice l (11 * i) (11 * i + 11)) = .ok n ∧ intMin ≤ n ∧ n ≤ intMax)
    (h : readFloat o (slice l (11 * i) (11 * i + 11)) = .ok x) : cppInt l i = .ok (truncRat x.val) := by
  obtain ⟨h1, h2, h3⟩ := hp
  have hsub : ∀ c ∈ slice l (11 * i) (11 * i + 11), c ∈ l := fun c hc => List.mem_of_mem_take (List.mem_of_mem_drop hc)
  have e := readFloat_int ho (by unfold slice; simp; omega) (fun c hc => h3 c (hsub c hc)) (fun hc => h2 (hsub _ hc)) hn.1 h
  unfold cppInt
  rw [cppBytes_ok (by omega), cbind_ok, e, truncRat_int]
  exact C77_partial _ (fun c hc => h3 c (hsub c hc)) (fun hc => h2 (hsub _ hc)) n hn.2 hn.1

/-- **C78** (partial) The body of a TAB1 record: the interpolation table and the points are read alike.
Missing: tables without ranges or points, fields of the interpolation table that are not written as integers
(`C78_int_fails`), and lines that are shorter or have underscores or other white space. -/
theorem C78_tab1_partial (o : ROpts) (ho : o.width = 11) (val : Bool) (c : Ctrl) (lines : List Str) (nr np ofs ofs1 ofs2 : Nat)
    (v1 v2 : List Num) (hnr : 1 ≤ nr) (hnp : 1 ≤ np)
    (hp : ∀ k l, ofs ≤ k → k < ofs2 → lines[k]? = some l → PlainLine l ∧ Validated val c l)
    (hint : ∀ k l, ofs ≤ k → k < ofs1 → lines[k]? = some l → ∀ i < 6, ∃ n,
      readFortInt (slice l (11 * i) (11 * i + 11)) = .ok n ∧ intMin ≤ n ∧ n ≤ intMax)
    (h1 : readNumbers o lines (2 * nr) ofs = .ok (v1, ofs1)) (h2 : readNumbers o lines (2 * np) ofs1 = .ok (v2, ofs2)) :
    cppReadTab1 (cppFloat o.acceptSpaces) val c nr np (lines.drop ofs) =
      .ok (⟨evens (toInts v1), odds (toInts v1), (evens v2).map Num.val, (odds v2).map Num.val⟩, lines.drop ofs2) := by
  have hev : ∀ l : List Num, evens (l.map Num.val) = (evens l).map Num.val ∧ odds (l.map Num.val) = (odds l).map Num.val := by
    intro l
    induction l using evens.induct with
    | case1 => exact ⟨rfl, rfl⟩
    | case2 a => exact ⟨rfl, rfl⟩
    | case3 a b l ih => exact ⟨by simp [evens, ih.1], by simp [odds, ih.2]⟩
  have b2 : ofs1 < ofs2 := by
    have := (readVec_agree (α := ℚ) o ho (fun l i => match readFloat o (slice l (11 * i) (11 * i + 11)) with
      | .ok x => .ok x.val | .error _ => .throw) Num.val false c lines (2 * np) (by omega) ofs1 v2 ofs2
      (fun k l h1 h2 h3 => ⟨fun h => (by cases h), fun i hi x hx => (by simp only [hx])⟩) h2).2
    exact this
  have a1 := (readVec_agree o ho cppInt (fun x => truncRat x.val) val c lines (2 * nr) (by omega) ofs v1 ofs1
    (fun k l k1 k2 k3 => by
      obtain ⟨h4, h5⟩ := hp k l k1 (by omega) k3
      refine ⟨h5, fun i hi x hx => ?_⟩
      obtain ⟨n, hn⟩ := hint k l k1 k2 k3 i hi
      exact plainLine_int ho h4 hi hn hx) h1)
  have a2 := C78_partial o ho val c lines (2 * np) ofs1 v2 ofs2 (by omega) (fun k l k1 k2 k3 => hp k l (by omega) k2 k3) h2
  unfold cppReadTab1
  rw [a1.1, cbind_ok]
  dsimp only
  rw [a2, cbind_ok, (hev v2).1, (hev v2).2]
  rfl

/-! ## what the compiled parser writes it reads again -/

theorem intField_mid {a b r : Str} {start len : Nat} {v : Int} (ha : a.length = start) (hb : b.length = len) :
    cppIntField (a ++ (b ++ r)) start len v = a ++ (rjust (intStr v) len ++ r) := by
  unfold cppIntField
  rw [List.take_left' ha, ← List.append_assoc a b r, List.drop_left' (by simp [ha, hb]), List.append_assoc]

theorem prepare_length {c : Ctrl} (hc : FitsCtrl c.mat c.mf c.mt) (num : Bool) (k : Int) :
    75 ≤ (cppPrepareLine num c k).1.length ∧ Validated true c (cppPrepareLine num c k).1 := by
  have f1 : (intStr c.mat).length ≤ 4 := by
    rw [C02_fits_iff c.mat 2]
    have := hc.1; norm_num; omega
  have f2 : (intStr c.mf).length ≤ 2 := by
    rw [C02_fits_iff c.mf 0]
    have := hc.2.1; norm_num; omega
  have f3 : (intStr c.mt).length ≤ 3 := by
    rw [C02_fits_iff c.mt 1]
    have := hc.2.2; norm_num; omega
  obtain ⟨N, hN⟩ : ∃ N, (if num then 80 else 75) = N := ⟨_, rfl⟩
  have hN75 : 75 ≤ N := by rw [← hN]; split <;> omega
  -- the line in parts
  obtain ⟨t, ht⟩ : ∃ t, (cppPrepareLine num c k).1 =
      List.replicate 66 ' ' ++ (rjust (intStr c.mat) 4 ++ (rjust (intStr c.mf) 2 ++ (rjust (intStr c.mt) 3 ++ t))) := by
    have l1 : (rjust (intStr c.mat) 4).length = 4 := rjust_length_le f1
    have l2 : (rjust (intStr c.mf) 2).length = 2 := rjust_length_le f2
    have l3 : (rjust (intStr c.mt) 3).length = 3 := rjust_length_le f3
    have key : ∀ M, 75 ≤ M → cppIntField (cppIntField (cppIntField (List.replicate M ' ') 66 4 c.mat) 70 2 c.mf) 72 3 c.mt =
        List.replicate 66 ' ' ++ (rjust (intStr c.mat) 4 ++ (rjust (intStr c.mf) 2 ++ (rjust (intStr c.mt) 3 ++ List.replicate (M - 75) ' '))) := by
      intro M hM
      have e0 : List.replicate M ' ' = List.replicate 66 ' ' ++ (List.replicate 4 ' ' ++ (List.replicate 2 ' ' ++ (List.replicate 3 ' ' ++ List.replicate (M - 75) ' '))) := by
        rw [List.replicate_append_replicate, List.replicate_append_replicate, List.replicate_append_replicate, List.replicate_append_replicate]
        congr 1; omega
      rw [e0, intField_mid (by simp) (by simp), ← List.append_assoc, intField_mid (by simp [l1]) (by simp), ← List.append_assoc,
        intField_mid (by simp [l1, l2]) (by simp)]
      simp only [List.append_assoc]
    unfold cppPrepareLine
    dsimp only
    cases num with
    | false => simp only [Bool.false_eq_true, if_false]; exact ⟨_, key 75 (by omega)⟩
    | true =>
      simp only [if_true]
      rw [key 80 (by omega)]
      unfold cppIntField
      refine ⟨rjust (intStr (Int.tmod k 99999 + 1)) 5, ?_⟩
      have : (List.replicate 66 ' ' ++ (rjust (intStr c.mat) 4 ++ (rjust (intStr c.mf) 2 ++ (rjust (intStr c.mt) 3)))).length = 75 := by
        simp [l1, l2, l3]
      rw [show List.replicate 66 ' ' ++ (rjust (intStr c.mat) 4 ++ (rjust (intStr c.mf) 2 ++ (rjust (intStr c.mt) 3 ++ List.replicate (80 - 75) ' '))) =
        (List.replicate 66 ' ' ++ (rjust (intStr c.mat) 4 ++ (rjust (intStr c.mf) 2 ++ (rjust (intStr c.mt) 3)))) ++ List.replicate 5 ' ' by simp,
        List.take_left' this, List.drop_of_length_le (by rw [List.length_append, this]; simp)]
      simp
  have l1 : (rjust (intStr c.mat) 4).length = 4 := rjust_length_le f1
  have l2 : (rjust (intStr c.mf) 2).length = 2 := rjust_length_le f2
  have l3 : (rjust (intStr c.mt) 3).length = 3 := rjust_length_le f3
  have hnum : ∀ (n : Int) (w : Nat), w ≤ 9 → (intStr n).length ≤ w → cppIntOf (rjust (intStr n) w) = .ok n := by
    intro n w hw hl
    refine ctrlNum_agree _ ?_ ?_ n (by rw [rjust_length_le hl]; exact hw) rjust_fits_read
    · intro ch hch hws
      unfold rjust at hch
      rcases List.mem_append.1 hch with h | h
      · exact List.eq_of_mem_replicate h
      · rw [intStr_noWs n ch h] at hws; cases hws
    · intro hch
      unfold rjust at hch
      rcases List.mem_append.1 hch with h | h
      · have := List.eq_of_mem_replicate h; revert this; decide
      · exact intStr_no_underscore n h
  have hlen : 75 ≤ (cppPrepareLine num c k).1.length := by rw [ht]; simp [l1, l2, l3]; omega
  refine ⟨hlen, fun _ => ⟨?_, ?_, ?_⟩⟩
  · unfold cppMat cppCustomInt
    rw [cppBytes_ok (by omega), cbind_ok, ht, ← List.append_assoc, slice_mid _ _ _ _ _ (by simp) (by simp [l1])]
    exact hnum _ _ (by omega) f1
  · unfold cppMf cppCustomInt
    rw [cppBytes_ok (by omega), cbind_ok, ht, ← List.append_assoc, ← List.append_assoc,
      slice_mid _ _ _ _ _ (by simp [l1]) (by simp [l1, l2])]
    exact hnum _ _ (by omega) f2
  · unfold cppMt cppCustomInt
    rw [cppBytes_ok (by omega), cbind_ok, ht, ← List.append_assoc, ← List.append_assoc, ← List.append_assoc,
      slice_mid _ _ _ _ _ (by simp [l1, l2]) (by simp [l1, l2, l3])]
    exact hnum _ _ (by omega) f3

/-- the control numbers are in the columns behind the fields -/
theorem validated_drop {val : Bool} {c : Ctrl} {l l' : Str} (h : l'.drop 66 = l.drop 66) (hl : 75 ≤ l.length) (h' : Validated true c l) :
    75 ≤ l'.length ∧ Validated val c l' := by
  have hlen := congrArg List.length h
  simp only [List.length_drop] at hlen
  have hl' : 75 ≤ l'.length := by omega
  have key : ∀ i n, 66 ≤ i → i + n ≤ 75 → cppBytes l' i n = cppBytes l i n := by
    intro i n h1 h2
    rw [cppBytes_ok (by omega), cppBytes_ok (by omega)]
    unfold slice
    rw [List.drop_take, List.drop_take]
    have : ∀ x : Str, x.drop i = (x.drop 66).drop (i - 66) := fun x => by rw [List.drop_drop]; congr 1; omega
    rw [this l', this l, h]
  refine ⟨hl', fun _ => ?_⟩
  obtain ⟨h1, h2, h3⟩ := h' rfl
  unfold cppMat cppMf cppMt cppCustomInt at *
  rw [key 66 4 (by omega) (by omega), key 70 2 (by omega) (by omega), key 72 3 (by omega) (by omega)]
  exact ⟨h1, h2, h3⟩

theorem putField_take {l f : Str} {j : Nat} (hj : 11 * j ≤ l.length) : (putField l j f).take (11 * j) = l.take (11 * j) := by
  unfold putField
  rw [List.append_assoc, List.take_append_of_le_length (by simp [hj]), List.take_take, Nat.min_self]

theorem putField_mid {l f : Str} {j : Nat} (hf : f.length = 11) (hj : 11 * j ≤ l.length) : slice (putField l j f) (11 * j) (11 * j + 11) = f := by
  unfold putField
  exact slice_mid _ _ _ _ _ (by simp [hj]) (by simp [hj, hf])

theorem putField_drop {l f : Str} {j : Nat} (hf : f.length = 11) (hj : j < 6) (hl : 75 ≤ l.length) :
    (putField l j f).drop 66 = l.drop 66 := by
  unfold putField
  rw [List.drop_append, List.drop_of_length_le (by simp [hf]; omega), List.nil_append, List.drop_drop]
  congr 1
  simp [hf]; omega

theorem putField_length {l f : Str} {j : Nat} (hf : f.length = 11) (hj : j < 6) (hl : 75 ≤ l.length) : (putField l j f).length = l.length := by
  unfold putField
  simp [hf]; omega

/-- fields written one after the other are read again one after the other -/
theorem fill_read {α : Type} {rd : Str → Nat → CRes α} {h : Str → CRes α} (hrd : ∀ l i, rd l i = cppBytes l (11 * i) 11 >>= h)
    (num val : Bool) {c : Ctrl} (hc : FitsCtrl c.mat c.mf c.mt) (rest : List Str) {fs : List Str} {vs : List α}
    (hfs : List.Forall₂ (fun f v => f.length = 11 ∧ h f = .ok v) fs vs) : ∀ (j : Nat) (cur : Str) (ln : Int),
    (fs ≠ [] → j < 6) → j ≤ 6 → 75 ≤ cur.length → ∃ l0 ls ln', cppFillLoop num c fs j cur ln = (l0 :: ls, ln') ∧
      l0.take (11 * j) = cur.take (11 * j) ∧ l0.drop 66 = cur.drop 66 ∧ l0.length = cur.length ∧
      cppVecLoop rd val c fs.length j l0 (ls ++ rest) = .ok (vs, rest) := by
  induction hfs with
  | nil => intro j cur ln _ _ _; exact ⟨cur, [], ln, rfl, rfl, rfl, rfl, rfl⟩
  | @cons f v fs vs hf hfs ih =>
    intro j cur ln hj6 _ hcur
    have hj : j < 6 := hj6 (by simp)
    have q1 := putField_take (f := f) (j := j) (l := cur) (by omega)
    have q2 := putField_mid (j := j) (l := cur) hf.1 (by omega)
    have q3 := putField_drop hf.1 hj hcur
    have q4 := putField_length hf.1 hj hcur
    have hlv := hfs.length_eq
    rw [cppFillLoop]
    by_cases hcond : 5 < j + 1 ∧ fs ≠ []
    · dsimp only
      rw [if_pos hcond]
      obtain ⟨p1, p2⟩ := prepare_length hc num ln
      obtain ⟨l1, ls1, ln1, e1, e2, e3, e4, e5⟩ := ih 0 (cppPrepareLine num c ln).1 (cppPrepareLine num c ln).2 (fun _ => by omega) (by omega) p1
      refine ⟨putField cur j f, l1 :: ls1, ln1, by rw [e1], q1, q3, q4, ?_⟩
      rw [List.length_cons, cppVecLoop, hrd, cppBytes_ok (by omega), cbind_ok, q2, hf.2, cbind_ok,
        if_pos ⟨hcond.1, List.length_pos_iff.2 hcond.2⟩, List.cons_append,
        readLine_ok (validated_drop e3 p1 p2).2, cbind_ok]
      dsimp only [cbind_ok]
      rw [e5, cbind_ok]
    · dsimp only
      rw [if_neg hcond]
      obtain ⟨l0, ls, ln', e1, e2, e3, e4, e5⟩ := ih (j + 1) (putField cur j f) ln
        (fun hne => by by_contra hx; exact hcond ⟨by omega, hne⟩) (by omega) (by omega)
      have e2' : l0.take (11 * j) = cur.take (11 * j) := by
        have := congrArg (List.take (11 * j)) e2
        rw [List.take_take, List.take_take, Nat.min_eq_left (by omega)] at this
        rw [this, q1]
      have em : slice l0 (11 * j) (11 * j + 11) = f := by
        rw [← q2]
        unfold slice
        rw [show 11 * j + 11 = 11 * (j + 1) by ring, e2]
      refine ⟨l0, ls, ln', e1, e2', by rw [e3, q3], by rw [e4, q4], ?_⟩
      have hcond' : ¬ (5 < j + 1 ∧ 0 < fs.length) := fun hx => hcond ⟨hx.1, List.length_pos_iff.1 hx.2⟩
      rw [List.length_cons, cppVecLoop, hrd, cppBytes_ok (by omega), cbind_ok, em, hf.2, cbind_ok, if_neg hcond', cbind_ok]
      dsimp only
      rw [e5, cbind_ok]

theorem fill_readVec {α : Type} {rd : Str → Nat → CRes α} {h : Str → CRes α} (hrd : ∀ l i, rd l i = cppBytes l (11 * i) 11 >>= h)
    (num val : Bool) {c : Ctrl} (hc : FitsCtrl c.mat c.mf c.mt) (rest : List Str) {fs : List Str} {vs : List α}
    (hfs : List.Forall₂ (fun f v => f.length = 11 ∧ h f = .ok v) fs vs) (ln : Int) :
    cppReadVec rd val c fs.length ((cppFill num c fs ln).1 ++ rest) = .ok (vs, rest) := by
  obtain ⟨p1, p2⟩ := prepare_length hc num ln
  obtain ⟨l0, ls, ln', e1, e2, e3, e4, e5⟩ := fill_read hrd num val hc rest hfs 0 (cppPrepareLine num c ln).1 (cppPrepareLine num c ln).2
    (fun _ => by omega) (by omega) p1
  unfold cppReadVec cppFill
  dsimp only
  rw [e1, List.cons_append, readLine_ok (validated_drop e3 p1 p2).2, cbind_ok]
  exact e5

theorem intText_read {n : Int} (h : intMin ≤ n ∧ n ≤ intMax) : (cppIntText n).length = 11 ∧ cppIntOf (cppIntText n) = .ok n := by
  have hl : (intStr n).length ≤ 11 := by
    rw [C02_fits_iff n 9]
    have := h.1; have := h.2
    unfold intMin intMax at *
    norm_num; omega
  refine ⟨rjust_length_le hl, C77_partial _ ?_ ?_ n h ?_⟩
  · intro ch hch hws
    unfold cppIntText rjust at hch
    rcases List.mem_append.1 hch with h | h
    · exact List.eq_of_mem_replicate h
    · rw [intStr_noWs n ch h] at hws; cases hws
  · intro hch
    unfold cppIntText rjust at hch
    rcases List.mem_append.1 hch with h | h
    · have := List.eq_of_mem_replicate h; revert this; decide
    · exact intStr_no_underscore n h
  · unfold readFortInt cppIntText
    rw [if_neg (by rw [strip_rjust (intStr_noWs n)]; exact intStr_ne_nil n), pyInt_intStr_rjust]

/-- `x` is `v` up to half a unit of the last digit the compiled parser writes -/
def Written (o : WOpts) (v x : ℚ) : Prop :=
  (v = 0 → x = 0) ∧ (v ≠ 0 → ∃ n : Nat,
    (7 : Int) - (if o.keepE then 1 else 0) + (if 0 < v ∧ o.abuseSignpos = true then 1 else 0) -
      (natStr (Int.log 10 |v|).natAbs).length = n ∧ |x - v| ≤ 1 / 2 * 10 ^ (Int.log 10 |v| - n))

/-- **C78** (partial) The compiled parser writes every table whose numbers are in the range of `KeptNum`, and reads it again:
the interpolation table exactly, and every point up to half a unit of its last digit; reading continues behind the table.
Missing: the numbers of `C74_fails`. -/
theorem C78_roundtrip_partial (o : WOpts) (pres val acc : Bool) (c : Ctrl) (hc : FitsCtrl c.mat c.mf c.mt) (nbt int : List Int)
    (xs ys : List ℚ) (h1 : nbt.length = int.length) (h2 : xs.length = ys.length) (hr : ∀ n ∈ nbt ++ int, intMin ≤ n ∧ n ≤ intMax)
    (hk : ∀ v ∈ xs ++ ys, KeptNum v) (ln : Int) : ∃ lines ln', 
    cppWriteTab1 o pres c ⟨nbt, int, xs.map .flt, ys.map .flt⟩ ln = some (lines, ln') ∧ ∀ rest, ∃ xs' ys',
      cppReadTab1 (cppFloat acc) val c nbt.length xs.length (lines ++ rest) = .ok (⟨nbt, int, xs', ys'⟩, rest) ∧
      List.Forall₂ (Written o) xs xs' ∧ List.Forall₂ (Written o) ys ys' := by
  -- the points
  have hpts : ∀ l : List ℚ, (∀ v ∈ l, KeptNum v) → ∃ fs vs, (l.map Num.flt).mapM (cppFloatField o pres) = some fs ∧
      List.Forall₂ (fun f v => f.length = 11 ∧ CRes.ofOption (endfstr2float acc f) = .ok v) fs vs ∧ List.Forall₂ (Written o) l vs := by
    intro l
    induction l with
    | nil => intro _; exact ⟨[], [], rfl, .nil, .nil⟩
    | cons v l ih =>
      intro hl
      obtain ⟨fs, vs, e1, e2, e3⟩ := ih (fun w hw => hl w (by simp [hw]))
      obtain ⟨s, x, g1, g2, g3, g4, g5⟩ := C74_partial o pres v (hl v (by simp))
      obtain ⟨s', g1', glen⟩ := C73_partial o pres v (hl v (by simp))
      rw [g1] at g1'
      cases g1'
      refine ⟨s :: fs, x :: vs, ?_, .cons ⟨glen, ?_⟩ e2, .cons ⟨g4, g5⟩ e3⟩
      · rw [List.map_cons, List.mapM_cons, g1, e1]; rfl
      · rw [g2 acc]; rfl
  have hil : ∀ (a b : List ℚ), interleave (a.map Num.flt) (b.map Num.flt) = (interleave a b).map Num.flt := by
    intro a
    induction a with
    | nil => intro b; simp [interleave]
    | cons x a ih => intro b; cases b with
      | nil => simp [interleave]
      | cons y b => simp [interleave, ih]
  obtain ⟨fs, vs, e1, e2, e3⟩ := hpts (interleave xs ys) (fun v hv => hk v (by rcases interleave_mem _ _ hv with h | h <;> simp [h]))
  have hints : List.Forall₂ (fun f v => f.length = 11 ∧ cppIntOf f = .ok v) ((interleave nbt int).map cppIntText) (interleave nbt int) := by
    rw [List.forall₂_map_left_iff]
    refine List.forall₂_same.2 fun n hn => intText_read (hr n ?_)
    rcases interleave_mem _ _ hn with h | h <;> simp [h]
  unfold cppWriteTab1
  rw [hil, e1]
  refine ⟨_, _, rfl, fun rest => ⟨evens vs, odds vs, ?_, ?_⟩⟩
  · unfold cppReadTab1
    have l1 : 2 * nbt.length = ((interleave nbt int).map cppIntText).length := by rw [List.length_map, interleave_length _ _ h1]
    have l2 : 2 * xs.length = fs.length := by
      rw [e2.length_eq, ← e3.length_eq, interleave_length _ _ h2]
    rw [List.append_assoc, l1, fill_readVec (rd := cppInt) (h := cppIntOf) (fun _ _ => rfl) o.includeLinenum val hc _ hints, cbind_ok]
    dsimp only
    rw [l2, fill_readVec (rd := cppFloat acc) (h := fun b => CRes.ofOption (endfstr2float acc b)) (fun _ _ => rfl) o.includeLinenum val hc _ e2, cbind_ok,
      interleave_evens _ _ h1, interleave_odds _ _ h1]
  · have key : ∀ (a b : List ℚ) (w : List ℚ), a.length = b.length → List.Forall₂ (Written o) (interleave a b) w →
        List.Forall₂ (Written o) a (evens w) ∧ List.Forall₂ (Written o) b (odds w) := by
      intro a
      induction a with
      | nil =>
        intro b w hl h
        cases b with
        | nil => simp only [interleave] at h; cases h; exact ⟨.nil, .nil⟩
        | cons _ _ => simp at hl
      | cons x a ih =>
        intro b w hl h
        cases b with
        | nil => simp at hl
        | cons y b =>
          rw [interleave] at h
          cases h with
          | cons hx h => cases h with
            | cons hy h =>
              obtain ⟨k1, k2⟩ := ih b _ (by simpa using hl) h
              exact ⟨.cons hx k1, .cons hy k2⟩
    exact key xs ys vs h2 e3

/-- **C78** An empty sequence: the Python parser reads nothing, the compiled parser takes the next line, so that the record
behind it is lost. -/
theorem C78_empty_fails (o : ROpts) (lines : List Str) (ofs : Nat) (l : Str) (h : lines[ofs]? = some l) (c : Ctrl) :
    readNumbers o lines 0 ofs = .ok ([], ofs) ∧
    cppReadVec (cppFloat o.acceptSpaces) false c 0 (lines.drop ofs) = .ok ([], lines.drop (ofs + 1)) ∧
    lines.drop (ofs + 1) ≠ lines.drop ofs := by
  have hdrop : lines.drop ofs = l :: lines.drop (ofs + 1) := by
    obtain ⟨hlt, he⟩ := List.getElem?_eq_some_iff.1 h
    rw [List.drop_eq_getElem_cons hlt, he]
  refine ⟨by rw [readNumbers, if_pos rfl], ?_, ?_⟩
  · unfold cppReadVec
    rw [hdrop, readLine_ok (fun h => by cases h), cbind_ok]
    rfl
  · intro he
    rw [hdrop] at he
    have := congrArg List.length he
    simp at this

/-- **C78** Interpolation tables with numbers in float format: the Python parser takes their integer part, the compiled
parser the digits up to the first other character. -/
theorem C78_int_fails : (readNumbers {} [ljust "      1.5+1          2".toList 66] 2 0).map (fun p => (toInts p.1, p.2)) = .ok ([15, 2], 1) ∧
    cppReadVec cppInt false ⟨0, 0, 0⟩ 2 [ljust "      1.5+1          2".toList 66] = .ok ([1, 2], []) := by decide +kernel

/-- lines meeting the assumptions -/
example : (readNumbers {} [ljust "          4          2          7          1".toList 66, ljust " 1.000000+0 2.500000+3 1.000000+7-3.0".toList 66] 4 0).map
      (fun p => (toInts p.1, p.2)) = .ok ([4, 2, 7, 1], 1) ∧
    cppReadTab1 (cppFloat true) false ⟨0, 0, 0⟩ 2 2 [ljust "          4          2          7          1".toList 66,
      ljust " 1.000000+0 2.500000+3 1.000000+7-3.0".toList 66] = .ok (⟨[4, 7], [2, 1], [1, 10000000], [2500, -3]⟩, []) := by
  decide +kernel

/-- a table written and read again -/
example : ((cppWriteTab1 {} false ⟨125, 3, 1⟩ ⟨[4], [2], [.flt 1, .flt 2, .flt 3, .flt (7 / 2)], [.flt 5, .flt 6, .flt 7, .flt (-1 / 8)]⟩ 0).map
      fun p => p.1.map String.ofList) = some [
      "          4          2                                             125 3  1    1",
      " 1.000000+0 5.000000+0 2.000000+0 6.000000+0 3.000000+0 7.000000+0 125 3  1    2",
      " 3.500000+0-1.250000-1                                             125 3  1    3"] := by
  decide +kernel

end Verif
