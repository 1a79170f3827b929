import Verif.Lemmas.Float

/-! Which texts the Python number reader accepts (the converse of `Lemmas/Float.lean`). -/

namespace Verif
open Spec

theorem parseNat_inv {s : Str} {n : Nat} (h : parseNat s = some n) : AllDig s ∧ s ≠ [] := by
  unfold parseNat at h
  split at h
  · rename_i hc
    refine ⟨?_, hc.1⟩
    intro c hm
    exact List.all_eq_true.mp hc.2 c hm
  · cases h

theorem splitSign_inv (s : Str) : ∃ sg : Sgn, s = sg.text ++ (splitSign s).2 := by
  unfold splitSign
  split
  · exact ⟨.plus, rfl⟩
  · exact ⟨.minus, rfl⟩
  · exact ⟨.none, rfl⟩

theorem parseExp_inv {r : Str} {x : Int} (h : parseExp r = some x) :
    r = [] ∨ ∃ e sg d, (e = 'e' ∨ e = 'E') ∧ AllDig d ∧ d ≠ [] ∧ r = e :: (Sgn.text sg ++ d) := by
  cases r with
  | nil => exact .inl rfl
  | cons c s =>
    right
    simp only [parseExp] at h
    split at h
    · rename_i hc
      obtain ⟨sg, hsg⟩ := splitSign_inv s
      rw [Option.map_eq_some_iff] at h
      obtain ⟨n, hn, _⟩ := h
      obtain ⟨h1, h2⟩ := parseNat_inv hn
      exact ⟨c, sg, _, hc, h1, h2, by rw [← hsg]⟩
    · cases h

theorem takeWhile_allDig (s : Str) : AllDig (s.takeWhile isDig) := fun c hc => (List.all_eq_true.mp (List.all_takeWhile (p := isDig) (l := s))) c hc

theorem strip_sub {s : Str} {c : Char} (h : c ∈ strip s) : c ∈ s := by
  unfold strip rstrip lstrip at h
  rw [List.mem_reverse] at h
  have := (List.dropWhile_sublist isWs).subset h
  rw [List.mem_reverse] at this
  exact (List.dropWhile_sublist isWs).subset this

theorem pyFloat_inv {s : Str} {d : Dec} (hu : '_' ∉ s) (h : pyFloat s = some d) :
    ∃ (t : NumText) (e : Char), t.WF ∧ (e = 'e' ∨ e = 'E') ∧ strip s = t.withE e ∧ d = NumText.dec t := by
  have hex : ∃ (t : NumText) (e : Char), t.WF ∧ (e = 'e' ∨ e = 'E') ∧ strip s = t.withE e := by
    unfold pyFloat at h
    rw [deUnderscore_id _ (fun hc => hu (strip_sub hc))] at h
    simp only [Option.bind_eq_bind, Option.bind_some] at h
    obtain ⟨sg, hsg⟩ := splitSign_inv (strip s)
    generalize hu2 : (splitSign (strip s)).2 = u at h hsg
    have hdec : u = u.takeWhile isDig ++ u.dropWhile isDig := (List.takeWhile_append_dropWhile).symm
    have hip := takeWhile_allDig u
    generalize u.takeWhile isDig = ip at h hdec hip
    generalize u.dropWhile isDig = r at h hdec
    -- the exponent part
    have mk : ∀ (fp : Option Str) (r' : Str) (x : Int), parseExp r' = some x → (∀ f, fp = some f → AllDig f) →
        (ip ≠ [] ∨ ∃ f, fp = some f ∧ f ≠ []) →
        ∃ (t : NumText) (e : Char), t.WF ∧ (e = 'e' ∨ e = 'E') ∧ t.sgn = sg ∧ t.ip = ip ∧ t.fp = fp ∧ t.expE e = r' := by
      intro fp r' x hx hf hne
      rcases parseExp_inv hx with rfl | ⟨e, sg', d', he, hd, hdn, rfl⟩
      · exact ⟨⟨sg, ip, fp, none⟩, 'E', ⟨hip, hf, hne, by simp⟩, .inr rfl, rfl, rfl, rfl, rfl⟩
      · refine ⟨⟨sg, ip, fp, some (sg', d')⟩, e, ⟨hip, hf, hne, ?_⟩, he, rfl, rfl, rfl, rfl⟩
        intro s1 d1 h1
        simp only [Option.some.injEq, Prod.mk.injEq] at h1
        obtain ⟨rfl, rfl⟩ := h1
        exact ⟨hd, hdn⟩
    split at h
    · rename_i r'
      split at h
      · cases h
      · rename_i hne
        obtain ⟨x, hx, _⟩ := Option.bind_eq_some_iff.mp h
        obtain ⟨t, e, h1, h2, h3, h4, h5, h6⟩ := mk (some (r'.takeWhile isDig)) _ x hx
          (fun f hf => by cases hf; exact takeWhile_allDig _) (by
            by_cases hi : ip = []
            · right; exact ⟨_, rfl, fun hc => hne ⟨hi, hc⟩⟩
            · exact .inl hi)
        refine ⟨t, e, h1, h2, ?_⟩
        rw [hsg, hdec]
        unfold NumText.withE NumText.mant NumText.frac
        rw [h3, h4, h5, h6]
        simp [List.takeWhile_append_dropWhile]
    · split at h
      · cases h
      · rename_i hne
        obtain ⟨x, hx, _⟩ := Option.bind_eq_some_iff.mp h
        obtain ⟨t, e, h1, h2, h3, h4, h5, h6⟩ := mk none _ x hx (fun f hf => by cases hf) (.inl hne)
        refine ⟨t, e, h1, h2, ?_⟩
        rw [hsg, hdec]
        unfold NumText.withE NumText.mant NumText.frac
        rw [h3, h4, h5, h6]
        simp
  obtain ⟨t, e, h1, h2, h3⟩ := hex
  refine ⟨t, e, h1, h2, h3, ?_⟩
  rw [pyFloat_core h1 h2 h3] at h
  exact (Option.some.inj h).symm

/-! ### the scan -/

/-- number of exponent characters -/
def eCount (s : Str) : Nat := s.countP fun c => c = 'e' ∨ c = 'E'

theorem eCount_append (a b : Str) : eCount (a ++ b) = eCount a + eCount b := List.countP_append

theorem eCount_ins (cur : Str) (i : Nat) : eCount (cur.take i ++ 'E' :: cur.drop i) = eCount cur + 1 := by
  have h : eCount cur = eCount (cur.take i) + eCount (cur.drop i) := by
    rw [← eCount_append, List.take_append_drop]
  rw [eCount_append, h]
  have : eCount ('E' :: cur.drop i) = eCount (cur.drop i) + 1 := by simp [eCount]
  omega

/-- the scan changes nothing or adds an exponent character -/
theorem scanE_count (r : Str) : ∀ (i : Nat) (cur : Str), scanE i r cur = cur ∨ eCount cur < eCount (scanE i r cur) := by
  induction r with
  | nil => intro i cur; exact .inl rfl
  | cons c r ih =>
    intro i cur
    simp only [scanE]
    split
    · right
      have hc := eCount_ins cur i
      rcases ih (i + 1) (cur.take i ++ 'E' :: cur.drop i) with h | h
      · rw [h]; omega
      · omega
    · exact ih (i + 1) cur

/-- what the scan does when its result has at most one exponent character -/
theorem scanFrom_one (pre r : Str) (h : eCount (scanFrom pre r) ≤ 1) :
    scanFrom pre r = pre ++ r ∨ ∃ a c b, r = a ++ c :: b ∧ isSign c = true ∧ lastDig (pre ++ a) = true ∧
      scanFrom pre r = pre ++ a ++ 'E' :: c :: b := by
  induction r generalizing pre with
  | nil => left; simp [scanFrom, scanE]
  | cons c r ih =>
    by_cases hd : lastDig pre = true
    · by_cases hs : isSign c = true
      · right
        refine ⟨[], c, r, rfl, hs, by simpa using hd, ?_⟩
        have h0 : scanFrom pre (c :: r) = scanE (pre.length + 1) r (pre ++ 'E' :: c :: r) := by
          rw [scanFrom_cons, if_pos ⟨hs, hd⟩]
        rw [h0] at h ⊢
        rcases scanE_count r (pre.length + 1) (pre ++ 'E' :: c :: r) with h1 | h1
        · rw [h1]; simp
        · have : 1 ≤ eCount (pre ++ 'E' :: c :: r) := by
            rw [eCount_append]
            have : eCount ('E' :: c :: r) = eCount (c :: r) + 1 := by simp [eCount]
            omega
          omega
      · have h0 : scanFrom pre (c :: r) = scanFrom (pre ++ [c]) r := by
          rw [scanFrom_cons, if_neg (fun hc => hs hc.1)]
        rw [h0] at h ⊢
        rcases ih _ h with h1 | ⟨a, c', b, h1, h2, h3, h4⟩
        · left; rw [h1]; simp
        · right; exact ⟨c :: a, c', b, by rw [h1]; rfl, h2, by simpa using h3, by rw [h4]; simp⟩
    · have h0 : scanFrom pre (c :: r) = scanFrom (pre ++ [c]) r := scanFrom_skip (by simpa using hd) c r
      rw [h0] at h ⊢
      rcases ih _ h with h1 | ⟨a, c', b, h1, h2, h3, h4⟩
      · left; rw [h1]; simp
      · right; exact ⟨c :: a, c', b, by rw [h1]; rfl, h2, by simpa using h3, by rw [h4]; simp⟩

theorem scanE_mem (r : Str) : ∀ (i : Nat) (cur : Str) (c : Char), c ∈ scanE i r cur → c ∈ cur ∨ c = 'E' := by
  induction r with
  | nil => intro i cur c h; exact .inl h
  | cons x r ih =>
    intro i cur c h
    simp only [scanE] at h
    rcases ih _ _ c h with h1 | h1
    · split at h1
      · rcases List.mem_append.mp h1 with h2 | h2
        · exact .inl (List.mem_of_mem_take h2)
        · rcases List.mem_cons.mp h2 with h3 | h3
          · exact .inr h3
          · exact .inl (List.mem_of_mem_drop h3)
      · exact .inl h1
    · exact .inr h1

theorem strip_decomp (s : Str) : ∃ p q, s = p ++ strip s ++ q ∧ (∀ c ∈ p, isWs c = true) ∧ ∀ c ∈ q, isWs c = true := by
  refine ⟨s.takeWhile isWs, ((lstrip s).reverse.takeWhile isWs).reverse, ?_, ?_, ?_⟩
  · have h1 : s = s.takeWhile isWs ++ lstrip s := (List.takeWhile_append_dropWhile).symm
    have h2 : (lstrip s).reverse = (lstrip s).reverse.takeWhile isWs ++ (lstrip s).reverse.dropWhile isWs :=
      (List.takeWhile_append_dropWhile).symm
    have h3 : lstrip s = strip s ++ ((lstrip s).reverse.takeWhile isWs).reverse := by
      have := congrArg List.reverse h2
      rw [List.reverse_reverse, List.reverse_append] at this
      exact this
    rw [List.append_assoc, ← h3]
    exact h1
  · exact fun c hc => (List.all_eq_true.mp (List.all_takeWhile (p := isWs) (l := s))) c hc
  · intro c hc
    rw [List.mem_reverse] at hc
    exact (List.all_eq_true.mp (List.all_takeWhile (p := isWs) (l := (lstrip s).reverse))) c hc

theorem eCount_ws {s : Str} (h : ∀ c ∈ s, isWs c = true) : eCount s = 0 := by
  unfold eCount
  rw [List.countP_eq_zero]
  intro c hc
  have := h c hc
  intro hx
  rcases (of_decide_eq_true hx) with rfl | rfl <;> exact absurd this (by decide)

theorem eCount_strip (s : Str) : eCount (strip s) = eCount s := by
  obtain ⟨p, q, h1, h2, h3⟩ := strip_decomp s
  conv_rhs => rw [h1]
  rw [eCount_append, eCount_append, eCount_ws h2, eCount_ws h3]
  omega

theorem eCount_zero {s : Str} : eCount s = 0 ↔ ∀ c ∈ s, c ≠ 'e' ∧ c ≠ 'E' := by
  unfold eCount
  rw [List.countP_eq_zero]
  simp

theorem eCount_dig {s : Str} (h : AllDig s) : eCount s = 0 := by
  rw [eCount_zero]
  intro c hc
  exact ⟨isDig_ne (h c hc) (by decide), isDig_ne (h c hc) (by decide)⟩

theorem eCount_sgn (sg : Sgn) : eCount sg.text = 0 := by cases sg <;> rfl

theorem eCount_mant {t : NumText} (h : t.WF) : eCount t.mant = 0 := by
  unfold NumText.mant NumText.frac
  rw [eCount_append, eCount_append, eCount_sgn, eCount_dig h.ip_dig]
  cases hf : t.fp with
  | none => rfl
  | some f =>
    have : eCount ('.' :: f) = eCount f := by simp [eCount]
    rw [this, eCount_dig (h.fp_dig f hf)]

theorem eCount_withE {t : NumText} (h : t.WF) {e : Char} : eCount (t.withE e) ≤ 1 := by
  unfold NumText.withE NumText.expE
  rw [eCount_append, eCount_mant h]
  cases hx : t.ex with
  | none => simp [eCount]
  | some p =>
    obtain ⟨sg, d⟩ := p
    have h1 : eCount (e :: (sg.text ++ d)) ≤ eCount (sg.text ++ d) + 1 := by
      unfold eCount
      rw [List.countP_cons]
      split <;> omega
    rw [eCount_append, eCount_sgn, eCount_dig (h.ex_dig sg d hx).1] at h1
    dsimp only
    omega

theorem split_unique {P : Char → Prop} {a a' : Str} {x x' : Char} {b b' : Str} (ha : ∀ c ∈ a, ¬ P c)
    (ha' : ∀ c ∈ a', ¬ P c) (hx : P x) (hx' : P x') (h : a ++ x :: b = a' ++ x' :: b') : a = a' ∧ x = x' ∧ b = b' := by
  induction a generalizing a' with
  | nil =>
    cases a' with
    | nil => simp only [List.nil_append, List.cons.injEq] at h; exact ⟨rfl, h.1, h.2⟩
    | cons y a' =>
      simp only [List.nil_append, List.cons_append, List.cons.injEq] at h
      exact absurd (h.1 ▸ hx) (ha' y List.mem_cons_self)
  | cons y a ih =>
    cases a' with
    | nil =>
      simp only [List.nil_append, List.cons_append, List.cons.injEq] at h
      exact absurd (h.1.symm ▸ hx') (ha y List.mem_cons_self)
    | cons z a' =>
      simp only [List.cons_append, List.cons.injEq] at h
      obtain ⟨h1, h2, h3⟩ := ih (fun c hc => ha c (List.mem_cons_of_mem _ hc))
        (fun c hc => ha' c (List.mem_cons_of_mem _ hc)) h.2
      exact ⟨by rw [h.1, h1], h2, h3⟩

theorem lstrip_append {a : Str} (h : ∃ c ∈ a, isWs c = false) (b : Str) : lstrip (a ++ b) = lstrip a ++ b := by
  unfold lstrip
  induction a with
  | nil => obtain ⟨c, hc, _⟩ := h; cases hc
  | cons x a ih =>
    by_cases hx : isWs x = true
    · simp only [List.cons_append, List.dropWhile_cons, hx, if_true]
      obtain ⟨c, hc, hw⟩ := h
      rcases List.mem_cons.mp hc with rfl | hc
      · rw [hx] at hw; cases hw
      · exact ih ⟨c, hc, hw⟩
    · simp [List.dropWhile_cons, hx]

theorem rstrip_append {b : Str} (h : ∃ c ∈ b, isWs c = false) (a : Str) : rstrip (a ++ b) = a ++ rstrip b := by
  have := lstrip_append (a := b.reverse) (by obtain ⟨c, hc, hw⟩ := h; exact ⟨c, List.mem_reverse.mpr hc, hw⟩) a.reverse
  unfold rstrip
  unfold lstrip at this
  rw [List.reverse_append, this, List.reverse_append, List.reverse_reverse]

theorem rstrip_cons {c : Char} (h : isWs c = false) (b : Str) : rstrip (c :: b) = c :: rstrip b := by
  by_cases hb : ∃ x ∈ b, isWs x = false
  · exact rstrip_append hb [c]
  · have hb' : ∀ x ∈ b, isWs x = true := by
      intro x hx
      by_contra hc
      exact hb ⟨x, hx, by simpa using hc⟩
    have h1 : rstrip b = [] := by
      unfold rstrip
      have := List.dropWhile_append_of_pos (p := isWs) (l₁ := b.reverse) (l₂ := [])
        (fun x hx => hb' x (List.mem_reverse.mp hx))
      rw [List.append_nil] at this
      rw [this]
      rfl
    rw [h1]
    unfold rstrip
    rw [List.reverse_cons, List.dropWhile_append_of_pos]
    · simp [List.dropWhile_cons, h]
    · intro x hx; exact hb' x (List.mem_reverse.mp hx)

theorem strip_mid {a : Str} {c : Char} {b : Str} (ha : ∃ x ∈ a, isWs x = false) (hc : isWs c = false) :
    strip (a ++ c :: b) = lstrip a ++ c :: rstrip b := by
  unfold strip
  rw [lstrip_append ha, rstrip_append ⟨c, List.mem_cons_self, hc⟩, rstrip_cons hc]

theorem isSign_not_ws {c : Char} (h : isSign c = true) : isWs c = false := by
  unfold isSign at h
  simp only [Bool.or_eq_true, beq_iff_eq] at h
  rcases h with rfl | rfl <;> rfl

/-- the text of the field that counts: without blanks, or without blanks around it -/
def coreText (acceptSpaces : Bool) (s : Str) : Str := if acceptSpaces then s.filter (· ≠ ' ') else strip s

/-- Which texts with at most one kind of white space the reader accepts: number texts, where the exponent character may
be missing if the exponent has a sign and the mantissa ends in a digit. -/
theorem fortstr2float_inv {w : Option Nat} {acc pres : Bool} {f : Str} {x : Num} (hlen : ∀ n, w = some n → f.length ≤ n)
    (hws : ∀ c ∈ f, isWs c = true → c = ' ') (hu : '_' ∉ f) (hne : strip f ≠ []) (h : fortstr2float w acc pres f = .ok x) :
    ∃ (t : NumText) (e : Char), t.WF ∧ (e = 'e' ∨ e = 'E') ∧ x.val = t.value ∧ (coreText acc f = t.withE e ∨
      (coreText acc f = t.noE ∧ t.endsInDigit ∧ ∃ sg d, t.ex = some (sg, d) ∧ sg ≠ .none)) := by
  have hcut : cutWidth w f = f := by
    cases w with
    | none => rfl
    | some n => exact List.take_of_length_le (hlen n rfl)
  unfold fortstr2float at h
  rw [hcut, if_neg hne] at h
  dsimp only at h
  generalize hs2 : (if acc = true then f.filter (· ≠ ' ') else f) = s2 at h
  have hsub : ∀ c ∈ s2, c ∈ f := by
    intro c hc
    rw [← hs2] at hc
    split at hc
    · exact (List.mem_filter.mp hc).1
    · exact hc
  have hcore : coreText acc f = strip s2 := by
    unfold coreText
    rw [← hs2]
    split
    · symm
      apply strip_noWs
      intro c hc
      by_contra hw
      have := hws c (List.mem_filter.mp hc).1 (by simpa using hw)
      subst this
      have := (List.mem_filter.mp hc).2
      simp at this
    · rfl
  rw [hcore, scanFrom_nil] at *
  split at h
  · rename_i d hd
    have hu3 : '_' ∉ scanFrom [] s2 := by
      intro hc
      rcases scanE_mem _ _ _ _ hc with h1 | h1
      · exact hu (hsub _ (by simpa using h1))
      · cases h1
    obtain ⟨t, e, t1, t2, t3, t4⟩ := pyFloat_inv hu3 hd
    have hval : x.val = t.value := by
      rw [← NumText.dec_toRat, ← t4]
      cases h
      split <;> rfl
    refine ⟨t, e, t1, t2, hval, ?_⟩
    have hcount : eCount (scanFrom [] s2) ≤ 1 := by rw [← eCount_strip, t3]; exact eCount_withE t1
    rcases scanFrom_one _ _ hcount with h1 | ⟨a, c, b, h1, h2, h3, h4⟩
    · left
      rw [h1] at t3
      exact t3
    · right
      rw [List.nil_append] at h3 h4
      have hda : ∃ y ∈ a, isWs y = false := by
        unfold lastDig at h3
        cases ha : a.getLast? with
        | none => rw [ha] at h3; cases h3
        | some y =>
          rw [ha] at h3
          exact ⟨y, List.mem_of_getLast? ha, isDig_not_ws h3⟩
      rw [h4, strip_mid hda (by decide), rstrip_cons (isSign_not_ws h2)] at t3
      have hs : strip s2 = lstrip a ++ c :: rstrip b := by rw [h1, strip_mid hda (isSign_not_ws h2)]
      have hea : eCount (lstrip a) = 0 ∧ eCount (c :: rstrip b) = 0 := by
        have hw := eCount_withE (e := e) t1
        rw [← t3, eCount_append] at hw
        have : eCount ('E' :: c :: rstrip b) = eCount (c :: rstrip b) + 1 := by simp [eCount]
        omega
      have hma := eCount_mant t1
      cases hx : t.ex with
      | none =>
        exfalso
        have : eCount (lstrip a ++ 'E' :: c :: rstrip b) = 0 := by
          rw [t3]
          unfold NumText.withE NumText.expE
          rw [hx, List.append_nil, hma]
        rw [eCount_append] at this
        have h5 : eCount ('E' :: c :: rstrip b) = eCount (c :: rstrip b) + 1 := by simp [eCount]
        omega
      | some p =>
        obtain ⟨sg, dd⟩ := p
        have heq : t.withE e = t.mant ++ e :: (sg.text ++ dd) := by
          unfold NumText.withE NumText.expE
          rw [hx]
        rw [heq] at t3
        obtain ⟨u1, u2, u3⟩ := split_unique (P := fun c => c = 'e' ∨ c = 'E')
          (fun y hy hp => by have := eCount_zero.mp hea.1 y hy; tauto)
          (fun y hy hp => by have := eCount_zero.mp hma y hy; tauto) (.inr rfl) t2 t3
        refine ⟨?_, ?_, sg, dd, rfl, ?_⟩
        · rw [hs, u1, u3]
          unfold NumText.noE NumText.expN
          rw [hx]
        · intro hf
          have hmd : lastDig t.mant = true := by
            rw [← u1]
            have : lastDig a = lastDig (lstrip a) := by
              obtain ⟨y, hy, hyw⟩ := hda
              have hl : a = a.takeWhile isWs ++ lstrip a := (List.takeWhile_append_dropWhile).symm
              have hne2 : lstrip a ≠ [] := by
                intro hc
                have := lstrip_append ⟨y, hy, hyw⟩ []
                rw [hc] at hl
                rw [List.append_nil] at hl
                have hall : a.all isWs = true := by rw [hl]; exact List.all_takeWhile
                rw [List.all_eq_true.mp hall y hy] at hyw
                cases hyw
              conv_lhs => rw [hl]
              exact lastDig_append_ne hne2
            rw [← this]
            exact h3
          unfold NumText.mant NumText.frac at hmd
          rw [hf, lastDig_append_ne (by simp)] at hmd
          exact absurd hmd (by decide)
        · rintro rfl
          rw [Sgn.text, List.nil_append] at u3
          have := (t1.ex_dig _ _ hx).1 c (by rw [← u3]; exact List.mem_cons_self)
          rw [isSign_dig this] at h2
          cases h2
  · cases h

end Verif
