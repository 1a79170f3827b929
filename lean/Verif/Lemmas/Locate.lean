import Verif.Lemmas.Ahead
import Verif.Lemmas.RereadRec
import Verif.Lemmas.Write
import Verif.Spec.CppOk
/-
The interpreter reads a section in the same way, whatever follows behind its SEND record.
-/
namespace Verif
open Verif.Spec

theorem lineAt_in {L L' : List Str} {n m : Nat} (h : L.take n = L'.take n) (hm : m < n) : lineAt L' m = lineAt L m := by
  have : L'[m]? = L[m]? := by rw [← List.getElem?_take_of_lt hm, ← h, List.getElem?_take_of_lt hm]
  unfold lineAt
  rw [this]

theorem readNumbers_le {o : ROpts} {L : List Str} {num m m' : Nat} {v : List Num} (h : readNumbers o L num m = .ok (v, m')) : m ≤ m' := by
  induction num using Nat.strongRecOn generalizing m v with
  | ind num ih =>
    rw [readNumbers] at h
    split at h
    · cases h; exact Nat.le_refl _
    · rename_i h0
      simp only [bind_ok, pure_ok] at h
      obtain ⟨l, _, vs, _, ⟨r, o'⟩, h3, h4⟩ := h
      cases h4
      have := ih (num - 6) (by omega) h3
      omega

theorem readNumbers_in {o : ROpts} {L L' : List Str} {n : Nat} (hL : L.take n = L'.take n) {num m m' : Nat} {v : List Num}
    (h : readNumbers o L num m = .ok (v, m')) (hm : m' ≤ n) : readNumbers o L' num m = .ok (v, m') := by
  induction num using Nat.strongRecOn generalizing m v with
  | ind num ih =>
    rw [readNumbers] at h ⊢
    split at h
    · rename_i h0
      rw [if_pos h0]
      exact h
    · rename_i h0
      rw [if_neg h0]
      simp only [bind_ok, pure_ok] at h ⊢
      obtain ⟨l, h1, vs, h2, ⟨r, o'⟩, h3, h4⟩ := h
      cases h4
      have := readNumbers_le h3
      exact ⟨l, by rw [lineAt_in hL (by omega)]; exact h1, vs, h2, ⟨r, _⟩, ih (num - 6) (by omega) h3, rfl⟩

theorem readCont_ofs1 {o : ROpts} {L : List Str} {m m' : Nat} {r : ContRec} (h : readCont o L m = .ok (r, m')) : m' = m + 1 := by
  unfold readCont at h
  simp only [bind_ok, pure_ok] at h
  obtain ⟨_, _, _, _, _, _, _, _, _, _, _, _, _, _, _, _, h⟩ := h
  cases h
  rfl

theorem readCont_sameAt {o : ROpts} {L L' : List Str} {m : Nat} (h : lineAt L' m = lineAt L m) : readCont o L' m = readCont o L m := by
  unfold readCont
  rw [h]

/-- a record that ends before line `n` depends only on the lines before -/
theorem readKind_in {ro : ROpts} {L L' : List Str} {n : Nat} (hL : L.take n = L'.take n) {m m' : Nat} {k : RKind} (hk : k ≠ .send) {q : ARec}
    (h : readKind ro L m k = .ok (q, m')) (hm : m' ≤ n) : m < m' ∧ readKind ro L' m k = .ok (q, m') := by
  cases k with
  | send => exact absurd rfl hk
  | text =>
    simp only [readKind, readText, bind_ok, pure_ok] at h ⊢
    obtain ⟨⟨t, o⟩, ⟨l0, g1, c, g2, g3⟩, g4⟩ := h
    cases g3; cases g4
    exact ⟨by omega, _, ⟨l0, by rw [lineAt_in hL (by omega)]; exact g1, c, g2, rfl⟩, rfl⟩
  | head =>
    simp only [readKind, bind_ok, pure_ok] at h ⊢
    obtain ⟨⟨t, o⟩, g1, g4⟩ := h
    cases g4
    have := readCont_ofs1 g1
    exact ⟨by omega, _, by rw [readCont_sameAt (lineAt_in hL (by omega))]; exact g1, rfl⟩
  | cont =>
    simp only [readKind, bind_ok, pure_ok] at h ⊢
    obtain ⟨⟨t, o⟩, g1, g4⟩ := h
    cases g4
    have := readCont_ofs1 g1
    exact ⟨by omega, _, by rw [readCont_sameAt (lineAt_in hL (by omega))]; exact g1, rfl⟩
  | dir =>
    simp only [readKind, bind_ok, pure_ok] at h ⊢
    obtain ⟨⟨t, o⟩, g1, g4⟩ := h
    cases g4
    have : o = m + 1 := by
      unfold readDir at g1
      simp only [bind_ok, pure_ok] at g1
      obtain ⟨_, _, _, _, _, _, _, _, _, _, _, _, g⟩ := g1
      cases g; rfl
    refine ⟨by omega, _, ?_, rfl⟩
    unfold readDir at g1 ⊢
    rw [lineAt_in hL (by omega)]
    exact g1
  | intg d =>
    simp only [readKind, bind_ok, pure_ok] at h ⊢
    obtain ⟨⟨t, o⟩, g1, g4⟩ := h
    cases g4
    have : o = m + 1 := by
      unfold readIntg at g1
      split at g1
      · cases g1
      simp only [bind_ok, pure_ok] at g1
      obtain ⟨_, _, _, _, _, _, _, _, _, _, g⟩ := g1
      cases g; rfl
    refine ⟨by omega, _, ?_, rfl⟩
    unfold readIntg at g1 ⊢
    rw [lineAt_in hL (by omega)]
    exact g1
  | tab1 =>
    simp only [readKind, readTab1, bind_ok, pure_ok] at h ⊢
    obtain ⟨⟨t, o⟩, ⟨⟨c, o1⟩, g1, ⟨v1, o2⟩, g2, ⟨v2, o3⟩, g3, g⟩, g4⟩ := h
    cases g; cases g4
    have a1 := readCont_ofs1 g1
    have a2 := readNumbers_le g2
    have a3 := readNumbers_le g3
    dsimp only at a1 a2 a3 g2 g3 hm
    exact ⟨by omega, _, ⟨_, by rw [readCont_sameAt (lineAt_in hL (by omega))]; exact g1, _, readNumbers_in hL g2 (by omega), _,
      readNumbers_in hL g3 (by omega), rfl⟩, rfl⟩
  | tab2 =>
    simp only [readKind, readTab2, bind_ok, pure_ok] at h ⊢
    obtain ⟨⟨t, o⟩, ⟨⟨c, o1⟩, g1, ⟨v1, o2⟩, g2, g⟩, g4⟩ := h
    cases g; cases g4
    have a1 := readCont_ofs1 g1
    have a2 := readNumbers_le g2
    dsimp only at a1 a2 g2 hm
    exact ⟨by omega, _, ⟨_, by rw [readCont_sameAt (lineAt_in hL (by omega))]; exact g1, _, readNumbers_in hL g2 (by omega), rfl⟩, rfl⟩
  | list =>
    simp only [readKind, readList, bind_ok, pure_ok] at h ⊢
    obtain ⟨⟨t, o⟩, ⟨⟨c, o1⟩, g1, g⟩, g4⟩ := h
    cases g4
    have a1 := readCont_ofs1 g1
    dsimp only at a1 g hm
    split at g
    · rename_i h0
      cases g
      exact ⟨by omega, _, ⟨_, by rw [readCont_sameAt (lineAt_in hL (by omega))]; exact g1, if_pos h0⟩, rfl⟩
    · rename_i h0
      simp only [bind_ok, pure_ok] at g
      obtain ⟨⟨v1, o2⟩, g2, g⟩ := g
      cases g
      have a2 := readNumbers_le g2
      refine ⟨by omega, _, ⟨_, by rw [readCont_sameAt (lineAt_in hL (by omega))]; exact g1, ?_⟩, rfl⟩
      dsimp only
      rw [if_neg h0]
      simp only [bind_ok, pure_ok]
      exact ⟨_, readNumbers_in hL g2 (by omega), rfl⟩

theorem skip_noBlank {L : List Str} {m m' : Nat} (h : skipBlankLines L m = .ok m') : m ≤ m' := by
  generalize hd : L.length - m = d
  induction d generalizing m with
  | zero => rw [skipBlankLines, dif_neg (by omega)] at h; cases h
  | succ d ih =>
    rw [skipBlankLines] at h
    split at h
    · split at h
      · have := ih h (by omega); omega
      · cases h; exact Nat.le_refl _
    · cases h

theorem readKind_le {ro : ROpts} {L : List Str} {m m' : Nat} {k : RKind} {q : ARec} (h : readKind ro L m k = .ok (q, m')) : m ≤ m' := by
  by_cases hk : k = .send
  · subst hk
    simp only [readKind, bind_ok, pure_ok] at h
    obtain ⟨_, _, h⟩ := h
    cases h
    exact Nat.le_refl _
  · exact Nat.le_of_lt (readKind_in (n := m') rfl hk h (Nat.le_refl _)).1

theorem Laid.le {ro : ROpts} {L : List Str} {m m' : Nat} {qs : List ARec} (h : Laid ro L m qs m') : m ≤ m' := by
  induction h with
  | nil => exact Nat.le_refl _
  | cons h _ ih =>
    obtain ⟨o1, h1, h2⟩ := h
    exact Nat.le_trans (Nat.le_trans (skip_noBlank h1) (readKind_le h2)) ih

/-- an end record at a place -/
theorem readSend_end {ro : ROpts} {L : List Str} {m : Nat} {l : Str} {mat mf : Int} (h : (theReader ro).IsEnd mat mf l) (hl : lineAt L m = .ok l) :
    ∃ r n, readSend ro L m = .ok (r, n) ∧ r.ctrl = ⟨mat, mf, 0⟩ := by
  obtain ⟨_, hc, x, n, hx, z1, z2, z3, z4, z5, z6⟩ := h
  rw [theReader_ctrl] at hc
  have hc' : x.ctrl = ⟨mat, mf, 0⟩ := by
    unfold readCont at hx
    simp only [bind_ok, pure_ok] at hx
    obtain ⟨l', g, _, _, _, _, _, _, _, _, _, _, _, _, c, g2, e⟩ := hx
    cases g
    rw [hc] at g2
    cases g2
    cases e
    rfl
  have hx' : ∃ n, readCont ro L m = .ok (x, n) := by
    unfold readCont at hx ⊢
    rw [hl]
    simp only [bind_ok, pure_ok] at hx ⊢
    obtain ⟨l', g, c1, g1, c2, g2, c3, g3, c4, g4, c5, g5, c6, g6, c, g7, e⟩ := hx
    cases g
    cases e
    exact ⟨m + 1, l, rfl, c1, g1, c2, g2, c3, g3, c4, g4, c5, g5, c6, g6, c, g7, rfl⟩
  obtain ⟨n', hx'⟩ := hx'
  refine ⟨x, n', ?_, hc'⟩
  unfold readSend
  simp only [bind_ok]
  refine ⟨_, hx', ?_⟩
  dsimp only
  rw [if_neg (by rw [hc']; simp [z1, z2, z3, z4, z5, z6])]

theorem skip_at {L : List Str} {m : Nat} {l : Str} (hl : L[m]? = some l) (hb : isBlankLine l = false) : skipBlankLines L m = .ok m := by
  obtain ⟨h, rfl⟩ := List.getElem?_eq_some_iff.1 hl
  rw [skipBlankLines, dif_pos h, if_neg (by rw [hb]; simp)]

/-- records that end before line `n`, in other lines with the same beginning -/
theorem laid_in {ro : ROpts} {L L' : List Str} {n : Nat} (hL : L.take n = L'.take n) (hb : ∀ i < n, ∃ l, L[i]? = some l ∧ isBlankLine l = false)
    {m m' : Nat} {qs : List ARec} (h : Laid ro L m qs m') (hm : m' ≤ n) (hs : (∀ q ∈ qs, q.kind ≠ .send) ∨ ∃ z z' mat mf, L[n]? = some z ∧ L'[n]? = some z' ∧
      (theReader ro).IsEnd mat mf z ∧ (theReader ro).IsEnd mat mf z') : Laid ro L' m qs m' := by
  induction h with
  | nil => exact .nil _
  | @cons o o1 o2 q qs h t ih =>
    refine .cons ?_ (ih hm (hs.imp_left fun hs q hq => hs q (by simp [hq])))
    have ht := t.le
    obtain ⟨p, h1, h2⟩ := h
    have hp := readKind_le h2
    have hop := skip_noBlank h1
    by_cases ho : o < n
    · obtain ⟨l, g1, g2⟩ := hb o ho
      have g1' : L'[o]? = some l := by rw [← List.getElem?_take_of_lt ho, ← hL, List.getElem?_take_of_lt ho]; exact g1
      rw [skip_at g1 g2] at h1
      cases h1
      refine ⟨o, skip_at g1' g2, ?_⟩
      by_cases hk : q.kind = .send
      · rw [hk] at h2 ⊢
        simp only [readKind, bind_ok, pure_ok] at h2 ⊢
        obtain ⟨⟨r, n'⟩, g3, g4⟩ := h2
        cases g4
        exact ⟨⟨r, n'⟩, by unfold readSend at g3 ⊢; rw [readCont_sameAt (lineAt_in hL ho)]; exact g3, rfl⟩
      · exact (readKind_in hL hk h2 (by omega)).2
    · have ho' : p = n := by omega
      have ho2 : o = n := by omega
      subst ho' ho2
      by_cases hk : q.kind = .send
      · rcases hs with hs | ⟨z, z', mat, mf, e1, e2, e3, e4⟩
        · exact absurd hk (hs q (by simp))
        have hb' : isBlankLine z' = false := by
          have : ¬ strip z' = [] := e4.1
          unfold isBlankLine
          exact decide_eq_false this
        refine ⟨o, skip_at e2 hb', ?_⟩
        rw [hk] at h2 ⊢
        simp only [readKind, bind_ok, pure_ok] at h2 ⊢
        obtain ⟨⟨r, n'⟩, g3, g4⟩ := h2
        cases g4
        obtain ⟨r1, n1, a1, a2⟩ := readSend_end e3 (L := L) (m := o) (by unfold lineAt; rw [e1])
        obtain ⟨r2, n2, b1, b2⟩ := readSend_end e4 (L := L') (m := o) (by unfold lineAt; rw [e2])
        rw [g3] at a1
        cases a1
        refine ⟨⟨r2, n2⟩, b1, ?_⟩
        dsimp only at a2 ⊢
        rw [b2, a2]
      · have := (readKind_in hL hk h2 (by omega)).1
        omega

/-- the run of a recipe that ends with a SEND record stands at this record -/
theorem send_last {c : RCtx} {F : List ARec} {p : Prog} {s s' : RSt} (hn : Foreseen c F p s) (hl : s.look = none) (he : endsSend p = true)
    (h : readProg c p s = .ok s') : ∃ x, readSend c.ro c.lines s'.ofs = .ok x := by
  induction p generalizing s s' with
  | seq a b iha ihb =>
    simp only [readProg] at h
    obtain ⟨s1, h1, h2⟩ := Out.andThen_ok.1 h
    obtain ⟨_, _, hl1, _⟩ := readProg_ahead hn.1 hl h1
    exact ihb (hn.2 s1 h1) hl1 he h2
  | act a =>
    cases a with
    | send =>
      simp only [readProg] at h
      have hpro : s.proceed = some s := by unfold RSt.proceed; rw [hl]
      rw [hpro] at h
      simp only [readAct, Out.lift_ok] at h
      obtain ⟨ofs, h1, ⟨r, o⟩, h2, h3⟩ := h
      cases h3
      exact ⟨_, h2⟩
    | _ => cases he
  | ite cond look thn els iht ihe =>
    simp only [endsSend, Bool.and_eq_true] at he
    obtain ⟨_, ht, hf⟩ := hn
    obtain ⟨t, hc⟩ := readProg_chooses (stopped_none hl) h
    rw [readProg_chosen (stopped_none hl) hc] at h
    cases t with
    | true => exact iht (ht hc) hl he.1 h
    | false => exact ihe (hf hc) hl he.2 h
  | _ => cases he

/-- A section that is read from some lines is read in the same way from other lines with the same beginning. -/
theorem readSection_place {c : RCtx} {p : Prog} {s : RSt} {L' : List Str} {n : Nat} (hL : c.lines.take n = L'.take n)
    (hb : ∀ i < n, ∃ l, c.lines[i]? = some l ∧ isBlankLine l = false) (hn : Foreseen c s.recs p { cur := initWork [] })
    (h : readSection c false p = .ok s) (hofs : s.ofs ≤ n) (hs : (∀ q ∈ s.recs, q.kind ≠ .send) ∨ ∃ z z' mat mf, c.lines[n]? = some z ∧ L'[n]? = some z' ∧
      (theReader c.ro).IsEnd mat mf z ∧ (theReader c.ro).IsEnd mat mf z') :
    ∃ s2, readSection { c with lines := L' } false p = .ok s2 ∧ s2.cur = s.cur ∧ s2.ofs = s.ofs := by
  obtain ⟨h1, h2⟩ := readSection_ahead' hn h
  obtain ⟨s2, g1, g2, _, g4⟩ := h2 _ _ (laid_in hL hb h1 hofs hs)
  exact ⟨s2, g1, g2, g4⟩

/-- where the section ends -/
theorem section_ofs {c : RCtx} {p : Prog} {s : RSt} {data : List Str} {z : Str} {mat mf mt : Int} (hc : c.lines = data ++ [z])
    (hd : ∀ l ∈ data, (theReader c.ro).IsData mat mf mt l) (hn : Foreseen c s.recs p { cur := initWork [] }) (he : endsSend p = true)
    (h : readSection c false p = .ok s) : s.ofs = data.length := by
  unfold readSection at h
  simp only [Out.andThen_ok, Out.lift_ok] at h
  obtain ⟨s0, h0, D, hD, h1⟩ := h
  cases h1
  dsimp only at hn ⊢
  obtain ⟨⟨r, n⟩, hr⟩ := send_last hn rfl he h0
  unfold readSend at hr
  simp only [bind_ok] at hr
  obtain ⟨⟨x, o⟩, h2, h3⟩ := hr
  dsimp only at h3
  split at h3
  · cases h3
  rename_i hz
  push Not at hz
  have hx := hz.2.2.2.2.2.2
  unfold readCont at h2
  simp only [bind_ok, pure_ok] at h2
  obtain ⟨l, g, _, _, _, _, _, _, _, _, _, _, _, _, k, g2, e⟩ := h2
  cases e
  unfold lineAt at g
  rw [hc] at g
  by_cases hlt : s0.ofs < data.length
  · rw [List.getElem?_append_left hlt, List.getElem?_eq_getElem hlt] at g
    cases g
    obtain ⟨_, e2, _, _, e3⟩ := hd _ (List.getElem_mem hlt)
    rw [theReader_ctrl, g2] at e2
    cases e2
    exact absurd hx e3
  · by_cases heq : s0.ofs = data.length
    · exact heq
    · rw [List.getElem?_eq_none (by simp; omega)] at g
      cases g

end Verif
