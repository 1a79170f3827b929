import Verif.Lemmas.Interp
import Verif.Lemmas.InterpWrite
/-
Properties of the recipe interpreter: C28, C35, C36, C37, C38.
-/
namespace Verif
open Spec

/-! ## C28 a parsed section has been consumed completely -/

theorem readSend_mt {o : ROpts} {lines : List Str} {n : Nat} {r : ContRec} {m : Nat} (h : readSend o lines n = .ok (r, m)) :
    ∃ hn : n < lines.length, ∃ k, readCtrl o.width lines[n] = .ok k ∧ k.mt = 0 := by
  unfold readSend at h
  rw [bind_ok] at h
  obtain ⟨⟨r1, n1⟩, h1, h2⟩ := h
  dsimp only at h2
  split at h2
  · cases h2
  · rename_i hz
    unfold readCont at h1
    simp only [bind_ok, pure_ok] at h1
    obtain ⟨line, hline, _, _, _, _, _, _, _, _, _, _, _, _, k, hk, h3⟩ := h1
    unfold lineAt at hline
    split at hline
    · rename_i l hl
      cases hline
      obtain ⟨hn, e⟩ := List.getElem?_eq_some_iff.1 hl
      refine ⟨hn, k, by rw [e]; exact hk, ?_⟩
      cases h3
      simp only [not_or, not_not] at hz
      exact hz.2.2.2.2.2.2
    · cases hline

/-- C28: if a section text `body ++ [send]`, whose lines before the last are blank or carry a section number MT, is read
successfully according to a recipe that ends with SEND, then the lines read by the records follow each other without
gaps (blank lines apart) from the first line up to the end of `body`: no line is left over and none is read twice. -/
theorem C28_complete (c : RCtx) (ia : Bool) (p : Prog) (body : List Str) (send : Str) (s' : RSt)
    (hl : c.lines = body ++ [send])
    (hb : ∀ l ∈ body, strip l = [] ∨ ∀ k, readCtrl c.ro.width l = .ok k → k.mt ≠ 0)
    (h : readSection c ia (.seq p (.act .send)) = .ok s') :
    Covers c.lines 0 s'.spans body.length ∧ s'.ofs = body.length := by
  unfold readSection at h
  simp only [Out.andThen_ok, Out.lift_ok] at h
  obtain ⟨s2, h2, cur, h3, h4⟩ := h
  cases h4
  have hfr := readProg_frame h2
  rw [readProg, Out.andThen_ok] at h2
  obtain ⟨s1, h1, h2⟩ := h2
  have hlk : s1.look = none := (readProg_frame h1).look rfl
  rw [readProg] at h2
  simp only [RSt.proceed, hlk, readAct, Out.lift_ok] at h2
  obtain ⟨ofs, hskip, ⟨r, m⟩, hsend, hlog⟩ := h2
  obtain ⟨hlt, k, hk, hmt⟩ := readSend_mt hsend
  obtain ⟨_, hlt', hnb⟩ := skipBlankLines_ok hskip
  have hofs : s2.ofs = ofs := by cases hlog; rfl
  have hend : ofs = body.length := by
    by_contra hne
    have hlen : c.lines.length = body.length + 1 := by rw [hl]; simp
    have hlt2 : ofs < body.length := by omega
    have e : c.lines[ofs] = body[ofs] := by
      simp only [hl]; rw [List.getElem_append_left hlt2]
    rcases hb _ (List.getElem_mem hlt2) with hbl | hbl
    · exact hnb (by rw [e]; exact hbl)
    · exact hbl k (by rw [← e]; exact hk) hmt
  obtain ⟨sp, e1, e2⟩ := hfr.cov
  simp only [List.nil_append] at e1
  rw [hofs, hend] at e2
  exact ⟨by rw [e1]; exact e2, by rw [hofs, hend]⟩

theorem Spec.Covers.first_le {lines : List Str} {a b : Nat} {sp : List (Nat × Nat)} (h : Covers lines a sp b) :
    ∀ i, (hi : i < sp.length) → a ≤ sp[i].1 := by
  induction h with
  | nil _ => intro i hi; simp at hi
  | cons hb hxy _ ih =>
    intro i hi
    cases i with
    | zero => simpa using hb.1
    | succ i =>
      have := ih i (by simpa using hi)
      have := hb.1
      simp only [List.getElem_cons_succ]
      omega

/-- every line that is not blank lies in exactly one of the ranges -/
theorem C28_each_line_once (lines : List Str) (a b : Nat) (sp : List (Nat × Nat)) (h : Covers lines a sp b) (j : Nat)
    (hj : j < lines.length) (h1 : a ≤ j) (h2 : j < b) (hne : strip lines[j] ≠ []) :
    ∃! i, ∃ hi : i < sp.length, sp[i].1 ≤ j ∧ j < sp[i].2 := by
  induction h with
  | nil hb => exact absurd (hb.2 j h1 h2 hj) hne
  | @cons a x y sp b hb hxy hc ih =>
    have key := hc.first_le
    by_cases hjx : j < x
    · exact absurd (hb.2 j h1 hjx hj) hne
    · by_cases hjy : j < y
      · refine ⟨0, ⟨by simp, by simp; omega⟩, ?_⟩
        rintro i ⟨hi, h3, h4⟩
        cases i with
        | zero => rfl
        | succ i =>
          have := key i (by simpa using hi)
          simp only [List.getElem_cons_succ] at h3
          omega
      · obtain ⟨i, ⟨hi, h3, h4⟩, hu⟩ := ih (by omega) h2
        refine ⟨i + 1, ⟨by simpa using hi, by simpa using ⟨h3, h4⟩⟩, ?_⟩
        rintro i' ⟨hi', h5, h6⟩
        cases i' with
        | zero => simp at h5 h6; omega
        | succ i' =>
          rw [hu i' ⟨by simpa using hi', by simpa using ⟨h5, h6⟩⟩]

/-! ## C35 for loops -/

theorem iterate_loop {σ : Type} (setVar : Int → σ → σ) (body : σ → Out σ) (x y : Int) (s s' : σ) :
    iterate setVar body (intRange x y) s = .ok s' ↔ Loop (fun i s s1 => body (setVar i s) = .ok s1) y x s s' := by
  induction hn : (y + 1 - x).toNat generalizing x s with
  | zero =>
    rw [intRange_empty (by omega), iterate]
    constructor
    · intro h; cases h; exact .done (by omega)
    · intro h
      cases h with
      | done _ => rfl
      | next h _ _ => omega
  | succ n ih =>
    have hxy : x ≤ y := by omega
    rw [intRange_cons hxy, iterate, Out.andThen_ok]
    constructor
    · rintro ⟨s1, h1, h2⟩
      exact .next hxy h1 ((ih _ _ (by omega)).1 h2)
    · intro h
      cases h with
      | done h => omega
      | next _ h1 h2 => exact ⟨_, h1, (ih _ _ (by omega)).2 h2⟩

theorem loopBound_iff (v : Val) (i : Int) : loopBound v = .ok i ↔ ∃ x, v = .num x ∧ x.val = i := by
  cases v with
  | num x =>
    simp only [loopBound]
    split
    · rename_i h
      simp only [reduceCtorEq, Val.num.injEq, exists_eq_left', false_iff]
      intro hx; apply h; rw [hx]; simp [truncRat_int]
    · rename_i h
      simp only [not_not] at h
      simp only [Except.ok.injEq, Val.num.injEq, exists_eq_left']
      constructor
      · intro e; rw [← h, e]
      · intro e; rw [e, truncRat_int]
  | _ => simp [loopBound]

theorem loopHead_iff (fuel : Nat) (env : Env) (v : Name) (a b : Expr) (x y : Int) :
    loopHead fuel env v a b = .ok (x, y) ↔ ∃ p q, evalKnown fuel env true true a = .ok (.num p) ∧ p.val = x ∧
      evalKnown fuel env true true b = .ok (.num q) ∧ q.val = y ∧ dGet v env.lv = none := by
  unfold loopHead
  simp only [bind_ok]
  constructor
  · rintro ⟨va, ha, vb, hb, a', ha', b', hb', h⟩
    obtain ⟨p, rfl, hp⟩ := (loopBound_iff _ _).1 ha'
    obtain ⟨q, rfl, hq⟩ := (loopBound_iff _ _).1 hb'
    split at h
    · cases h
    · rename_i hh
      cases h
      exact ⟨p, q, ha, hp, hb, hq, by simpa [dHas] using hh⟩
  · rintro ⟨p, q, ha, hp, hb, hq, hv⟩
    refine ⟨_, ha, _, hb, x, (loopBound_iff _ _).2 ⟨p, rfl, hp⟩, y, (loopBound_iff _ _).2 ⟨q, rfl, hq⟩, ?_⟩
    rw [if_neg (by simp [dHas, hv])]; rfl

/-- C35: a loop succeeds exactly if both bounds are integers, its variable is not the variable of an enclosing loop, and
the runs of the body for start, start+1, ..., stop succeed one after the other; the loop variables are the old ones
afterwards. -/
theorem C35_loop (c : RCtx) (v : Name) (a b : Expr) (body : Prog) (s s' : RSt) (hs : s.look ≠ some 0) :
    readProg c (.loop v a b body) s = .ok s' ↔
    ∃ p q, ∃ x y : Int, ∃ s1, evalKnown c.fuel s.env true true a = .ok (.num p) ∧ p.val = x ∧
      evalKnown c.fuel s.env true true b = .ok (.num q) ∧ q.val = y ∧ dGet v s.lv = none ∧
      Loop (fun i t t' => readProg c body { t with lv := dSet v i t.lv } = .ok t') y x s s1 ∧
      s' = { s1 with lv := s.lv } := by
  rw [readProg, if_neg (by simpa [RSt.stopped] using hs), Out.lift_ok]
  constructor
  · rintro ⟨⟨x, y⟩, h1, h2⟩
    rw [Out.andThen_ok] at h2
    obtain ⟨s1, h2, h3⟩ := h2
    obtain ⟨p, q, g1, g2, g3, g4, g5⟩ := (loopHead_iff _ _ _ _ _ _ _).1 h1
    have hlv := loop_lv (lv := fun l : RSt => l.lv) (fun _ _ => rfl) (fun s s' hs => (readProg_frame hs).lv)
      (loopHead_ok h1) h2
    refine ⟨p, q, x, y, s1, g1, g2, g3, g4, g5, (iterate_loop _ _ _ _ _ _).1 h2, ?_⟩
    cases h3
    split
    · rename_i hxy; simp only [hxy, if_true] at hlv; rw [← hlv]
    · rename_i hxy; simp only [hxy, if_false] at hlv; rw [← hlv]
  · rintro ⟨p, q, x, y, s1, g1, g2, g3, g4, g5, h2, rfl⟩
    have h1 := (loopHead_iff c.fuel s.env v a b x y).2 ⟨p, q, g1, g2, g3, g4, g5⟩
    have h2' := (iterate_loop (RSt.setVar v) (readProg c body) x y s s1).2 h2
    have hlv := loop_lv (lv := fun l : RSt => l.lv) (fun _ _ => rfl) (fun s s' hs => (readProg_frame hs).lv)
      (loopHead_ok h1) h2'
    refine ⟨(x, y), h1, ?_⟩
    rw [Out.andThen_ok]
    refine ⟨s1, h2', ?_⟩
    split
    · rename_i hxy; simp only [hxy, if_true] at hlv; rw [← hlv]
    · rename_i hxy; simp only [hxy, if_false] at hlv; rw [← hlv]

/-- a loop with `stop < start` does nothing -/
theorem C35_empty (c : RCtx) (v : Name) (a b : Expr) (body : Prog) (s : RSt) (hs : s.look ≠ some 0) (p q : PyNum)
    (x y : Int) (ha : evalKnown c.fuel s.env true true a = .ok (.num p)) (hx : p.val = x)
    (hb : evalKnown c.fuel s.env true true b = .ok (.num q)) (hy : q.val = y) (hv : dGet v s.lv = none) (h : y < x) :
    readProg c (.loop v a b body) s = .ok s :=
  (C35_loop c v a b body s s hs).2 ⟨p, q, x, y, s, ha, hx, hb, hy, hv, .done h, rfl⟩

/-- a loop variable disappears behind its loop -/
theorem C35_gone (c : RCtx) (v : Name) (a b : Expr) (body : Prog) (s s' : RSt) (hs : s.look ≠ some 0)
    (h : readProg c (.loop v a b body) s = .ok s') : dGet v s'.lv = none := by
  obtain ⟨p, q, x, y, s1, _, _, _, _, hv, _, rfl⟩ := (C35_loop c v a b body s s' hs).1 h
  exact hv

/-! ## C36 lookahead leaves no trace -/

/-- C36: if the looked-at instructions end in the state `w`, regularly or with a record of another section, and the
condition can be decided there, then the outcome is that of the branch run from the state `s` before the lookahead:
data, position in the text, loop variables and tolerances are the old ones, whatever `w` is. -/
theorem C36_outcome (c : RCtx) (cond : Cond) (e : Expr) (thn els : Prog) (s w : RSt) (n : Int) (t : Bool)
    (hs : s.look = none) (p : PyNum) (he : evalKnown c.fuel s.env true true e = .ok (.num p)) (hp : p.val = n)
    (hw : readProg c thn { s with look := some n, ignoreAll := true } = .ok w ∨
      readProg c thn { s with look := some n, ignoreAll := true } = .err .unexpectedControl w)
    (ht : evalCond c.fuel (w.envAt s.ups.length) cond = .ok t) :
    readProg c (.ite cond (some e) thn els) s = if t then readProg c thn s else readProg c els s := by
  rw [readProg.eq_def]
  dsimp only
  have hc : lookCount c s e = .ok n := by
    unfold lookCount
    rw [he]
    simp only [bind, Except.bind, hp, truncRat_int, ne_eq, not_true_eq_false, if_false, hs, Option.isSome_none,
      Bool.false_eq_true]
  rw [if_neg (by simp [RSt.stopped, hs]), hc]
  simp only [Out.lift]
  rcases hw with hw | hw <;> simp only [hw, ht]

/-- ... and it succeeds in no other way -/
theorem C36_restores (c : RCtx) (cond : Cond) (e : Expr) (thn els : Prog) (s s' : RSt) (hs : s.look ≠ some 0)
    (h : readProg c (.ite cond (some e) thn els) s = .ok s') :
    ∃ (n : Int) (w : RSt) (t : Bool), (readProg c thn { s with look := some n, ignoreAll := true } = .ok w ∨
        readProg c thn { s with look := some n, ignoreAll := true } = .err .unexpectedControl w) ∧
      evalCond c.fuel (w.envAt s.ups.length) cond = .ok t ∧
      (if t then readProg c thn s else readProg c els s) = .ok s' := by
  rw [readProg.eq_def] at h
  dsimp only at h
  rw [if_neg (by simpa [RSt.stopped] using hs), Out.lift_ok] at h
  obtain ⟨n, _, h⟩ := h
  split at h
  · rename_i w hw
    rw [Out.lift_ok] at h
    obtain ⟨t, h1, h⟩ := h
    exact ⟨n, w, t, .inr hw, h1, h⟩
  · rename_i w hw
    rw [Out.lift_ok] at h
    obtain ⟨t, h1, h⟩ := h
    exact ⟨n, w, t, .inl hw, h1, h⟩
  · cases h

/-! ## C37 no internal bookkeeping in results -/

/-- C37: the dictionary of a section that was read successfully contains at no depth internal entries or abbreviations. -/
theorem C37_read (c : RCtx) (ia : Bool) (p : Prog) (s' : RSt) (h : readSection c ia p = .ok s') : Clean (.dic s'.cur) := by
  unfold readSection at h
  simp only [Out.andThen_ok, Out.lift_ok] at h
  obtain ⟨s2, h2, cur, h3, h4⟩ := h
  cases h4
  have h0 : Lvl false ([] : DDic) := Lvl.of_clean (.dic _ (by simp [DNodup, dKeys]) (by simp [dGet]) (by simp [dGet]))
  obtain ⟨g1, g2⟩ := (readProg_frame h2).lvl (initWork_lvl h0)
  obtain ⟨g3, g4⟩ := removeWork_lvl g1 h3
  have hup : dHas .up cur = false := by rw [g4, g2]; rfl
  have := g3.clean
  have e : dDel Key.up cur = cur := by
    clear * - hup
    induction cur with
    | nil => rfl
    | cons p d ih =>
      obtain ⟨k, v⟩ := p
      have hk : k ≠ Key.up := by rintro rfl; simp [dHas, dGet] at hup
      have hd : dHas Key.up d = false := by simpa [dHas, dGet, hk] using hup
      simp only [dDel, if_neg hk, ih hd]
  rwa [e] at this

/-- C72: successful writing leaves the dictionary as it was, apart from the entries MF and MT, which are added if they
are missing: no internal entries, no abbreviations, no other changes at any depth. -/
theorem C72_unchanged (fuel : Nat) (mf mt : Int) (p : Prog) (d : DDic) (hd : Clean (.dic d)) (s : WSt)
    (h : writeSection fuel mf mt p d = .ok s) :
    let d1 := if dHas (.var "MF") d then d else dSet (.var "MF") (.num (.int mf)) d
    s.cur = if dHas (.var "MT") d1 then d1 else dSet (.var "MT") (.num (.int mt)) d1 := by
  intro d1
  unfold writeSection at h
  simp only [bind_ok] at h
  obtain ⟨m, _, h⟩ := h
  split at h
  · cases h
  · simp only [bind_ok] at h
    obtain ⟨m', _, h⟩ := h
    split at h
    · cases h
    · simp only [bind_ok, pure_ok] at h
      obtain ⟨s1, h1, cur, h2, rfl⟩ := h
      have g0 : Lvl false d1 := by
        show Lvl false (if _ then _ else _)
        split
        · exact Lvl.of_clean hd
        · exact (Lvl.of_clean hd).set_var _ (.num _)
      have g1 : Lvl false (if dHas (.var "MT") d1 then d1 else dSet (.var "MT") (.num (.int mt)) d1) := by
        split
        · exact g0
        · exact g0.set_var _ (.num _)
      obtain ⟨w1, w2⟩ := clean_work g1
      obtain ⟨w3, w4⟩ := (writeProg_frame h1).inv w1
      have := removeWork_core w3 h2
      rw [w4, w2] at this
      exact this

/-! ## C38 LIST bodies consume exactly the announced numbers -/

/-- the numbers from position `pos` on; behind the end zeros -/
def seg (vals : List PyNum) (pos n : Nat) : List PyNum := (List.range n).map fun i => (vals[pos + i]?).getD (.int 0)

theorem seg_length (vals : List PyNum) (pos n : Nat) : (seg vals pos n).length = n := by simp [seg]

theorem seg_add (vals : List PyNum) (pos m n : Nat) : seg vals pos (m + n) = seg vals pos m ++ seg vals (pos + m) n := by
  simp only [seg, List.range_add, List.map_append, List.map_map, List.append_cancel_left_eq]
  apply List.map_congr_left
  intro i _
  simp [Nat.add_assoc]

theorem seg_all (vals : List PyNum) : seg vals 0 vals.length = vals := by
  apply List.ext_getElem
  · simp [seg]
  · intro i h1 h2; simp [seg, h2]

theorem readBody_run {c : RCtx} {vals : List PyNum} {b : LBody} {l l' : LSt} (h : readBody c vals b l = .ok l') :
    ∃ n, l'.pos = l.pos + n ∧ BodyRun c b l.pos l.st (seg vals l.pos n) l'.st ∧
      (NoPad b → l.pos ≤ vals.length → l'.pos ≤ vals.length) := by
  induction b generalizing l l' with
  | nil => cases h; exact ⟨0, rfl, ⟨by simp [seg], rfl⟩, fun _ h => h⟩
  | seq a b iha ihb =>
    rw [readBody, Out.andThen_ok] at h
    obtain ⟨l1, h1, h2⟩ := h
    obtain ⟨n1, e1, r1, b1⟩ := iha h1
    obtain ⟨n2, e2, r2, b2⟩ := ihb h2
    refine ⟨n1 + n2, by omega, ⟨_, _, l1.st, seg_add _ _ _ _, r1, ?_⟩, fun hn hl => b2 hn.2 (b1 hn.1 hl)⟩
    rw [seg_length, ← e1]; exact r2
  | expr e =>
    rw [readBody] at h
    split at h
    · cases h
    · rename_i v hv
      rw [Out.lift_ok] at h
      obtain ⟨cur, h1, h2⟩ := h
      cases h2
      refine ⟨1, rfl, ⟨v, cur, by simp [seg, hv], h1, rfl⟩, fun _ _ => ?_⟩
      obtain ⟨h3, _⟩ := List.getElem?_eq_some_iff.1 hv
      exact h3
  | pad =>
    cases h
    refine ⟨(6 - l.pos % 6) % 6, rfl, ⟨⟨(l.pos + (6 - l.pos % 6) % 6) / 6, ?_⟩, ?_, rfl⟩, fun hn => hn.elim⟩
    · rw [seg_length]; omega
    · rw [seg_length]; omega
  | loop v a b body ih =>
    rw [readBody, Out.lift_ok] at h
    obtain ⟨⟨x, y⟩, h1, h⟩ := h
    rw [Out.andThen_ok] at h
    obtain ⟨l1, h2, h3⟩ := h
    have hlv := loop_lv (lv := fun l : LSt => l.st.lv) (fun _ _ => rfl)
      (fun s s' hs => (readBody_frame (a := true) hs).lv) (loopHead_ok h1) h2
    rw [iterate_loop] at h2
    have key : ∀ x (l l1 : LSt) pos0 n0, l.pos = pos0 + n0 →
        Loop (fun i s s1 => readBody c vals body (LSt.setVar v i s) = .ok s1) y x l l1 →
        ∃ n, l1.pos = pos0 + n ∧
        Loop (fun i (p q : List PyNum × RSt) => ∃ ws, q.1 = p.1 ++ ws ∧
          BodyRun c body (pos0 + p.1.length) { p.2 with lv := dSet v i p.2.lv } ws q.2) y x (seg vals pos0 n0, l.st)
          (seg vals pos0 n, l1.st) ∧ (NoPad body → l.pos ≤ vals.length → l1.pos ≤ vals.length) := by
      intro x l l1 pos0 n0 hpos hl
      induction hl generalizing n0 with
      | @done i s hi => exact ⟨n0, hpos, .done hi, fun _ h => h⟩
      | @next i s s1 s2 hi hstep _ ih2 =>
        obtain ⟨n1, e1, r1, b1⟩ := ih hstep
        have e1' : s1.pos = pos0 + (n0 + n1) := by
          rw [e1]; simp only [LSt.setVar]; omega
        obtain ⟨n, e2, r2, b2⟩ := ih2 (n0 + n1) e1'
        refine ⟨n, e2, .next hi ⟨seg vals (pos0 + n0) n1, seg_add _ _ _ _, ?_⟩ r2, fun hn hl => b2 hn (b1 hn hl)⟩
        simp only [seg_length]
        simp only [LSt.setVar, hpos] at r1
        exact r1
    obtain ⟨n, e, r, bd⟩ := key x l l1 l.pos 0 rfl h2
    have e' : l'.pos = l1.pos ∧ l'.st = { l1.st with lv := l.st.lv } := by
      cases h3
      split
      · rename_i hxy; simp only [hxy, if_true] at hlv; exact ⟨rfl, by rw [← hlv]⟩
      · rename_i hxy; simp only [hxy, if_false] at hlv; exact ⟨rfl, by rw [← hlv]⟩
    refine ⟨n, by omega, ⟨x, y, l1.st, h1, ?_, e'.2⟩, fun hn hl => by rw [e'.1]; exact bd hn hl⟩
    exact r

/-- around a sub-dictionary if a name is given -/
def Inside (name : Option VarRef) (s : RSt) (R : RSt → RSt → Prop) (s' : RSt) : Prop :=
  match name with
  | none => R s s'
  | some r => ∃ t t', openR s r = .ok t ∧ R t t' ∧ closeR t' = .ok s'

/-- `s1` arises from `s` by giving the six head fields of a LIST record to the expressions `fs` -/
def HeadRead (c : RCtx) (fs : List Expr) (r : ListRec) (s s1 : RSt) : Prop :=
  mapRead c.fuel (s.po c) s.outer s.lv fs r.head.vals s.cur = .ok s1.cur ∧ s1.ups = s.ups ∧ s1.lv = s.lv

theorem readAct_list {c : RCtx} {k : CSpec} {fs : List Expr} {body : LBody} {name : Option VarRef} {s s' : RSt}
    (hs : s.look = none) (h : readAct c (.list k fs body name) s = .ok s') :
    ∃ ofs r ofs' s1 l, skipBlankLines c.lines s.ofs = .ok ofs ∧ readList c.ro c.lines ofs = .ok (r, ofs') ∧
      HeadRead c fs r s s1 ∧
      readNamedBody c (r.vals.map PyNum.num) body name s1 = .ok l ∧ ¬ l.pos < (r.vals.map PyNum.num).length ∧
      l.st.cur = s'.cur := by
  rw [readAct] at h
  obtain ⟨ofs, r, ofs', h1, h2, h⟩ := takeRec_ok h
  simp only [Out.lift_ok, Out.andThen_ok] at h
  obtain ⟨_, _, s1, hm, h⟩ := h
  have hl1 : s1.look = none := (mapFields_frame (a := true) (contVals_clean _) hm).look hs
  simp only [RSt.proceed, hl1] at h
  split at h
  · cases h
  · rename_i l hl
    split at h
    · cases h
    · rename_i hp
      refine ⟨ofs, r, ofs', s1, l, h1, h2, ?_, hl, hp, by unfold logRec at h; cases h; rfl⟩
      unfold mapFields at hm
      rw [Out.lift_ok] at hm
      obtain ⟨cur, hm, e⟩ := hm
      cases e
      exact ⟨hm, rfl, rfl⟩

/-- C38 for templates without PADLINE: if a LIST record is read successfully then its body takes exactly the numbers of
the record, whose count is NPL, each once and in order. -/
theorem C38_exact (c : RCtx) (k : CSpec) (fs : List Expr) (body : LBody) (name : Option VarRef) (s s' : RSt)
    (hs : s.look = none) (hn : NoPad body) (h : readAct c (.list k fs body name) s = .ok s') :
    ∃ ofs r ofs' s1 s2, skipBlankLines c.lines s.ofs = .ok ofs ∧ readList c.ro c.lines ofs = .ok (r, ofs') ∧
      r.vals.length = (slotVal r.head.n1).toNat ∧ HeadRead c fs r s s1 ∧
      Inside name s1 (fun t t' => BodyRun c body 0 t (r.vals.map PyNum.num) t') s2 ∧ s2.cur = s'.cur := by
  obtain ⟨ofs, r, ofs', s1, l, h0, h1, hm, h2, h3, h4⟩ := readAct_list hs h
  refine ⟨ofs, r, ofs', s1, l.st, h0, h1, ?_, hm, ?_, h4⟩
  · unfold readList at h1
    simp only [bind_ok] at h1
    obtain ⟨⟨hd, n1⟩, g1, g2⟩ := h1
    dsimp only at g2
    split at g2
    · rename_i hz; cases g2; simp [hz]
    · simp only [bind_ok, pure_ok] at g2
      obtain ⟨⟨vs, n2⟩, g3, g4⟩ := g2
      have := (C19_read_count _ _ _ _ _ _ g3).1
      cases g4; exact this
  · have key : ∀ {t : RSt} {l : LSt}, readBody c (r.vals.map PyNum.num) body { pos := 0, st := t } = .ok l →
        ¬ l.pos < (r.vals.map PyNum.num).length → BodyRun c body 0 t (r.vals.map PyNum.num) l.st := by
      intro t l hl hp
      obtain ⟨n, e, r1, b1⟩ := readBody_run hl
      have hb := b1 hn (Nat.zero_le _)
      have hnn : n = (r.vals.map PyNum.num).length := by simp only at e; omega
      rw [hnn, seg_all] at r1
      exact r1
    unfold readNamedBody at h2
    unfold Inside
    split at h2
    · exact key h2 h3
    · simp only [Out.lift_ok, Out.andThen_ok] at h2
      obtain ⟨t, g1, l2, g2, t3, g3, g4⟩ := h2
      cases g4
      exact ⟨t, l2.st, g1, key g2 h3, g3⟩

/-- C38 with PADLINE, partial: the body takes the numbers of the record in order and all of them; what PADLINE takes
beyond the end of the list is filled up with zeros.  Missing: that nothing is taken beyond the end, see
`C38_padding_fails`. -/
theorem C38_padding_partial (c : RCtx) (k : CSpec) (fs : List Expr) (body : LBody) (name : Option VarRef) (s s' : RSt)
    (hs : s.look = none) (h : readAct c (.list k fs body name) s = .ok s') :
    ∃ ofs r ofs' s1 s2 m, skipBlankLines c.lines s.ofs = .ok ofs ∧ readList c.ro c.lines ofs = .ok (r, ofs') ∧
      HeadRead c fs r s s1 ∧
      Inside name s1 (fun t t' => BodyRun c body 0 t (r.vals.map PyNum.num ++ List.replicate m (.int 0)) t') s2 ∧
      s2.cur = s'.cur := by
  obtain ⟨ofs, r, ofs', s1, l, h0, h1, hm, h2, h3, h4⟩ := readAct_list hs h
  have key : ∀ {t : RSt} {l : LSt}, readBody c (r.vals.map PyNum.num) body { pos := 0, st := t } = .ok l →
      ¬ l.pos < (r.vals.map PyNum.num).length →
      BodyRun c body 0 t (r.vals.map PyNum.num ++ List.replicate (l.pos - (r.vals.map PyNum.num).length) (.int 0)) l.st := by
    intro t l hl hp
    obtain ⟨n, e, r1, b1⟩ := readBody_run hl
    have hnn : n = (r.vals.map PyNum.num).length + (l.pos - (r.vals.map PyNum.num).length) := by simp only at e; omega
    rw [hnn, seg_add, seg_all] at r1
    convert r1 using 3
    apply List.ext_getElem
    · simp [seg]
    · intro i _ _; simp [seg]
  refine ⟨ofs, r, ofs', s1, l.st, l.pos - (r.vals.map PyNum.num).length, h0, h1, hm, ?_, h4⟩
  unfold readNamedBody at h2
  unfold Inside
  split at h2
  · exact key h2 h3
  · simp only [Out.lift_ok, Out.andThen_ok] at h2
    obtain ⟨t, g1, l2, g2, t3, g3, g4⟩ := h2
    cases g4
    exact ⟨t, l2.st, g1, key g2 h3, g3⟩


/-! ## examples -/

namespace Example

def head : Str := " 1.001000+3 9.991673-1          0          0          0          0 125 3  1".toList
def list : Str := "        0.0        0.0          0          0          3          7 125 3  1".toList
def vals : Str := "        1.5        2.5        3.5                                  125 3  1".toList
def send : Str := "        0.0        0.0          0          0          0          0 125 3  0".toList

def x : Expr := .var ⟨"X", []⟩
def i (n : Int) : Expr := .num (.int n)
def f : Expr := .num (.num (.flt 0))

/-- `[MAT, MF, MT / ZA, AWR, 0, 0, 0, 0]HEAD`, an abbreviation, and in a section a LIST record with a loop -/
def recipe : Prog :=
  .seq (.act (.cont true {} [.var ⟨"ZA", []⟩, .var ⟨"AWR", []⟩, i 0, i 0, i 0, i 0]))
    (.seq (.abbr "K" (i 3))
      (.seq (.sect ⟨"S", []⟩
        (.act (.list {} [f, f, i 0, i 0, .var ⟨"K", []⟩, .var ⟨"N2", []⟩]
          (.loop "k" (i 1) (.var ⟨"K", []⟩) (.expr (.var ⟨"B", [.var "k"]⟩))) none)))
      (.act .send)))

/-- a section text with a blank line -/
def text : List Str := [head, "".toList, list, vals] ++ [send]

/-- keys of a dictionary, and of the dictionary below each name -/
def keys2 (d : DDic) : List (Key × List Key) :=
  d.map fun p => (p.1, match p.2 with | .dic e => dKeys e | _ => [])

/-- C28, C37, C38: the section is read; its records cover lines 0 and 2-3; the dictionary has the variables only -/
example : (match readSection { lines := text } false recipe with
    | .ok s => s.spans == [(0, 1), (2, 4)] && s.ofs == 4 &&
        keys2 s.cur == [(.var "ZA", []), (.var "AWR", []), (.var "MAT", []), (.var "MF", []), (.var "MT", []),
          (.var "S", [.var "K", .var "N2", .var "B"])]
    | .err _ _ => false) = true := by decide +kernel

/-- with a line too many the section is refused -/
example : (match readSection { lines := [head, list, vals, head] ++ [send] } false recipe with
    | .err .notSectionEnd _ => true
    | _ => false) = true := by decide +kernel

/-- with a number too many in the list (NPL = 3, two used) too -/
example : (match readProg { lines := [list, vals] } (.act (.list {} [f, f, i 0, i 0, i 3, i 7]
      (.loop "k" (i 1) (i 2) (.expr (.var ⟨"B", [.var "k"]⟩))) none)) {} with
    | .err .unconsumedList _ => true
    | _ => false) = true := by decide +kernel

/-- C35: a loop from 2 to 3 over two records -/
example : (match readProg { lines := [head, head] } (.loop "k" (i 2) (i 3)
      (.act (.cont false {} [.var ⟨"ZA", [.var "k"]⟩, .var ⟨"AWR", [.var "k"]⟩, i 0, i 0, i 0, i 0]))) {} with
    | .ok s => s.lv == [] && keys2 s.cur == [(.var "ZA", [.idx 2, .idx 3]), (.var "AWR", [.idx 2, .idx 3])]
    | _ => false) = true := by decide +kernel

/-- the condition `N2 = 7` with lookahead on the next record -/
def lookRecipe : Prog :=
  .ite (.cmp .eq (.var ⟨"N2", []⟩) (i 7)) (some (i 1))
    (.act (.cont false {} [.var ⟨"C1", []⟩, f, i 0, i 0, .var ⟨"N1", []⟩, .var ⟨"N2", []⟩])) .skip

/-- C36: with the LIST head ahead the condition holds, and its first branch reads the record again from the start;
with the other record ahead nothing is read -/
example : (match readProg { lines := [list] } lookRecipe {} with
    | .ok s => s.ofs == 1 && dKeys s.cur == [.var "C1", .var "N1", .var "N2"] && s.spans == [(0, 1)]
    | _ => false) = true ∧
    (match readProg { lines := [head] } lookRecipe {} with
    | .ok s => s.ofs == 0 && dKeys s.cur == [] && s.spans == [] && !s.ignoreAll
    | _ => false) = true := by decide +kernel

/-- C36, outside of the rest of the recipe: if the lookahead ends with any other exception, the flag
`ignore_all_mismatches` set for the lookahead stays set. -/
theorem C36_flag_stays :
    (match readProg { lines := ["nonsense".toList] } lookRecipe {} with
    | .err _ s => s.ignoreAll
    | _ => false) = true := by decide +kernel

/-- C72: what was read is written to three records, and the dictionary is the same afterwards -/
example : (match readSection { lines := text } false recipe with
    | .ok s => match writeSection 100 3 1 recipe s.cur with
      | .ok w => w.out.length == 3 && keys2 w.cur == keys2 s.cur
      | .error _ => false
    | .err _ _ => false) = true := by decide +kernel

/-- C38 is violated with PADLINE at the end: the template takes six numbers although NPL is 3. -/
theorem C38_padding_fails :
    (match readNamedBody { lines := [] } [.int 1, .int 2, .int 3]
        (.seq (.loop "k" (i 1) (i 3) (.expr (.var ⟨"B", [.var "k"]⟩))) .pad) none {} with
    | .ok l => l.pos == 6
    | _ => false) = true := by decide +kernel

end Example

end Verif
