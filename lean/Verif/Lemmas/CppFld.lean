import Verif.Lemmas.CppSect
import Verif.Props.CppVec

/-! Fields of lines in both parsers, and the changes of blocks by records. -/

namespace Verif.CF
open Verif Spec

/-! ### fields -/

theorem readLine_any {val : Bool} {k : Ctrl} {ls : List Str} {p : Str × List Str} (h : cppReadLine val k ls = .ok p) : p = nextLine ls := by
  unfold cppReadLine at h
  dsimp only at h
  split at h
  · simp only [cbind_ok'] at h
    obtain ⟨_, _, _, _, _, _, h⟩ := h
    split at h <;> cases h
    rfl
  · cases h; rfl

theorem readLine_false {k : Ctrl} {ls : List Str} : cppReadLine false k ls = .ok (nextLine ls) := rfl

theorem vecLoop_false {α : Type} {rd : Str → Nat → CRes α} {val : Bool} {k : Ctrl} {n j : Nat} {line : Str} {ls : List Str}
    {p : List α × List Str} (h : cppVecLoop rd val k n j line ls = .ok p) : cppVecLoop rd false k n j line ls = .ok p := by
  induction n generalizing j line ls p with
  | zero => exact h
  | succ n ih =>
    simp only [cppVecLoop, cbind_ok'] at h ⊢
    obtain ⟨v, hv, ⟨l, r, j'⟩, hq, ⟨vs, r'⟩, hr, h⟩ := h
    refine ⟨v, hv, ⟨l, r, j'⟩, ?_, ⟨vs, r'⟩, ih hr, h⟩
    split at hq
    · rename_i hc
      rw [if_pos hc]
      simp only [cbind_ok'] at hq ⊢
      obtain ⟨⟨a, b⟩, hab, hq⟩ := hq
      exact ⟨(a, b), by rw [readLine_any hab]; rfl, hq⟩
    · rename_i hc
      rw [if_neg hc]; exact hq

theorem readVec_false {α : Type} {rd : Str → Nat → CRes α} {val : Bool} {k : Ctrl} {n : Nat} {ls : List Str}
    {p : List α × List Str} (h : cppReadVec rd val k n ls = .ok p) : cppReadVec rd false k n ls = .ok p := by
  unfold cppReadVec at h ⊢
  simp only [cbind_ok'] at h ⊢
  obtain ⟨⟨l, r⟩, hl, h⟩ := h
  exact ⟨(l, r), by rw [readLine_any hl]; rfl, vecLoop_false h⟩

theorem readTab1_false {α : Type} {rd : Str → Nat → CRes α} {val : Bool} {k : Ctrl} {nr np : Nat} {ls : List Str}
    {p : CTab1 α × List Str} (h : cppReadTab1 rd val k nr np ls = .ok p) : cppReadTab1 rd false k nr np ls = .ok p := by
  unfold cppReadTab1 at h ⊢
  simp only [cbind_ok'] at h ⊢
  obtain ⟨⟨v, l⟩, hv, ⟨w, l'⟩, hw, h⟩ := h
  exact ⟨(v, l), readVec_false hv, (w, l'), readVec_false hw, h⟩

theorem readTab2_false {val : Bool} {k : Ctrl} {nr : Nat} {ls : List Str}
    {p : (List Int × List Int) × List Str} (h : cppReadTab2 val k nr ls = .ok p) : cppReadTab2 false k nr ls = .ok p := by
  unfold cppReadTab2 at h ⊢
  simp only [cbind_ok'] at h ⊢
  obtain ⟨⟨v, l⟩, hv, h⟩ := h
  exact ⟨(v, l), readVec_false hv, h⟩

theorem readFloat_flt {o : ROpts} (ho : o.preserve = false) {f : Str} {x : Num} (h : readFloat o f = .ok x) : x = .flt x.val := by
  unfold readFloat fortstr2float at h
  rw [ho] at h
  dsimp only at h
  split at h
  · cases h; rfl
  · split at h <;> cases h
    rfl

theorem float_agree {o : ROpts} (ho : o.width = 11) (hp : o.preserve = false) {l : Str} (hl : PlainLine l) {i : Nat} (hi : i < 6) {x : Num} {q : ℚ}
    (h : readFloat o (slice l (11 * i) (11 * i + 11)) = .ok x) (hc : cppFloat o.acceptSpaces l i = .ok q) : x = .flt q := by
  rw [plainLine_float ho hl hi h] at hc
  cases hc
  exact readFloat_flt hp h

/-- integers that both parsers can read are the same -/
theorem int_both {f : Str} (hws : ∀ c ∈ f, isWs c = true → c = ' ') (hu : '_' ∉ f) {n m : Int} (h : readFortInt f = .ok n)
    (hc : cppIntOf f = .ok m) : m = n := by
  by_cases hn : intMin ≤ n ∧ n ≤ intMax
  · rw [C77_partial f hws hu n hn h] at hc; cases hc; rfl
  · exfalso
    obtain ⟨p, q, h1, h2, h3⟩ := strip_decomp f
    have hp := blanks_of_ws hws (l := p) (fun c hc => by rw [h1]; simp [hc]) h2
    have hq := blanks_of_ws hws (l := q) (fun c hc => by rw [h1]; simp [hc]) h3
    unfold readFortInt at h
    split at h
    · cases h; exact hn (by decide)
    · cases hpi : pyInt f with
      | none => rw [hpi] at h; cases h
      | some m' =>
        rw [hpi] at h
        cases h
        have hu' : '_' ∉ strip f := fun hc => hu (by rw [h1]; simp [hc])
        obtain ⟨a1, a2⟩ := atoi_text hpi rfl hu' p.length q.length
        rw [← hp, ← hq, ← h1] at a2
        unfold cppIntOf atoi at hc
        rw [if_neg] at hc
        · simp only [a2] at hc; rw [if_neg hn] at hc; cases hc
        · intro hall
          rw [h1, List.all_append, List.all_append] at hall
          simp [a1] at hall

theorem int_agree {l : Str} (hl : PlainLine l) {i : Nat} (hi : i < 6) {n m : Int}
    (h : intField 11 l i = .ok n) (hc : cppInt l i = .ok m) : m = n := by
  obtain ⟨h1, h2, h3⟩ := hl
  have hsub : ∀ c ∈ slice l (11 * i) (11 * i + 11), c ∈ l := fun c hc => List.mem_of_mem_take (List.mem_of_mem_drop hc)
  unfold cppInt at hc
  rw [cppBytes_ok (by omega), cbind_ok] at hc
  unfold intField at h
  rw [show i * 11 = 11 * i by omega, show (i + 1) * 11 = 11 * i + 11 by omega] at h
  exact int_both (fun c hc => h3 c (hsub c hc)) (fun hc => h2 (hsub _ hc)) h hc

/-- the kind of a field of a record -/
def fkind (i : Nat) : CKind := if i < 2 then .flt else .int

/-- the numbers in a record, and what the compiled parser reads in the line -/
theorem cont_agree {o : ROpts} (ho : o.width = 11) (hp : o.preserve = false) {lines : List Str} {ofs ofs' : Nat} {r : ContRec}
    (hpl : ∀ l ∈ lines, PlainLine l) (h : readCont o lines ofs = .ok (r, ofs')) :
    ofs' = ofs + 1 ∧ ∃ l, lines.drop ofs = l :: lines.drop (ofs + 1) ∧ PlainLine l ∧ readCtrl 11 l = .ok r.ctrl ∧ r.vals.length = 6 ∧
      (∀ i v, r.vals[i]? = some v → KindVal (fkind i) v) ∧
      (∀ i, i < 6 → ∀ c : FunCtx, c.acc = o.acceptSpaces → ∀ src, lineField c l i (fkind i) = .ok src → r.vals[i]? = some src) ∧
      (∀ m, cppInt l 4 = .ok m → m = slotVal r.n1) ∧ (∀ m, cppInt l 5 = .ok m → m = slotVal r.n2) := by
  unfold readCont at h
  simp only [bind_ok, pure_ok, ho] at h
  obtain ⟨l, hl, c1, h1, c2, h2, l1, h3, l2, h4, n1, h5, n2, h6, ctrl, h7, h⟩ := h
  cases h
  have hl' : lines[ofs]? = some l := by
    unfold lineAt at hl
    split at hl
    · rename_i x hx; cases hl; exact hx
    · cases hl
  obtain ⟨hlt, he⟩ := List.getElem?_eq_some_iff.1 hl'
  have hpl := hpl l (List.mem_of_getElem? hl')
  refine ⟨rfl, l, by rw [List.drop_eq_getElem_cons hlt, he], hpl, h7, rfl, ?_, ?_, ?_, ?_⟩
  · intro i v hv
    have e1 := readFloat_flt hp h1
    have e2 := readFloat_flt hp h2
    rcases i with _ | _ | _ | _ | _ | _ | i <;>
      simp only [ContRec.vals, Slot.toVal, List.getElem?_cons_zero, List.getElem?_cons_succ, List.getElem?_nil, Option.some.injEq, reduceCtorEq] at hv
    · subst hv; exact ⟨_, by rw [e1]⟩
    · subst hv; exact ⟨_, by rw [e2]⟩
    all_goals subst hv; exact ⟨_, rfl⟩
  · intro i hi c hc src hs
    have hflt : ∀ i x, i < 6 → readFloat o (slice l (11 * i) (11 * i + 11)) = .ok x → lineField c l i .flt = .ok src →
        Val.num (.num x) = src := by
      intro i x hi hx hs
      simp only [lineField, cbind_ok'] at hs
      obtain ⟨q, hq, hs⟩ := hs
      cases hs
      rw [hc] at hq
      rw [float_agree ho hp hpl hi hx hq]
    have hint : ∀ i n, i < 6 → intField 11 l i = .ok n → lineField c l i .int = .ok src → Val.num (.int n) = src := by
      intro i n hi hn hs
      simp only [lineField, cbind_ok'] at hs
      obtain ⟨m, hm, hs⟩ := hs
      cases hs
      rw [int_agree hpl hi hn hm]
    rcases i with _ | _ | _ | _ | _ | _ | i
    · exact congrArg some (hflt 0 c1 (by omega) (by simpa using h1) hs)
    · exact congrArg some (hflt 1 c2 (by omega) (by simpa using h2) hs)
    · exact congrArg some (hint 2 l1 (by omega) h3 hs)
    · exact congrArg some (hint 3 l2 (by omega) h4 hs)
    · exact congrArg some (hint 4 n1 (by omega) h5 hs)
    · exact congrArg some (hint 5 n2 (by omega) h6 hs)
    · omega
  · intro m hm; exact int_agree hpl (by omega) h5 hm
  · intro m hm; exact int_agree hpl (by omega) h6 hm

theorem dir_agree {o : ROpts} (ho : o.width = 11) {lines : List Str} {ofs ofs' : Nat} {r : DirRec}
    (hpl : ∀ l ∈ lines, PlainLine l) (h : readDir o lines ofs = .ok (r, ofs')) :
    ofs' = ofs + 1 ∧ ∃ l, lines.drop ofs = l :: lines.drop (ofs + 1) ∧ PlainLine l ∧
      (∀ i, i < 4 → ∀ c : FunCtx, ∀ src, lineField c l (i + 2) .int = .ok src →
        [Val.num (.int r.l1), .num (.int r.l2), .num (.int r.n1), .num (.int r.n2)][i]? = some src) := by
  unfold readDir at h
  simp only [bind_ok, pure_ok, ho] at h
  obtain ⟨l, hl, l1, h3, l2, h4, n1, h5, n2, h6, ctrl, h7, h⟩ := h
  cases h
  have hl' : lines[ofs]? = some l := by
    unfold lineAt at hl
    split at hl
    · rename_i x hx; cases hl; exact hx
    · cases hl
  obtain ⟨hlt, he⟩ := List.getElem?_eq_some_iff.1 hl'
  have hpl := hpl l (List.mem_of_getElem? hl')
  refine ⟨rfl, l, by rw [List.drop_eq_getElem_cons hlt, he], hpl, ?_⟩
  intro i hi c src hs
  have hint : ∀ i n, i < 6 → intField 11 l i = .ok n → lineField c l i .int = .ok src → Val.num (.int n) = src := by
    intro i n hi hn hs
    simp only [lineField, cbind_ok'] at hs
    obtain ⟨m, hm, hs⟩ := hs
    cases hs
    rw [int_agree hpl hi hn hm]
  rcases i with _ | _ | _ | _ | i
  · exact congrArg some (hint 2 l1 (by omega) h3 hs)
  · exact congrArg some (hint 3 l2 (by omega) h4 hs)
  · exact congrArg some (hint 4 n1 (by omega) h5 hs)
  · exact congrArg some (hint 5 n2 (by omega) h6 hs)
  · omega

/-- the lines and fields of a sequence of numbers -/
theorem readNumbers_get {o : ROpts} {lines : List Str} {num ofs : Nat} {vals : List Num} {ofs' : Nat}
    (h : readNumbers o lines num ofs = .ok (vals, ofs')) :
    vals.length = num ∧ ofs' = ofs + (num + 5) / 6 ∧ ∀ j v, vals[j]? = some v → ∃ l, lines[ofs + j / 6]? = some l ∧
      readFloat o (slice l (j % 6 * o.width) (j % 6 * o.width + o.width)) = .ok v := by
  induction num using Nat.strong_induction_on generalizing ofs vals ofs' with
  | _ num ih =>
    rw [readNumbers] at h
    split at h
    · rename_i h0
      cases h
      subst h0
      exact ⟨rfl, by omega, fun j v hj => by simp at hj⟩
    · rename_i h0
      simp only [bind_ok, pure_ok] at h
      obtain ⟨l, hl, v1, hv1, ⟨rest, ofs2⟩, hr, h⟩ := h
      cases h
      have hl' : lines[ofs]? = some l := by
        unfold lineAt at hl
        split at hl
        · rename_i x hx; cases hl; exact hx
        · cases hl
      obtain ⟨b1, b2⟩ := readFortFloats_get hv1
      obtain ⟨a1, a2, a3⟩ := ih (num - 6) (by omega) hr
      refine ⟨by rw [List.length_append, a1, b1]; omega, by omega, fun j v hj => ?_⟩
      by_cases hj1 : j < v1.length
      · rw [List.getElem?_append_left hj1] at hj
        obtain ⟨c1, c2⟩ := b2 j v hj
        refine ⟨l, ?_, ?_⟩
        · rw [show j / 6 = 0 by omega]; exact hl'
        · rw [show j % 6 = j by omega]; exact c2
      · have h6 : v1.length = 6 := by
          have : j < (v1 ++ rest).length := (List.getElem?_eq_some_iff.1 hj).1
          rw [List.length_append] at this
          omega
        rw [List.getElem?_append_right (by omega)] at hj
        obtain ⟨l', c1, c2⟩ := a3 _ v hj
        rw [h6] at c1 c2 hj1
        refine ⟨l', ?_, ?_⟩
        · rw [← c1]; congr 1; omega
        · rw [show j % 6 = (j - 6) % 6 by omega]; exact c2

theorem skip_plain {lines : List Str} (hb : ∀ l ∈ lines, isBlankLine l = false) {ofs ofs' : Nat} (h : skipBlankLines lines ofs = .ok ofs') :
    ofs' = ofs := by
  rw [skipBlankLines] at h
  split at h
  · rename_i hlt
    rw [if_neg (by rw [hb _ (List.getElem_mem hlt)]; simp)] at h
    cases h; rfl
  · cases h

/-! ### changes of a block -/

/-- changes of a dictionary and a block by a part of the recipe -/
structure Upd (Γ : Kinds) (top : Option Ctrl) (d d' : DDic) (b b' : CScope) : Prop where
  blk : Blk Γ top d' b'
  grow : GrowN Γ d d'
  defs : b'.defs = b.defs
  other : ∀ key, (∀ n, key ≠ .var n) → dGet key d' = dGet key d
  ctl : ∀ n ∈ ctlNames, dGet (.var n) d ≠ none → dGet (.var n) d' ≠ none

theorem Upd.refl {Γ : Kinds} {top : Option Ctrl} {d : DDic} {b : CScope} (h : Blk Γ top d b) : Upd Γ top d d b b :=
  ⟨h, GrowN.refl _ _, rfl, fun _ _ => rfl, fun _ _ h => h⟩

theorem Upd.trans {Γ : Kinds} {top : Option Ctrl} {d d' d'' : DDic} {b b' b'' : CScope} (h : Upd Γ top d d' b b')
    (h' : Upd Γ top d' d'' b' b'') : Upd Γ top d d'' b b'' :=
  ⟨h'.blk, h.grow.trans h'.grow, h'.defs.trans h.defs, fun k hk => (h'.other k hk).trans (h.other k hk),
    fun n hn hd => h'.ctl n hn (h.ctl n hn hd)⟩

theorem setVarval_dnodup {d d' : DDic} {lv : Dict Name Int} {r : VarRef} {v : Val} (h : setVarval d lv r v = .ok d') (hn : DNodup d) :
    DNodup d' := by
  unfold setVarval at h
  simp only [bind_ok, pure_ok] at h
  obtain ⟨is, _, new, _, rfl⟩ := h
  exact dSet_nodup hn

theorem mapOnce_dnodup {fuel : Nat} {po : POpts} {ups : List DDic} {lv : Dict Name Int} {fs : List (Expr × Val)} {d d' : DDic} {f f' : Bool}
    (h : mapOnce fuel po ups lv fs d f = .ok (d', f')) (hn : DNodup d) : DNodup d' := by
  induction fs generalizing d f with
  | nil => simp only [mapOnce, Except.ok.injEq, Prod.mk.injEq] at h; rw [← h.1]; exact hn
  | cons p fs ih =>
    simp only [mapOnce] at h
    split at h
    · exact ih h hn
    · cases h
    · split at h
      · split at h
        · cases h
        · split at h
          · cases h
          · exact ih h hn
      · split at h
        · cases h
        · split at h
          · cases h
          · rename_i hset
            exact ih h (setVarval_dnodup hset hn)

theorem mapRead_dnodup {fuel : Nat} {po : POpts} {ups : List DDic} {lv : Dict Name Int} {es : List Expr} {vals : List Val} {d d' : DDic}
    (h : mapRead fuel po ups lv es vals d = .ok d') (hn : DNodup d) : DNodup d' := by
  unfold mapRead at h
  generalize 3 = n at h
  induction n generalizing d with
  | zero => cases h
  | succ n ih =>
    simp only [mapTries] at h
    split at h
    · cases h
    · rename_i h1; cases h; exact mapOnce_dnodup h1 hn
    · rename_i h1; exact ih (mapOnce_dnodup h1 hn) h

theorem blk_upd {Γ : Kinds} (hΓ : ∀ n ∈ ctlNames, Γ n = none) {top : Option Ctrl} {d d' : DDic} {b b' : CScope} (h : Blk Γ top d b)
    (hg : GoodB Γ b') (ht : TypedD Γ d') (ha : AgreeB Γ d' b') (hf : FrameD Γ d d') (hn : DNodup d') (hgr : GrowN Γ d d')
    (hv : ∀ key : VKey, Γ key.1 = none → dGet key b'.vars = dGet key b.vars) (hpd : b'.pd = b.pd) (hdef : b'.defs = b.defs) :
    Upd Γ top d d' b b' := by
  have hnone : ∀ n, Γ n = none → dGet (.var n) d' = dGet (.var n) d := fun n h =>
    hf _ (by rintro m x hm; cases hm; rw [h]; simp)
  have hoth : ∀ key, (∀ n, key ≠ .var n) → dGet key d' = dGet key d := fun key h => hf _ (fun n _ hn => absurd hn (h n))
  refine ⟨⟨ht, hg, ha, hn, ?_, ?_, ?_, ?_⟩, hgr, hdef, hoth, ?_⟩
  · intro i; rw [hoth _ (by simp)]; exact h.keys i
  · intro n h1 h2; rw [hnone n h1, hpd]; exact h.sect n h1 h2
  · intro key v; rw [hpd]; exact h.pdk key v
  · have := h.ctl
    unfold CtlB at this ⊢
    cases top with
    | none =>
      intro n hn
      rw [hnone n (hΓ n hn), hpd, hv (n, 0) (hΓ n hn)]
      exact this n hn
    | some k =>
      intro n hn
      rw [hnone n (hΓ n hn), hpd, hv (n, 0) (hΓ n hn)]
      exact this n hn
  · intro n hn; rw [hnone n (hΓ n hn)]; exact fun h => h

/-- the fields of a record change both in the same way -/
theorem fields_upd {Γ : Kinds} (hΓ : ∀ n ∈ ctlNames, Γ n = none) {depth fuel : Nat} {po : POpts} (hst : Strict po) (hi : po.ignoreAll = false)
    {L : List Name} {D : List VKey} {d d' : DDic} {ups : List DDic} {c : FunCtx} {top : Option Ctrl}
    {rd : Nat → CKind → CRes Val} {ps : List Piece} {s s' : FunSt} {es : List Expr} {vals : List Val}
    (hlv : ∀ n i, dGet n s.lv = some i → 0 ≤ i) (hL : LvOk L s.lv) (hgen : ∀ p ∈ ps, GenOf depth p)
    (hp : ps.all (pieceOk Γ depth L D) = true) (hD : s.cur.defs = D) (hb : Blk Γ top d s.cur)
    (hfs : ∀ f ∈ es.zip vals, ∃ p ∈ ps, p.e = f.1 ∧ KindVal p.kind f.2)
    (hsrc : ∀ p ∈ ps, ∀ src, rd p.fld p.kind = .ok src → KindVal p.kind src ∧ (p.e, src) ∈ es.zip vals)
    (hpy : mapRead fuel po ups s.lv es vals d = .ok d') (hcpp : runPieces c rd ps s = .ok s') :
    (∃ b, s' = { s with cur := b }) ∧ Upd Γ top d d' s.cur s'.cur := by
  rw [List.all_eq_true] at hp
  obtain ⟨a1, a2, a3, a4, a5, a6, a7⟩ := record_agree hst hi hlv (fun p h => pieceOk_stat hL (hgen p h) (hp p h)) hD hb.good hb.typed hb.agree
    hfs hsrc hpy hcpp
  exact ⟨a1, blk_upd hΓ hb a2 a3 a4 a7 (mapRead_dnodup hpy hb.nodup) a6.growN a5.2.1 a5.2.2.1 a5.2.2.2⟩

/-! ### texts -/

theorem assign_clook {Γ : Kinds} {s s' : FunSt} {v : VarRef} {w : Val} {k : CKind}
    (hlv : ∀ n i, dGet n s.lv = some i → 0 ≤ i) (hidx : ∀ i, Idx.num i ∈ v.idx → 0 ≤ i) (hΓ : Γ v.name = some (k, v.idx.length))
    (hd : v.key ∈ s.cur.defs) (hg : GoodB Γ s.cur) (hk : KindVal k w) (h : assign s v w = .ok s') :
    ∃ is, v.idx.mapM (idxVal s.lv) = .ok is ∧ (∃ b, s' = { s with cur := b }) ∧ GoodB Γ s'.cur ∧ s'.cur.defs = s.cur.defs ∧ s'.cur.pd = s.cur.pd ∧
      (∀ key : VKey, key ≠ v.key → dGet key s'.cur.vars = dGet key s.cur.vars) ∧
      ∀ js : List Int, js.length = v.idx.length → clook s'.cur v.name v.idx.length js
        = if js = is then some w else clook s.cur v.name v.idx.length js := by
  unfold assign at h
  simp only [cbind_ok'] at h
  obtain ⟨is, his, t, ht, h⟩ := h
  cases h
  rw [cIdxs_ok] at his
  have hlen := idxs_length his
  have hgood : ∀ x, dGet v.key s.cur.vars = some x → GoodT is.length x ∧ DeepT k is.length x.toPy := by
    intro x hx
    have := (hg _ _ hx).2
    simp only [VarRef.key, hΓ] at this
    rw [hlen]; exact this.2
  obtain ⟨g1, g2⟩ := vput_good (idx_nonneg hlv hidx his) (fun x hx => (hgood x hx).1) ht
  have hdeep : DeepT k is.length t.toPy := setArr_deep (fun u hu => by
    cases hx : dGet v.key s.cur.vars with
    | none => rw [hx] at hu; cases hu
    | some x => rw [hx] at hu; cases hu; exact (hgood x hx).2) hk g2
  refine ⟨is, his, ⟨_, rfl⟩, ?_, rfl, rfl, fun key hkey => dGet_dSet_ne (Ne.symm hkey) _ _, ?_⟩
  · intro key x hx
    by_cases hkey : v.key = key
    · subst hkey
      rw [dGet_dSet_self] at hx
      cases hx
      refine ⟨hd, ?_⟩
      simp only [VarRef.key, hΓ, true_and]
      rw [← hlen]; exact ⟨g1, hdeep⟩
    · rw [dGet_dSet_ne hkey] at hx
      exact hg _ _ hx
  · intro js hjs
    unfold clook
    have e : ((v.name, v.idx.length) : VKey) = v.key := rfl
    rw [e, dGet_dSet_self]
    exact find_setArr g2 (by omega)

/-- a text is assigned to a variable by both parsers -/
theorem text_upd {Γ : Kinds} (hΓ : ∀ n ∈ ctlNames, Γ n = none) {L : List Name} {D : List VKey} {d d' : DDic} {c : FunCtx}
    {top : Option Ctrl} {s s' : FunSt} {r : VarRef} {t : Str} {f : Nat} {g : Bool} {v : VarRef} {sol : X} {rd : Nat → CKind → CRes Val}
    (hlv : ∀ n i, dGet n s.lv = some i → 0 ≤ i) (hL : LvOk L s.lv) (hr : r.name ∉ L) (hok : refOk Γ L D .txt r = true)
    (hv : v = r) (hsol : isCppVal sol = true) (hD : s.cur.defs = D) (hb : Blk Γ top d s.cur)
    (hrd : ∀ x, rd f .txt = .ok x → x = .txt t)
    (hpy : setVarval d s.lv r (.txt t) = .ok d') (hcpp : runPieces c rd [⟨f, .txt, .var r, .put g v sol⟩] s = .ok s') :
    (∃ b, s' = { s with cur := b }) ∧ Upd Γ top d d' s.cur s'.cur := by
  subst hv
  have hl := hL.2 _ hr
  unfold refOk at hok
  rw [if_neg (by simpa using hr)] at hok
  simp only [Bool.and_eq_true, decide_eq_true_eq, List.all_eq_true, List.contains_eq_mem] at hok
  obtain ⟨⟨k1, k2⟩, k3⟩ := hok
  obtain ⟨t1, t2, t3, t4, t5⟩ := setVarval_look k1 hl (⟨t, rfl⟩ : KindVal .txt (.txt t)) hb.typed hpy
  simp only [runPieces, runPiece, cbind_ok'] at hcpp
  obtain ⟨s1, ⟨src, hsrc, hcpp⟩, hs1⟩ := hcpp
  cases hs1
  have := hrd src hsrc
  subst this
  obtain ⟨q, hq, hcpp⟩ := hcpp
  split at hcpp
  · simp only [validateField, cbind_ok'] at hcpp
    obtain ⟨_, h, _⟩ := hcpp
    cases h
  · simp only [cbind_ok'] at hcpp
    obtain ⟨x, hx, y, hy, hcpp⟩ := hcpp
    have hx' : x = .txt t := by
      unfold isCppVal at hsol
      split at hsol
      · simp only [decide_eq_true_eq] at hsol
        simp only [solVal, hsol, if_true, CRes.ok.injEq] at hx
        exact hx.symm
      · cases hsol
    subst hx'
    simp only [toKind, CRes.ok.injEq] at hy
    subst hy
    obtain ⟨is, his, a1, a2, a3, a4, a5, a6⟩ := assign_clook hlv (fun i hi => by simpa [idxOk] using k3 _ hi) k1 (by rw [hD]; exact k2) hb.good
      (⟨t, rfl⟩ : KindVal .txt (.txt t)) hcpp
    refine ⟨a1, blk_upd hΓ hb a2 t1 ?_ t2 (setVarval_dnodup hpy hb.nodup) ?_ ?_ a4 a3⟩
    · intro n k ar hn js hjs
      by_cases e : v.name = n
      · subst e
        rw [k1] at hn
        cases hn
        rw [a6 js hjs]
        split
        · rename_i e
          subst e
          unfold refVal at t4
          rw [hl] at t4
          dsimp only at t4
          rw [his] at t4
          exact t4
        · rename_i e
          rw [t5 _ _ _ k1 js hjs (fun _ h => e (by rw [his] at h; cases h; rfl))]
          exact hb.agree _ _ _ k1 js hjs
      · rw [t5 _ _ _ hn js hjs (fun h => absurd h e)]
        unfold clook
        rw [a5 (n, ar) (by intro h; cases h; exact e rfl)]
        exact hb.agree _ _ _ hn js hjs
    · intro n k ar hn hk js w hjs hw
      rw [t5 n k ar hn js hjs]
      · exact hw
      · rintro rfl
        rw [k1] at hn
        cases hn
        cases hk
    · intro key hkey
      refine a5 key ?_
      rintro rfl
      simp only [VarRef.key, k1, reduceCtorEq] at hkey

end Verif.CF
