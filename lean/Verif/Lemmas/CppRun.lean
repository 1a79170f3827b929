import Verif.Lemmas.CppFld
import Verif.Spec.CppFit

/-! Records in both parsers. -/

namespace Verif.CF
open Verif Spec

/-- options and lines -/
structure Both (Γ : Kinds) (c : RCtx) (cc : FunCtx) : Prop where
  width : c.ro.width = 11
  pres : c.ro.preserve = false
  acc : cc.acc = c.ro.acceptSpaces
  strict : Strict c.po
  plain : ∀ l ∈ c.lines, PlainLine l
  blank : ∀ l ∈ c.lines, isBlankLine l = false
  ctl : ∀ n ∈ ctlNames, Γ n = none

/-- states of both parsers -/
structure Rel (Γ M : Kinds) (k : Ctrl) (L : List Name) (D : List VKey) (U : List (List VKey)) (s : RSt) (cs : FunSt) : Prop where
  lv : s.lv = cs.lv
  lvok : LvOk L cs.lv
  pos : ∀ n i, dGet n cs.lv = some i → 0 ≤ i
  look : s.look = none
  ign : s.ignoreAll = false
  lvls : Lvls M k Γ s.cur cs.cur s.ups cs.ups
  defs : cs.cur.defs = D
  outer : cs.ups.map (·.1.defs) = U

/-- changes of the states, but for the loop variables -/
structure StepX (Γ : Kinds) (k : Ctrl) (s s' : RSt) (cs cs' : FunSt) : Prop where
  ups : s'.ups = s.ups
  cups : cs'.ups = cs.ups
  look : s'.look = s.look
  ign : s'.ignoreAll = s.ignoreAll
  upd : Upd Γ (topOf k s.ups) s.cur s'.cur cs.cur cs'.cur

structure Step (Γ : Kinds) (k : Ctrl) (s s' : RSt) (cs cs' : FunSt) : Prop extends StepX Γ k s s' cs cs' where
  lv : s'.lv = s.lv
  clv : cs'.lv = cs.lv

theorem StepX.trans {Γ : Kinds} {k : Ctrl} {s s' s'' : RSt} {cs cs' cs'' : FunSt} (h : StepX Γ k s s' cs cs')
    (h' : StepX Γ k s' s'' cs' cs'') : StepX Γ k s s'' cs cs'' :=
  ⟨h'.ups.trans h.ups, h'.cups.trans h.cups, h'.look.trans h.look, h'.ign.trans h.ign, h.upd.trans (by have := h'.upd; rwa [h.ups] at this)⟩

theorem Step.trans {Γ : Kinds} {k : Ctrl} {s s' s'' : RSt} {cs cs' cs'' : FunSt} (h : Step Γ k s s' cs cs')
    (h' : Step Γ k s' s'' cs' cs'') : Step Γ k s s'' cs cs'' :=
  ⟨h.toStepX.trans h'.toStepX, h'.lv.trans h.lv, h'.clv.trans h.clv⟩

theorem Rel.blk {Γ M : Kinds} {k : Ctrl} {L : List Name} {D : List VKey} {U : List (List VKey)} {s : RSt} {cs : FunSt}
    (h : Rel Γ M k L D U s cs) : Blk Γ (topOf k s.ups) s.cur cs.cur := h.lvls.blk

theorem Rel.refl {Γ M : Kinds} {k : Ctrl} {L : List Name} {D : List VKey} {U : List (List VKey)} {s : RSt} {cs : FunSt}
    (h : Rel Γ M k L D U s cs) : Step Γ k s s cs cs := ⟨⟨rfl, rfl, rfl, rfl, Upd.refl h.blk⟩, rfl, rfl⟩

theorem Rel.stepX {Γ M : Kinds} {k : Ctrl} {L L' : List Name} {D : List VKey} {U : List (List VKey)} {s s' : RSt} {cs cs' : FunSt}
    (h : Rel Γ M k L D U s cs) (h' : StepX Γ k s s' cs cs') (hlv : s'.lv = cs'.lv) (hL : LvOk L' cs'.lv)
    (hp : ∀ n i, dGet n cs'.lv = some i → 0 ≤ i) : Rel Γ M k L' D U s' cs' where
  lv := hlv
  lvok := hL
  pos := hp
  look := h'.look.trans h.look
  ign := h'.ign.trans h.ign
  lvls := by
    rw [h'.ups, h'.cups]
    exact h.lvls.set h'.upd.blk (h'.upd.other _ (by simp))
  defs := h'.upd.defs.trans h.defs
  outer := by rw [h'.cups]; exact h.outer

theorem Rel.step {Γ M : Kinds} {k : Ctrl} {L : List Name} {D : List VKey} {U : List (List VKey)} {s s' : RSt} {cs cs' : FunSt}
    (h : Rel Γ M k L D U s cs) (h' : Step Γ k s s' cs cs') : Rel Γ M k L D U s' cs' :=
  h.stepX h'.toStepX (by rw [h'.lv, h'.clv]; exact h.lv) (by rw [h'.clv]; exact h.lvok) (by rw [h'.clv]; exact h.pos)

/-- both are at the same line -/
def Here (c : RCtx) (s : RSt) (cs : FunSt) : Prop := cs.ls = c.lines.drop s.ofs

theorem lift_ok {σ α : Type} {s s' : σ} {r : Res α} {f : α → Out σ} (h : Out.lift s r f = .ok s') : ∃ a, r = .ok a ∧ f a = .ok s' := by
  unfold Out.lift at h
  split at h
  · exact ⟨_, rfl, h⟩
  · cases h

theorem andThen_ok {σ : Type} {s' : σ} {o : Out σ} {f : σ → Out σ} (h : o.andThen f = .ok s') : ∃ a, o = .ok a ∧ f a = .ok s' := by
  unfold Out.andThen at h
  split at h
  · exact ⟨_, rfl, h⟩
  · cases h

theorem takeRec_ok {α : Type} {Γ : Kinds} {c : RCtx} {cc : FunCtx} (hb : Both Γ c cc) {s s' : RSt} {rd : List Str → Nat → Res (α × Nat)}
    {f : α → RSt → Out RSt} (h : takeRec c s rd f = .ok s') :
    ∃ r ofs', skipBlankLines c.lines s.ofs = .ok s.ofs ∧ rd c.lines s.ofs = .ok (r, ofs') ∧
      Next c s rd r { s with ofs := ofs', spans := s.spans ++ [(s.ofs, ofs')] } ∧
      f r { s with ofs := ofs', spans := s.spans ++ [(s.ofs, ofs')] } = .ok s' := by
  unfold takeRec at h
  obtain ⟨ofs, h1, h⟩ := lift_ok h
  have := skip_plain hb.blank h1
  subst this
  obtain ⟨⟨r, ofs'⟩, h2, h⟩ := lift_ok h
  exact ⟨r, ofs', h1, h2, ⟨s.ofs, ofs', h1, h2, rfl⟩, h⟩

theorem prepLine_ok {cc : FunCtx} {cs cs' : FunSt} (h : prepLine cc cs = .ok cs') :
    cs' = { cs with line := (nextLine cs.ls).1, ls := (nextLine cs.ls).2 } := by
  unfold prepLine at h
  simp only [cbind_ok'] at h
  obtain ⟨⟨l, r⟩, h1, h⟩ := h
  have := readLine_any h1
  cases h
  rw [← this]

/-- some fields, mapped by both parsers -/
theorem mapFields_step {Γ M : Kinds} {c : RCtx} {cc : FunCtx} (hb : Both Γ c cc) {k : Ctrl} {L : List Name} {D : List VKey} {U : List (List VKey)}
    {s s' : RSt} {cs cs' : FunSt} (h : Rel Γ M k L D U s cs) {depth : Nat} {rd : Nat → CKind → CRes Val} {ps : List Piece} {es : List Expr} {vals : List Val}
    (hgen : ∀ p ∈ ps, GenOf depth p) (hp : ps.all (pieceOk Γ depth L D) = true)
    (hfs : ∀ f ∈ es.zip vals, ∃ p ∈ ps, p.e = f.1 ∧ KindVal p.kind f.2)
    (hsrc : ∀ p ∈ ps, ∀ src, rd p.fld p.kind = .ok src → KindVal p.kind src ∧ (p.e, src) ∈ es.zip vals)
    (hpy : mapFields c es vals s = .ok s') (hcpp : runPieces cc rd ps cs = .ok cs') :
    Step Γ k s s' cs cs' ∧ s'.ofs = s.ofs ∧ cs'.ls = cs.ls ∧ cs'.line = cs.line := by
  unfold mapFields at hpy
  obtain ⟨cur, h1, h2⟩ := lift_ok hpy
  cases h2
  have hst : Strict (s.po c) := hb.strict
  rw [h.lv] at h1
  obtain ⟨⟨b, rfl⟩, hu⟩ := fields_upd hb.ctl hst h.ign h.pos h.lvok hgen hp h.defs h.blk hfs hsrc h1 hcpp
  exact ⟨⟨⟨rfl, rfl, rfl, rfl, hu⟩, rfl, rfl⟩, rfl, rfl, rfl⟩

/-- the state behind the line of a record -/
theorem Rel.line {Γ M : Kinds} {k : Ctrl} {L : List Name} {D : List VKey} {U : List (List VKey)} {s : RSt} {cs : FunSt}
    (h : Rel Γ M k L D U s cs) (ofs : Nat) (sp : List (Nat × Nat)) (l : Str) (ls : List Str) :
    Step Γ k s { s with ofs := ofs, spans := sp } cs { cs with line := l, ls := ls } :=
  ⟨⟨rfl, rfl, rfl, rfl, Upd.refl h.blk⟩, rfl, rfl⟩

/-- a change of nothing but the log -/
theorem Step.log {Γ : Kinds} {k : Ctrl} {s s' : RSt} {cs cs' : FunSt} (h : Step Γ k s s' cs cs') (l : List ARec) :
    Step Γ k s { s' with recs := l } cs cs' := ⟨⟨h.ups, h.cups, h.look, h.ign, h.upd⟩, h.lv, h.clv⟩

/-- the fields of a record for which code has been generated -/
theorem record_step {Γ M : Kinds} {c : RCtx} {cc : FunCtx} (hb : Both Γ c cc) {k : Ctrl} {L : List Name} {D : List VKey} {U : List (List VKey)}
    {s s' : RSt} {cs cs' : FunSt} (h : Rel Γ M k L D U s cs) {depth ofs : Nat} {skip : List Nat} {fs : List Expr} {ds ds' : VDicts} {ps : List Piece}
    {es : List Expr} {vals : List Val} (hg : genRecord depth ofs skip fs ds = some (ps, ds'))
    (hp : ps.all (pieceOk Γ depth L D) = true)
    (h1 : ∀ f ∈ es.zip vals, ∃ i, i + ofs ∉ skip ∧ fs[i]? = some f.1 ∧ KindVal (fkind (i + ofs)) f.2)
    (h2 : ∀ i e src, i + ofs ∉ skip → fs[i]? = some e → lineField cc cs.line (i + ofs) (fkind (i + ofs)) = .ok src →
      KindVal (fkind (i + ofs)) src ∧ (e, src) ∈ es.zip vals)
    (hpy : mapFields c es vals s = .ok s') (hcpp : runPieces cc (lineField cc cs.line) ps cs = .ok cs') :
    Step Γ k s s' cs cs' ∧ s'.ofs = s.ofs ∧ cs'.ls = cs.ls ∧ cs'.line = cs.line := by
  obtain ⟨g1, g2⟩ := genRecord_spec hg
  refine mapFields_step hb h (fun p hp => (g1 p hp).2.2.2.2) hp ?_ ?_ hpy hcpp
  · intro f hf
    obtain ⟨i, hi, he, hk⟩ := h1 f hf
    obtain ⟨p, hp, hfld, hpe⟩ := g2 i _ hi he
    refine ⟨p, hp, hpe, ?_⟩
    rw [(g1 p hp).2.2.2.1, hfld]; exact hk
  · intro p hp src hs
    obtain ⟨a1, a2, a3, a4, a5⟩ := g1 p hp
    have e : p.fld = (p.fld - ofs) + ofs := by omega
    have hk : p.kind = fkind (p.fld - ofs + ofs) := by rw [← e]; exact a4
    rw [hk] at hs ⊢
    rw [e] at hs
    exact h2 (p.fld - ofs) p.e src (by rw [← e]; exact a1) a3 (by simpa using hs)

theorem mem_zip_get {α β : Type} {l : List α} {m : List β} {p : α × β} : p ∈ l.zip m ↔ ∃ i : Nat, l[i]? = some p.1 ∧ m[i]? = some p.2 := by
  rw [List.mem_iff_getElem?]
  refine exists_congr fun i => ?_
  rw [List.getElem?_zip_eq_some]

/-! ### control numbers -/

theorem setCtrl_other {k : Ctrl} {d : DDic} {key : Key} (h : ∀ n ∈ ctlNames, key ≠ .var n) : dGet key (setCtrl k d) = dGet key d := by
  unfold setCtrl
  rw [dGet_dSet_ne (Ne.symm (h "MT" (by simp [ctlNames]))), dGet_dSet_ne (Ne.symm (h "MF" (by simp [ctlNames]))),
    dGet_dSet_ne (Ne.symm (h "MAT" (by simp [ctlNames])))]

theorem setCtrl_get {k : Ctrl} {d : DDic} {n : Name} (h : n ∈ ctlNames) : dGet (.var n) (setCtrl k d) = dGet (.var n) (setCtrl k []) := by
  rcases ctl_cases h with rfl | rfl | rfl <;> simp [setCtrl, dGet_dSet]

theorem setCtrl_upd {Γ : Kinds} (hΓ : ∀ n ∈ ctlNames, Γ n = none) {k : Ctrl} {d : DDic} {b : CScope} (h : Blk Γ (some k) d b) :
    Upd Γ (some k) d (setCtrl k d) b b ∧ ∀ n ∈ ctlNames, dGet (.var n) (setCtrl k d) ≠ none := by
  have hty : ∀ n x, Γ n = some x → dGet (.var n) (setCtrl k d) = dGet (.var n) d := by
    intro n x hn
    refine setCtrl_other fun m hm e => ?_
    cases e
    rw [hΓ n hm] at hn; cases hn
  have hoth : ∀ key, (∀ n, key ≠ .var n) → dGet key (setCtrl k d) = dGet key d := fun key hk => setCtrl_other fun n _ => hk n
  have hc := h.ctl
  have hpres : ∀ n ∈ ctlNames, dGet (.var n) (setCtrl k d) ≠ none := by
    intro n hn
    obtain ⟨i, h1, _⟩ := hc n hn
    rw [setCtrl_get hn, h1]; simp
  refine ⟨⟨⟨?_, h.good, ?_, ?_, ?_, ?_, h.pdk, ?_⟩, ?_, rfl, hoth, fun n hn _ => hpres n hn⟩, hpres⟩
  · intro n kk ar v hn hv
    rw [hty n _ hn] at hv
    exact h.typed n kk ar v hn hv
  · intro n kk ar hn is hl
    unfold look
    rw [hty n _ hn]
    exact h.agree n kk ar hn is hl
  · exact dSet_nodup (dSet_nodup (dSet_nodup h.nodup))
  · intro i; rw [hoth _ (by simp)]; exact h.keys i
  · intro n h1 h2
    rw [setCtrl_other (by rintro m hm e; cases e; exact h2 hm)]
    exact h.sect n h1 h2
  · intro n hn
    obtain ⟨i, h1, _, h3⟩ := hc n hn
    refine ⟨i, h1, .inr ?_, h3⟩
    rw [setCtrl_get hn, h1]
  · intro n kk ar hn _ is w _ hw
    unfold look at hw ⊢
    rw [hty n _ hn]; exact hw

/-- the control numbers are set in the outermost dictionary -/
theorem setCtrl_step {Γ M : Kinds} (hΓ : ∀ n ∈ ctlNames, Γ n = none) {k : Ctrl} {L : List Name} {D : List VKey} {U : List (List VKey)} {s : RSt} {cs : FunSt}
    (h : Rel Γ M k L D U s cs) (ht : s.ups = []) (l : List ARec) :
    Step Γ k s { s with cur := setCtrl k s.cur, recs := l } cs cs ∧ ∀ n ∈ ctlNames, dGet (.var n) (setCtrl k s.cur) ≠ none := by
  have hb := h.blk
  rw [ht] at hb
  obtain ⟨h1, h2⟩ := setCtrl_upd hΓ hb
  refine ⟨⟨⟨rfl, rfl, rfl, rfl, ?_⟩, rfl, rfl⟩, h2⟩
  rw [ht]; exact h1

/-! ### TEXT, CONT and DIR records -/

theorem text_agree {Γ : Kinds} (hΓ : ∀ n ∈ ctlNames, Γ n = none) {L : List Name} {D : List VKey} {depth : Nat} {cc : FunCtx} {top : Option Ctrl} {line : Str}
    (hl66 : 66 ≤ line.length) {fs : List TextField} {first : Bool} {ofs : Nat} {ds ds' : VDicts} {x : List (Nat × Nat × List Piece)} {d d' : DDic} {s s' : FunSt}
    (hlv : ∀ n i, dGet n s.lv = some i → 0 ≤ i) (hL : LvOk L s.lv) (hline : s.line = line) (hD : s.cur.defs = D)
    (hg : genText depth fs first ofs ds = some (x, ds')) (hf : first = true → ofs = 0) (hok : x.all (textOk Γ L D) = true)
    (hb : Blk Γ top d s.cur) (hpy : mapTextRead s.lv (slice line 0 66) fs ofs d = .ok d') (hcpp : runText cc x s = .ok s') :
    (∃ b, s' = { s with cur := b }) ∧ Upd Γ top d d' s.cur s'.cur := by
  have hfull : (slice line 0 66).length = 66 := by unfold slice; simp; omega
  induction fs generalizing first ofs ds x d s with
  | nil =>
    simp only [genText, Option.some.injEq, Prod.mk.injEq] at hg
    obtain ⟨rfl, -⟩ := hg
    simp only [runText, CRes.ok.injEq] at hcpp
    simp only [mapTextRead, Except.ok.injEq] at hpy
    subst hcpp; subst hpy
    exact ⟨⟨_, rfl⟩, Upd.refl hb⟩
  | cons f fs ih =>
    simp only [genText] at hg
    split at hg
    · cases hg
    · rename_i hfl
      -- the end of the field
      have hpy : (if ofs + f.len.getD 66 ≤ ofs then .error Err.sizeMismatch else
          match f.ref with
          | none => mapTextRead s.lv (slice line 0 66) fs (ofs + f.len.getD 66) d
          | some r => match setVarval d s.lv r (.txt (slice (slice line 0 66) ofs (ofs + f.len.getD 66))) with
            | .error e => .error e
            | .ok cur' => mapTextRead s.lv (slice line 0 66) fs (ofs + f.len.getD 66) cur') = Except.ok d' := by
        rw [← hpy]
        cases hlen : f.len with
        | some n => simp only [mapTextRead, hlen, Option.getD_some]; rfl
        | none =>
          have : first = true := by
            cases first with
            | true => rfl
            | false => simp [hlen] at hfl
          simp only [mapTextRead, hlen, Option.getD_none, hfull, hf this, Nat.zero_add]; rfl
      split at hpy
      · cases hpy
      · cases hr : f.ref with
        | none =>
          rw [hr] at hg hpy
          dsimp only at hg hpy
          cases hlen : f.len with
          | none => rw [hlen] at hg; cases hg
          | some n =>
            rw [hlen] at hg hpy
            exact ih hlv hL hline hD hg (by simp) hok hb hpy hcpp
        | some r =>
          rw [hr] at hg hpy
          dsimp only at hg hpy
          split at hpy
          · cases hpy
          · rename_i cur' hset
            split at hg
            · rename_i ds1 ps hgf
              simp only [Option.bind_eq_bind, Option.bind_eq_some_iff, Option.pure_def, Option.some.injEq, Prod.mk.injEq] at hg
              obtain ⟨⟨y, ds2⟩, hy, rfl, rfl⟩ := hg
              simp only [List.all_cons, Bool.and_eq_true] at hok
              obtain ⟨hok1, hok2⟩ := hok
              simp only [runText, cbind_ok'] at hcpp
              obtain ⟨s1, hs1, hcpp⟩ := hcpp
              unfold textOk at hok1
              split at hok1
              · rename_i q o n fl r' g v sol heq
                simp only [Prod.mk.injEq] at heq
                obtain ⟨rfl, rfl, rfl⟩ := heq
                simp only [Bool.and_eq_true, decide_eq_true_eq, Bool.not_eq_true', List.contains_eq_mem, decide_eq_false_iff_not] at hok1
                obtain ⟨⟨⟨⟨k1, k2⟩, k3⟩, k4⟩, k5⟩ := hok1
                have hr' : r' = r := by
                  have := ((genField_spec hgf).1 _ (List.mem_singleton.2 rfl)).2.2.1
                  simpa using this
                subst hr'
                obtain ⟨⟨b, rfl⟩, hu⟩ := text_upd hΓ hlv hL k2 k3 k4 k5 hD hb (t := slice (slice line 0 66) ofs (ofs + f.len.getD 66)) (by
                  intro z hz
                  simp only [cbind_ok'] at hz
                  obtain ⟨t, ht, hz⟩ := hz
                  cases hz
                  unfold cSubstr at ht
                  rw [hline, if_neg (by omega)] at ht
                  cases ht
                  unfold slice
                  rw [List.drop_zero, List.take_take, List.drop_take]
                  congr 2
                  omega) hset hs1
                obtain ⟨⟨b', hb'⟩, hu'⟩ := ih (s := { s with cur := b }) hlv hL hline (hu.defs.trans hD) hy (by simp) hok2 hu.blk hpy hcpp
                exact ⟨⟨b', hb'⟩, hu.trans hu'⟩
              · cases hok1
            · cases hg

theorem text_step {Γ M : Kinds} {c : RCtx} {cc : FunCtx} (hb : Both Γ c cc) {k : Ctrl} {L : List Name} {D : List VKey} {U : List (List VKey)}
    {s s' : RSt} {cs cs' : FunSt} (h : Rel Γ M k L D U s cs) (hh : Here c s cs) {depth : Nat} {fin : Bool} {ds ds' : VDicts} {cd : Code} {w : Way} {k0 : CSpec} {fs : List TextField}
    (hg : genAct depth (.text k0 fs) ds = some (cd, ds')) (hok : codeOk Γ M depth fin L D U cd w = true) (ht : s.ups = [])
    (hfit : FitAct c k (.text k0 fs) s) (hpy : readAct c (.text k0 fs) s = .ok s') (hcpp : runCode cc cd cs = .ok cs') :
    Step Γ k s s' cs cs' ∧ Here c s' cs' ∧ ∀ n ∈ ctlNames, dGet (.var n) s'.cur ≠ none := by
  simp only [genAct, Option.bind_eq_bind, Option.bind_eq_some_iff, Option.pure_def, Option.some.injEq, Prod.mk.injEq] at hg
  obtain ⟨⟨x, ds1⟩, hx, rfl, rfl⟩ := hg
  simp only [codeOk] at hok
  simp only [readAct] at hpy
  obtain ⟨r, ofs', h1, h2, h3, hp1⟩ := takeRec_ok hb hpy
  clear hpy
  have hk := hfit r _ h3
  obtain ⟨_, _, hp2⟩ := lift_ok hp1
  clear hp1
  obtain ⟨cur, hcur, hp3⟩ := lift_ok hp2
  clear hp2
  simp only [logRec, Out.ok.injEq] at hp3
  unfold readText at h2
  simp only [bind_ok, pure_ok, hb.width, Prod.mk.injEq] at h2
  obtain ⟨l, hl, ctrl, hctrl, rfl, rfl⟩ := h2
  have hl' : c.lines[s.ofs]? = some l := by
    unfold lineAt at hl
    split at hl
    · rename_i x hx; cases hl; exact hx
    · cases hl
  obtain ⟨hlt, he⟩ := List.getElem?_eq_some_iff.1 hl'
  have hpl := hb.plain l (List.mem_of_getElem? hl')
  have hdrop : c.lines.drop s.ofs = l :: c.lines.drop (s.ofs + 1) := by rw [List.drop_eq_getElem_cons hlt, he]
  simp only [runCode, cbind_ok'] at hcpp
  obtain ⟨cs1, hcs1, hcpp⟩ := hcpp
  have := prepLine_ok hcs1
  rw [hh, hdrop] at this
  dsimp only [nextLine] at this
  subst this
  dsimp only at hk hcur hp3
  subst hk
  have hr := h.line (s.ofs + 1) (s.spans ++ [(s.ofs, s.ofs + 1)]) l (c.lines.drop (s.ofs + 1))
  have hrel := h.step hr
  obtain ⟨⟨b, rfl⟩, hu⟩ := text_agree hb.ctl hpl.1 hrel.pos hrel.lvok rfl hrel.defs hx (by simp) hok hrel.blk (by rw [← hrel.lv]; exact hcur) hcpp
  have hs2 : Step Γ ctrl { s with ofs := s.ofs + 1, spans := s.spans ++ [(s.ofs, s.ofs + 1)] }
      { s with ofs := s.ofs + 1, spans := s.spans ++ [(s.ofs, s.ofs + 1)], cur := cur }
      { cs with line := l, ls := c.lines.drop (s.ofs + 1) } { cs with line := l, ls := c.lines.drop (s.ofs + 1), cur := b } :=
    ⟨⟨rfl, rfl, rfl, rfl, hu⟩, rfl, rfl⟩
  obtain ⟨e1, e2⟩ := setCtrl_step hb.ctl (hrel.step hs2) ht (s.recs ++ [⟨.text, [.txt (slice l 0 (11 * 6))], [], ctrl⟩])
  subst hp3
  exact ⟨(hr.trans hs2).trans e1, rfl, e2⟩

theorem cont_step {Γ M : Kinds} {c : RCtx} {cc : FunCtx} (hb : Both Γ c cc) {k : Ctrl} {L : List Name} {D : List VKey} {U : List (List VKey)}
    {s s' : RSt} {cs cs' : FunSt} (h : Rel Γ M k L D U s cs) (hh : Here c s cs) {depth : Nat} {fin : Bool} {ds ds' : VDicts} {cd : Code} {w : Way} {hd : Bool} {k0 : CSpec} {fs : List Expr}
    (hg : genAct depth (.cont hd k0 fs) ds = some (cd, ds')) (hok : codeOk Γ M depth fin L D U cd w = true) (ht : hd = true → s.ups = [])
    (hwf : ActWF (.cont hd k0 fs)) (hfit : FitAct c k (.cont hd k0 fs) s) (hpy : readAct c (.cont hd k0 fs) s = .ok s') (hcpp : runCode cc cd cs = .ok cs') :
    Step Γ k s s' cs cs' ∧ Here c s' cs' ∧ (hd = true → ∀ n ∈ ctlNames, dGet (.var n) s'.cur ≠ none) := by
  simp only [genAct, Option.bind_eq_bind, Option.bind_eq_some_iff, Option.pure_def, Option.some.injEq, Prod.mk.injEq] at hg
  obtain ⟨⟨ps, ds1⟩, hx, rfl, rfl⟩ := hg
  simp only [codeOk] at hok
  simp only [readAct] at hpy
  obtain ⟨r, ofs', h1, h2, h3, hp1⟩ := takeRec_ok hb hpy
  clear hpy
  obtain ⟨_, _, hp2⟩ := lift_ok hp1
  clear hp1
  obtain ⟨s2, hs2, hp3⟩ := andThen_ok hp2
  clear hp2
  simp only [logRec, Out.ok.injEq] at hp3
  obtain ⟨rfl, l, hdrop, hpl, hctrl, hlen, hkv, hfld, -, -⟩ := cont_agree hb.width hb.pres hb.plain h2
  simp only [runCode, cbind_ok'] at hcpp
  obtain ⟨cs1, hcs1, hcpp⟩ := hcpp
  have := prepLine_ok hcs1
  rw [hh, hdrop] at this
  dsimp only [nextLine] at this
  subst this
  have hr := h.line (s.ofs + 1) (s.spans ++ [(s.ofs, s.ofs + 1)]) l (c.lines.drop (s.ofs + 1))
  have hrel := h.step hr
  have hwf : fs.length = 6 := hwf
  obtain ⟨e1, e2, e3, e4⟩ := record_step hb hrel hx hok (es := fs) (vals := r.vals) (by
    intro f hf
    obtain ⟨i, hi1, hi2⟩ := mem_zip_get.1 hf
    exact ⟨i, by simp, hi1, hkv i _ hi2⟩) (by
    intro i e src _ he hs
    have hi : i < 6 := by rw [← hwf]; exact (List.getElem?_eq_some_iff.1 he).1
    have := hfld i hi cc hb.acc src hs
    exact ⟨hkv i _ this, mem_zip_get.2 ⟨i, he, this⟩⟩) hs2 hcpp
  have hst := hr.trans e1
  cases hd with
  | false =>
    simp only [Bool.false_eq_true, if_false] at hp3
    subst hp3
    refine ⟨hst.log _, ?_, by simp⟩
    show cs'.ls = c.lines.drop s2.ofs
    rw [e3, e2]
  | true =>
    simp only [if_true] at hp3
    have hk := hfit r _ h3
    rw [hk] at hp3
    obtain ⟨f1, f2⟩ := setCtrl_step hb.ctl (hrel.step e1) (e1.ups.trans (ht rfl)) (s2.recs ++ [⟨.head, r.vals, [], k⟩])
    subst hp3
    refine ⟨hst.trans f1, ?_, fun _ => f2⟩
    show cs'.ls = c.lines.drop s2.ofs
    rw [e3, e2]

theorem dir_step {Γ M : Kinds} {c : RCtx} {cc : FunCtx} (hb : Both Γ c cc) {k : Ctrl} {L : List Name} {D : List VKey} {U : List (List VKey)}
    {s s' : RSt} {cs cs' : FunSt} (h : Rel Γ M k L D U s cs) (hh : Here c s cs) {depth : Nat} {fin : Bool} {ds ds' : VDicts} {cd : Code} {w : Way} {k0 : CSpec} {fs : List Expr}
    (hg : genAct depth (.dir k0 fs) ds = some (cd, ds')) (hok : codeOk Γ M depth fin L D U cd w = true)
    (hwf : ActWF (.dir k0 fs)) (hpy : readAct c (.dir k0 fs) s = .ok s') (hcpp : runCode cc cd cs = .ok cs') :
    Step Γ k s s' cs cs' ∧ Here c s' cs' := by
  simp only [genAct, Option.bind_eq_bind, Option.bind_eq_some_iff, Option.pure_def, Option.some.injEq, Prod.mk.injEq] at hg
  obtain ⟨⟨ps, ds1⟩, hx, rfl, rfl⟩ := hg
  simp only [codeOk] at hok
  simp only [readAct] at hpy
  obtain ⟨r, ofs', h1, h2, h3, hp1⟩ := takeRec_ok hb hpy
  clear hpy
  obtain ⟨_, _, hp2⟩ := lift_ok hp1
  clear hp1
  obtain ⟨s2, hs2, hp3⟩ := andThen_ok hp2
  clear hp2
  simp only [logRec, Out.ok.injEq] at hp3
  obtain ⟨rfl, l, hdrop, hpl, hfld⟩ := dir_agree hb.width hb.plain h2
  simp only [runCode, cbind_ok'] at hcpp
  obtain ⟨cs1, hcs1, hcpp⟩ := hcpp
  have := prepLine_ok hcs1
  rw [hh, hdrop] at this
  dsimp only [nextLine] at this
  subst this
  have hr := h.line (s.ofs + 1) (s.spans ++ [(s.ofs, s.ofs + 1)]) l (c.lines.drop (s.ofs + 1))
  have hrel := h.step hr
  have hwf : fs.length = 4 := hwf
  have hkind : ∀ i, fkind (i + 2) = .int := fun i => by unfold fkind; rw [if_neg (by omega)]
  obtain ⟨e1, e2, e3, e4⟩ := record_step hb hrel hx hok (es := fs) (by
    intro f hf
    obtain ⟨i, hi1, hi2⟩ := mem_zip_get.1 hf
    refine ⟨i, by simp, hi1, ?_⟩
    rw [hkind]
    rcases i with _ | _ | _ | _ | i <;>
      simp only [List.getElem?_cons_zero, List.getElem?_cons_succ, List.getElem?_nil, Option.some.injEq, reduceCtorEq] at hi2
    all_goals exact ⟨_, hi2.symm⟩) (by
    intro i e src _ he hs
    have hi : i < 4 := by rw [← hwf]; exact (List.getElem?_eq_some_iff.1 he).1
    rw [hkind] at hs ⊢
    have := hfld i hi cc src hs
    refine ⟨?_, mem_zip_get.2 ⟨i, he, this⟩⟩
    simp only [lineField, cbind_ok'] at hs
    obtain ⟨m, _, hs⟩ := hs
    cases hs
    exact ⟨_, rfl⟩) hs2 hcpp
  subst hp3
  refine ⟨(hr.trans e1).log _, ?_⟩
  show cs'.ls = c.lines.drop s2.ofs
  rw [e3, e2]

end Verif.CF
