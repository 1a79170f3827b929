import Verif.Lemmas.CppBlock
import Verif.Lemmas.CppAhead

/-! Loops, list bodies and whole recipes in both parsers. -/

namespace Verif.CF
open Verif Spec

theorem dHas_false {κ α : Type} [DecidableEq κ] {k : κ} {d : Dict κ α} (h : dGet k d = none) : dHas k d = false := by
  unfold dHas; rw [h]; rfl

theorem allIter_true {σ : Type} {setVar : Int → σ → σ} {body : σ → Out σ} (is : List Int) (s : σ) : AllIter setVar body (fun _ => True) is s := by
  induction is generalizing s with
  | nil => trivial
  | cons i is ih => exact ⟨trivial, fun s1 _ => ih s1⟩

theorem lvOk_cons {L : List Name} {lv : Dict Name Int} (h : LvOk L lv) (v : Name) (i : Int) : LvOk (v :: L) (dSet v i lv) := by
  refine ⟨fun n hn => ?_, fun n hn => ?_⟩
  · rw [dGet_dSet]
    split
    · exact ⟨i, rfl⟩
    · rename_i hne
      rcases List.mem_cons.1 hn with rfl | hn
      · exact absurd rfl hne
      · exact h.1 n hn
  · simp only [List.mem_cons, not_or] at hn
    rw [dGet_dSet, if_neg (Ne.symm hn.1)]
    exact h.2 n hn.2

theorem _root_.Verif.GrowN.sub {Γ M : Kinds} {d d' : DDic} (h : GrowN Γ d d') (hs : SubK M Γ) : GrowN M d d' :=
  fun n k ar hn => h n k ar (hs _ _ hn)

theorem asInt_val {v : PyNum} {i n : Int} (h : asInt v = .ok i) (hv : v.val = n) : n = i := by
  cases v with
  | int m =>
    simp only [asInt, CRes.ok.injEq] at h
    simp only [PyNum.val, Int.cast_inj] at hv
    omega
  | num x =>
    simp only [asInt] at h
    split at h
    · simp only [CRes.ok.injEq] at h
      have hx : x.val = n := hv
      rw [hx] at h
      rw [← h]
      exact (truncRat_int n).symm
    · cases h

/-- a loop, in a list body or outside of one; `Pos` relates the positions -/
theorem loop_agree {τ σ : Type} {pt : τ → RSt} {ps : σ → FunSt} {Pos : τ → σ → Prop} {v : Name} {setP : Int → τ → τ} {setC : Option Int → σ → σ}
    (hpt : ∀ i t, pt (setP i t) = (pt t).setVar v i) (hps : ∀ o s, ps (setC o s) = (ps s).setLv v o)
    (hpos : ∀ i t s, Pos t s → Pos (setP i t) (setC (some i) s))
    {Γ M : Kinds} {k : Ctrl} {L : List Name} {D : List VKey} {U : List (List VKey)} {t0 t1 : τ} {s0 s1 : σ} {a b : Expr} {fuel n : Nat} {x y xi : Int} {xv : PyNum}
    {bodyP : τ → Out τ} {bodyC : σ → CRes σ} {P : τ → Prop}
    (h : Rel Γ M k L D U (pt t0) (ps s0)) (hp0 : Pos t0 s0) (hok : headOk Γ M L (D :: U) v a b = true) (h0 : startOk L a = true ∨ 0 ≤ x)
    (hhead : loopHead fuel (pt t0).env v a b = .ok (x, y))
    (hbody : ∀ t s t' s', Rel Γ M k (v :: L) D U (pt t) (ps s) → Pos t s → P t → bodyP t = .ok t' → bodyC s = .ok s' →
      Step Γ k (pt t) (pt t') (ps s) (ps s') ∧ Pos t' s')
    (hP : AllIter setP bodyP P (intRange x y) t0) (hit : iterate setP bodyP (intRange x y) t0 = .ok t1)
    (hev : evC (ps s0) a = .ok xv) (has : asInt xv = .ok xi) (hrun : runFor setC (fun s => evC (ps s) b) bodyC n xi s0 = .ok s1) :
    ∃ s', s1 = setC none s' ∧ Pos t1 s' ∧ StepX Γ k (pt t0) (pt t1) (ps s0) (ps s') ∧
      (if x ≤ y then dDel v (pt t1).lv else (pt t1).lv) = (pt t0).lv ∧ dDel v (ps s').lv = (ps s0).lv := by
  simp only [headOk, Bool.and_eq_true, decide_eq_true_eq] at hok
  obtain ⟨⟨hΓv, hoa⟩, hob⟩ := hok
  have hdefs : (pairsOf (pt t0).cur (ps s0).cur (pt t0).ups (ps s0).ups).map (fun p => p.2.defs) = D :: U := by
    rw [pairsOf_defs h.lvls, h.defs, h.outer]
  have henv := h.lvls.envs (L := L) h.lvok
  have hsub := h.lvls.sub
  have hMv : M v = none := by
    cases hm : M v with
    | none => rfl
    | some x => rw [hsub _ _ hm] at hΓv; cases hΓv
  -- the bounds
  unfold loopHead at hhead
  simp only [bind_ok] at hhead
  obtain ⟨va, ha, vb, hb, x', hx', y', hy', hhead⟩ := hhead
  split at hhead
  · cases hhead
  rename_i hfree
  cases hhead
  -- the interpreter refuses a loop variable in use
  have hv0 : dGet v (ps s0).lv = none := by
    rw [← h.lv]
    cases hl : dGet v (pt t0).lv with
    | none => rfl
    | some i => exact absurd (by show dHas v (pt t0).lv = true; simp [dHas, hl]) hfree
  have hlv : (pt t0).env = ⟨(pt t0).cur, (pt t0).ups.map Prod.fst, (ps s0).lv⟩ := by unfold RSt.env RSt.outer; rw [h.lv]
  rw [hlv] at ha hb
  have hbnd : ∀ {z : PyNum} {w : PyNum} {m : Int}, loopBound (.num z) = .ok m → SameNum z w → w.val = m := by
    intro z w m hm hs
    unfold loopBound at hm
    dsimp only at hm
    split at hm
    · cases hm
    · rename_i hz
      simp only [ne_eq, not_not] at hz
      cases hm
      rw [← hs.1, hz]
  have hxv : xv.val = x := by
    obtain ⟨z, rfl, hz⟩ := bound_val henv henv (.mk (GrowN.refl _ _) rfl) (fun _ _ h => h) (fun n hn _ => hn) (by rw [hdefs]; exact hoa) ha hev
    exact hbnd hx' hz
  have hm0 : 0 ≤ x := by
    rcases h0 with hst | h0
    · obtain ⟨m, rfl, hm0⟩ := start_nonneg h.lvok h.pos hst hev
      simp only [PyNum.val, Int.cast_inj] at hxv
      omega
    · exact h0
  have hxm : x = xi := asInt_val has hxv
  subst hxm
  obtain ⟨s', rfl, hR⟩ := for_agree
    (R := fun t s => StepX Γ k (pt t0) (pt t) (ps s0) (ps s) ∧ (pt t).lv = (ps s).lv ∧
      ((ps s).lv = (ps s0).lv ∨ ∃ j, (ps s).lv = dSet v j (ps s0).lv) ∧ Pos t s)
    (Rin := fun i t s => Rel Γ M k (v :: L) D U (pt t) (ps s) ∧ (ps s).lv = dSet v i (ps s0).lv ∧ StepX Γ k (pt t0) (pt t) (ps s0) (ps s) ∧ Pos t s)
    (P := P) (a := x) (y := y) (by
      rintro i t s hi ⟨r1, r2, r3, r4⟩
      have hl : (ps (setC (some i) s)).lv = dSet v i (ps s0).lv := by
        rw [hps]
        show dSet v i (ps s).lv = _
        rcases r3 with e | ⟨j, e⟩
        · rw [e]
        · rw [e, dSet_dSet]
      have hsx : StepX Γ k (pt t0) (pt (setP i t)) (ps s0) (ps (setC (some i) s)) := by
        rw [hpt, hps]
        exact ⟨r1.ups, r1.cups, r1.look, r1.ign, r1.upd⟩
      refine ⟨h.stepX hsx ?_ ?_ ?_, hl, hsx, hpos i t s r4⟩
      · rw [hpt, hps]
        show dSet v i (pt t).lv = dSet v i (ps s).lv
        rw [r2]
      · rw [hl]; exact lvOk_cons h.lvok v i
      · intro n j hj
        rw [hl, dGet_dSet] at hj
        split at hj
        · cases hj; omega
        · exact h.pos n j hj) (by
      rintro i t s z ⟨r1, r2, r3, _⟩ hz
      obtain ⟨w, rfl, hw⟩ := bound_val henv (r1.lvls.envs (L := v :: L) r1.lvok) (by
          unfold pairsOf
          rw [r3.ups, r3.cups]
          exact .mk (r3.upd.grow.sub hsub) r3.upd.defs) (by
          intro n j hj
          rw [r2, dGet_dSet, if_neg (by rintro rfl; rw [hv0] at hj; cases hj)]
          exact hj) (by
          intro n hn hΓ hc
          rcases List.mem_cons.1 hc with rfl | hc
          · exact hΓ hMv
          · exact hn hc) (by rw [hdefs]; exact hob) hb hz
      exact hbnd hy' hw) (by
      rintro i t s t' s'' ⟨r1, r2, r3, r4⟩ hPt hbp hbc
      obtain ⟨q1, q2⟩ := hbody t s t' s'' r1 r4 hPt hbp hbc
      refine ⟨r3.trans q1.toStepX, ?_, .inr ⟨i, by rw [q1.clv, r2]⟩, q2⟩
      rw [q1.lv, q1.clv]; exact r1.lv) (le_refl x)
    (show StepX Γ k (pt t0) (pt t0) (ps s0) (ps s0) ∧ (pt t0).lv = (ps s0).lv ∧ _ ∧ Pos t0 s0 from ⟨h.refl.toStepX, h.lv, .inl rfl, hp0⟩)
    hP hit hrun
  obtain ⟨r1, r2, r3, r4⟩ := hR
  have hdel : dDel v (ps s').lv = (ps s0).lv := by
    rcases r3 with e | ⟨j, e⟩
    · rw [e]; exact dDel_none hv0
    · rw [e]; exact dDel_dSet _ (dHas_false hv0)
  refine ⟨s', rfl, r4, r1, ?_, hdel⟩
  split
  · rw [r2, hdel, h.lv]
  · rename_i hxy
    rw [intRange_nil (by omega)] at hit
    simp only [iterate, Out.ok.injEq] at hit
    rw [hit]

/-! ### list bodies -/

/-- positions in a list body: element `pos` of `N` is read next; the list starts in line `o1` -/
def LPos (c : RCtx) (N o1 o2 : Nat) (t : LSt) (l : LFun) : Prop :=
  t.st.ofs = o2 ∧ l.i = t.pos ∧ (c.lines[o1 + min t.pos (N - 1) / 6]? = some l.st.line) ∧
    l.st.ls = c.lines.drop (o1 + min t.pos (N - 1) / 6 + 1) ∧ l.j = t.pos - 6 * (min t.pos (N - 1) / 6)

theorem body_step {Γ M : Kinds} {c : RCtx} {cc : FunCtx} (hb : Both Γ c cc) {k : Ctrl} {N o1 o2 o2' : Nat} {vals : List Num}
    (hnum : readNumbers c.ro c.lines N o1 = .ok (vals, o2)) {depth : Nat} {body : LBody} {L : List Name} {D : List VKey} {U : List (List VKey)}
    {ds ds' : VDicts} {cd : LCode} {t t' : LSt} {l l' : LFun} (hg : genBody depth body ds = some (cd, ds')) (hok : lcodeOk Γ M depth L D U cd = true)
    (h : Rel Γ M k L D U t.st l.st) (hp : LPos c N o1 o2' t l) (hpy : readBody c (vals.map PyNum.num) body t = .ok t')
    (hcpp : runBody cc (N : Int) cd l = .ok l') : Step Γ k t.st t'.st l.st l'.st ∧ LPos c N o1 o2' t' l' := by
  induction body generalizing L D U ds ds' cd t t' l l' with
  | nil =>
    simp only [genBody, Option.some.injEq, Prod.mk.injEq] at hg
    obtain ⟨rfl, -⟩ := hg
    simp only [readBody, Out.ok.injEq] at hpy
    simp only [runBody, CRes.ok.injEq] at hcpp
    subst hpy; subst hcpp
    exact ⟨h.refl, hp⟩
  | seq a b iha ihb =>
    simp only [genBody, Option.bind_eq_bind, Option.bind_eq_some_iff, Option.pure_def, Option.some.injEq, Prod.mk.injEq] at hg
    obtain ⟨⟨x, ds1⟩, hx, ⟨y, ds2⟩, hy, rfl, rfl⟩ := hg
    simp only [lcodeOk, Bool.and_eq_true] at hok
    simp only [readBody] at hpy
    obtain ⟨t1, ht1, hpy⟩ := andThen_ok hpy
    simp only [runBody, cbind_ok'] at hcpp
    obtain ⟨l1, hl1, hcpp⟩ := hcpp
    obtain ⟨e1, e2⟩ := iha hx hok.1 h hp ht1 hl1
    obtain ⟨f1, f2⟩ := ihb hy hok.2 (h.step e1) e2 hpy hcpp
    exact ⟨e1.trans f1, f2⟩
  | pad => simp [genBody] at hg
  | loop v a b body ih =>
    simp only [genBody, Option.bind_eq_bind, Option.bind_eq_some_iff, Option.pure_def, Option.some.injEq, Prod.mk.injEq] at hg
    obtain ⟨ds1, hd1, ⟨x, ds2⟩, hx, rfl, rfl⟩ := hg
    simp only [lcodeOk, Bool.and_eq_true] at hok
    simp only [readBody] at hpy
    obtain ⟨⟨x0, y0⟩, hh, hpy⟩ := lift_ok hpy
    dsimp only at hpy
    obtain ⟨t1, ht1, hpy⟩ := andThen_ok hpy
    simp only [Out.ok.injEq] at hpy
    simp only [runBody, cbind_ok'] at hcpp
    obtain ⟨xv, hxv, xi, hxi, hrun⟩ := hcpp
    obtain ⟨l1, rfl, hp1, hs1, hlv1, hlv2⟩ := loop_agree (pt := LSt.st) (ps := LFun.st) (Pos := LPos c N o1 o2') (fun _ _ => rfl) (fun _ _ => rfl)
      (fun _ _ _ hp => hp) (P := fun _ => True) h hp hok.1.1 (.inl hok.1.2) hh
      (fun t s t' s' hr hp _ hbp hbc => ih hx hok.2 hr hp hbp hbc) (allIter_true _ _) ht1 hxv hxi hrun
    subst hpy
    refine ⟨⟨⟨?_, hs1.cups, ?_, ?_, ?_⟩, ?_, hlv2⟩, ?_⟩
    · split <;> exact hs1.ups
    · split <;> exact hs1.look
    · split <;> exact hs1.ign
    · split <;> exact hs1.upd
    · rw [← hlv1]; split <;> rfl
    · split <;> exact hp1
  | expr e =>
    simp only [genBody] at hg
    split at hg
    · rename_i ds1 ps hgf
      simp only [Option.some.injEq, Prod.mk.injEq] at hg
      obtain ⟨rfl, rfl⟩ := hg
      simp only [lcodeOk] at hok
      obtain ⟨g1, g2⟩ := genField_spec hgf
      simp only [readBody] at hpy
      split at hpy
      · cases hpy
      · rename_i pv hpv
        obtain ⟨cur, hcur, hp2⟩ := lift_ok hpy
        clear hpy
        simp only [Out.ok.injEq] at hp2
        simp only [runBody, cbind_ok'] at hcpp
        obtain ⟨s1, hs1, hcpp⟩ := hcpp
        obtain ⟨p1, p2, p3, p4, p5⟩ := hp
        obtain ⟨n1, n2, n3⟩ := readNumbers_get hnum
        rw [List.getElem?_map, Option.map_eq_some_iff] at hpv
        obtain ⟨num, hnv, rfl⟩ := hpv
        have hlt : t.pos < N := by rw [← n1]; exact (List.getElem?_eq_some_iff.1 hnv).1
        have hmin : min t.pos (N - 1) = t.pos := by omega
        rw [hmin] at p3 p4 p5
        obtain ⟨line, hl1, hl2⟩ := n3 t.pos num hnv
        have hline : line = l.st.line := by rw [p3] at hl1; cases hl1; rfl
        subst hline
        have hj : l.j = t.pos % 6 := by omega
        have hkv : KindVal .flt (.num (.num num)) := ⟨num.val, by rw [readFloat_flt hb.pres hl2]; rfl⟩
        obtain ⟨e1, e2, e3, e4⟩ := mapFields_step hb h (es := [e]) (vals := [.num (.num num)]) (fun p hp => (g1 p hp).2.2.2) hok (by
          intro f hf
          simp only [List.zip_cons_cons, List.zip_nil_right, List.mem_cons, List.not_mem_nil, or_false] at hf
          subst hf
          obtain ⟨p, hp⟩ := List.exists_mem_of_ne_nil _ g2
          obtain ⟨_, q2, q3, _⟩ := g1 p hp
          exact ⟨p, hp, q3, by rw [q2]; exact hkv⟩) (by
          intro p hp src hs
          obtain ⟨_, q2, q3, _⟩ := g1 p hp
          rw [q2] at hs ⊢
          simp only [lineField, cbind_ok'] at hs
          obtain ⟨q, hq, hs⟩ := hs
          cases hs
          refine ⟨⟨q, rfl⟩, ?_⟩
          rw [hb.width, Nat.mul_comm] at hl2
          rw [hb.acc, hj] at hq
          rw [float_agree hb.width hb.pres (hb.plain _ (List.mem_of_getElem? hl1)) (Nat.mod_lt _ (by omega)) hl2 hq, q3]
          simp) (s' := { t.st with cur := cur }) (by unfold mapFields; rw [hcur]; rfl) hs1
        subst hp2
        split at hcpp
        · rename_i hcnd
          obtain ⟨hj5, hi⟩ := hcnd
          rw [p2] at hi
          have hi' : t.pos + 1 < N := by omega
          simp only [cbind_ok'] at hcpp
          obtain ⟨s2, hs2, hcpp⟩ := hcpp
          cases hcpp
          have := prepLine_ok hs2
          rw [e3, p4] at this
          obtain ⟨num', hn'⟩ : ∃ num', vals[t.pos + 1]? = some num' := ⟨_, List.getElem?_eq_getElem (by omega)⟩
          obtain ⟨line', hl1', _⟩ := n3 _ _ hn'
          have hdiv : (t.pos + 1) / 6 = t.pos / 6 + 1 := by omega
          rw [hdiv] at hl1'
          obtain ⟨hlt', he'⟩ := List.getElem?_eq_some_iff.1 hl1'
          rw [show o1 + t.pos / 6 + 1 = o1 + (t.pos / 6 + 1) by omega, List.drop_eq_getElem_cons hlt', he'] at this
          dsimp only [nextLine] at this
          have hrel' := h.step e1
          subst this
          refine ⟨e1.trans ⟨⟨rfl, rfl, rfl, rfl, Upd.refl hrel'.blk⟩, rfl, rfl⟩, p1, ?_, ?_, ?_, ?_⟩
          · show l.i + 1 = _
            rw [p2]; push_cast; rfl
          · show c.lines[o1 + min (t.pos + 1) (N - 1) / 6]? = some line'
            rw [show min (t.pos + 1) (N - 1) = t.pos + 1 by omega, hdiv]; exact hl1'
          · show c.lines.drop _ = c.lines.drop (o1 + min (t.pos + 1) (N - 1) / 6 + 1)
            rw [show min (t.pos + 1) (N - 1) = t.pos + 1 by omega, hdiv]
          · show 0 = t.pos + 1 - 6 * (min (t.pos + 1) (N - 1) / 6)
            rw [show min (t.pos + 1) (N - 1) = t.pos + 1 by omega, hdiv]
            omega
        · rename_i hcnd
          cases hcpp
          have hdiv : min (t.pos + 1) (N - 1) / 6 = t.pos / 6 := by
            rw [p2] at hcnd
            by_cases hN : t.pos + 1 < N
            · have : ¬ 5 < l.j + 1 := fun h5 => hcnd ⟨h5, by omega⟩
              rw [show min (t.pos + 1) (N - 1) = t.pos + 1 by omega]
              omega
            · rw [show min (t.pos + 1) (N - 1) = t.pos by omega]
          refine ⟨e1, p1, ?_, ?_, ?_, ?_⟩
          · show l.i + 1 = _
            rw [p2]; push_cast; rfl
          · show c.lines[o1 + min (t.pos + 1) (N - 1) / 6]? = some s1.line
            rw [hdiv, e4]; exact p3
          · show s1.ls = c.lines.drop (o1 + min (t.pos + 1) (N - 1) / 6 + 1)
            rw [hdiv, e3]; exact p4
          · show l.j + 1 = t.pos + 1 - 6 * (min (t.pos + 1) (N - 1) / 6)
            rw [hdiv]
            omega
    · cases hg

theorem list_step {Γ M : Kinds} {c : RCtx} {cc : FunCtx} (hb : Both Γ c cc) {k : Ctrl} {L : List Name} {D : List VKey} {U : List (List VKey)}
    {s s' : RSt} {cs cs' : FunSt} (h : Rel Γ M k L D U s cs) (hh : Here c s cs) {depth : Nat} {fin : Bool} {ds ds' : VDicts} {cd : Code} {w : Way} {k0 : CSpec} {fs : List Expr}
    {body : LBody} {name : Option VarRef}
    (hg : genAct depth (.list k0 fs body name) ds = some (cd, ds')) (hok : codeOk Γ M depth fin L D U cd w = true)
    (hwf : ActWF (.list k0 fs body name)) (hfit : FitAct c k (.list k0 fs body name) s) (hpy : readAct c (.list k0 fs body name) s = .ok s')
    (hcpp : runCode cc cd cs = .ok cs') : Step Γ k s s' cs cs' ∧ Here c s' cs' := by
  simp only [genAct, Option.bind_eq_bind, Option.bind_eq_some_iff, Option.pure_def, Option.some.injEq, Prod.mk.injEq] at hg
  obtain ⟨⟨ps, ds1⟩, hx, ⟨bd, nm, ds2⟩, hn, rfl, rfl⟩ := hg
  simp only [codeOk, Bool.and_eq_true] at hok
  simp only [readAct] at hpy
  obtain ⟨r, ofs', h1, h2, h3, hp1⟩ := takeRec_ok hb hpy
  clear hpy
  obtain ⟨q1, q4⟩ := hfit r _ h3
  obtain ⟨_, _, hp2⟩ := lift_ok hp1
  clear hp1
  obtain ⟨s2, hs2, hp3⟩ := andThen_ok hp2
  clear hp2
  replace q4 := q4 s2 hs2
  unfold readList at h2
  simp only [bind_ok, Prod.exists] at h2
  obtain ⟨hd, ofs1, hd1, h2⟩ := h2
  split at h2
  · rename_i hz
    simp only [Except.ok.injEq, Prod.mk.injEq] at h2
    obtain ⟨rfl, _⟩ := h2
    dsimp only at q1
    omega
  simp only [bind_ok, pure_ok, Prod.exists, Prod.mk.injEq] at h2
  obtain ⟨v1, ofs2, hv1, rfl, rfl⟩ := h2
  obtain ⟨rfl, l, hdrop, hpl, hctrl, hlen, hkv, hfld, hn1, hn2⟩ := cont_agree hb.width hb.pres hb.plain hd1
  dsimp only at q1 hs2 hp3
  simp only [runCode, cbind_ok'] at hcpp
  obtain ⟨cs1, hcs1, cs2, hcs2, hcpp⟩ := hcpp
  have := prepLine_ok hcs1
  rw [hh, hdrop] at this
  dsimp only [nextLine] at this
  subst this
  have hr := h.line ofs2 (s.spans ++ [(s.ofs, ofs2)]) l (c.lines.drop (s.ofs + 1))
  have hrel := h.step hr
  have hwf : fs.length = 6 := hwf
  obtain ⟨e1, e2, e3, e4⟩ := record_step hb hrel hx hok.1 (es := fs) (vals := hd.vals) (by
    intro f hf
    obtain ⟨i, hi1, hi2⟩ := mem_zip_get.1 hf
    exact ⟨i, by simp, hi1, hkv i _ hi2⟩) (by
    intro i e src _ he hs
    have hi : i < 6 := by rw [← hwf]; exact (List.getElem?_eq_some_iff.1 he).1
    have := hfld i hi cc hb.acc src hs
    exact ⟨hkv i _ this, mem_zip_get.2 ⟨i, he, this⟩⟩) hs2 hcs2
  have hrel2 := hrel.step e1
  have hpro : s2.proceed = some s2 := by unfold RSt.proceed; rw [hrel2.look]
  rw [hpro] at hp3
  dsimp only at hp3
  split at hp3
  · cases hp3
  rename_i lst hlst
  split at hp3
  · cases hp3
  rename_i hfull
  simp only [logRec, Out.ok.injEq] at hp3
  obtain ⟨n1, n2, n3⟩ := readNumbers_get hv1
  obtain ⟨N, hN⟩ : ∃ N : Nat, N = (slotVal hd.n1).toNat := ⟨_, rfl⟩
  have hNi : slotVal hd.n1 = (N : Int) := by omega
  rw [← hN] at hv1 n1 n2
  obtain ⟨f1, f2⟩ := named_step hb hrel2 hn hok.2 q4 (Q := fun o ls => o = ofs2 ∧ ls = c.lines.drop ofs2) (by
    rintro Γ' M' D' U' dsa dsb t1 ct1 t2 ct2 hb' hrl hF hgc ho1 hl1 hl2 ⟨l2, hP, rfl, hpos⟩ hC
    simp only [cbind_ok'] at hC
    obtain ⟨npl, hnpl, hC⟩ := hC
    rw [hl2, e4] at hnpl
    dsimp only at hnpl
    have := hn1 _ hnpl
    subst this
    rw [hNi] at hC
    unfold runList at hC
    simp only [cbind_ok'] at hC
    obtain ⟨ct3, hct3, lf, hlf, hC⟩ := hC
    split at hC
    · cases hC
    rename_i hfin
    simp only [CRes.ok.injEq] at hC
    subst hC
    have := prepLine_ok hct3
    rw [hl1, e3] at this
    obtain ⟨num, hnum⟩ : ∃ num, v1[0]? = some num := ⟨_, List.getElem?_eq_getElem (by omega)⟩
    obtain ⟨line, hline, _⟩ := n3 0 num hnum
    simp only [Nat.zero_div, Nat.add_zero] at hline
    obtain ⟨hlt, he⟩ := List.getElem?_eq_some_iff.1 hline
    rw [List.drop_eq_getElem_cons hlt, he] at this
    dsimp only [nextLine] at this
    subst this
    have hrl' : Step Γ' k t1 t1 ct1 { ct1 with line := line, ls := c.lines.drop (s.ofs + 1 + 1) } :=
      ⟨⟨rfl, rfl, rfl, rfl, Upd.refl hrl.blk⟩, rfl, rfl⟩
    obtain ⟨g1, g2, g3, g4, g5, g6⟩ := body_step hb' hv1 (o2' := ofs2) (t := ⟨0, t1⟩) hgc hF (hrl.step hrl') (by
      refine ⟨ho1.trans e2, rfl, ?_, ?_, ?_⟩
      · simpa using hline
      · simp
      · simp) hP hlf
    refine ⟨hrl'.trans g1, g2, ?_⟩
    rw [g5]
    simp only [ne_eq, not_not] at hfin
    congr 1
    omega) (namedBody_run hlst) hcpp
  subst hp3
  refine ⟨((hr.trans e1).trans f1).log _, ?_⟩
  show cs'.ls = c.lines.drop lst.st.ofs
  rw [f2.1, f2.2]

/-! ### whole recipes -/

theorem readLine_rest {val : Bool} {c : Ctrl} {ls : List Str} {l : Str} {r : List Str} (h : cppReadLine val c ls = .ok (l, r)) : r = (nextLine ls).2 := by
  unfold cppReadLine at h
  dsimp only at h
  split at h
  · simp only [cbind_ok'] at h
    obtain ⟨_, _, _, _, _, _, h⟩ := h
    split at h
    · cases h
    · cases h
      rfl
  · cases h
    rfl

theorem send_same {cc : FunCtx} {cs cs' : FunSt} (h : readSendC cc cs = .ok cs') : cs' = { cs with ls := (nextLine cs.ls).2 } := by
  unfold readSendC at h
  simp only [cbind_ok'] at h
  obtain ⟨⟨l, r⟩, hr, _, _, _, _, h⟩ := h
  obtain rfl := readLine_rest hr
  split at h
  · cases h
  simp only [cbind_ok'] at h
  obtain ⟨_, _, h⟩ := h
  split at h
  · cases h
  simp only [cbind_ok'] at h
  obtain ⟨_, _, h⟩ := h
  split at h
  · cases h
  simp only [cbind_ok'] at h
  obtain ⟨_, _, h⟩ := h
  split at h
  · cases h
  simp only [cbind_ok'] at h
  obtain ⟨_, _, h⟩ := h
  split at h
  · cases h
  simp only [cbind_ok'] at h
  obtain ⟨_, _, h⟩ := h
  split at h
  · cases h
  cases h
  rfl

theorem nextLine_drop {L : List Str} {n : Nat} : (nextLine (L.drop n)).2 = L.drop (n + 1) := by
  have : (nextLine (L.drop n)).2 = (L.drop n).tail := by
    cases L.drop n <;> rfl
  rw [this, List.tail_drop]

theorem act_step {Γ M : Kinds} {c : RCtx} {cc : FunCtx} (hb : Both Γ c cc) {k : Ctrl} {L : List Name} {D : List VKey} {U : List (List VKey)}
    {s s' : RSt} {cs cs' : FunSt} (h : Rel Γ M k L D U s cs) (hh : Here c s cs) {depth : Nat} {fin top : Bool} {ds ds' : VDicts} {cd : Code} {w : Way} {a : Act}
    (hg : genAct depth a ds = some (cd, ds')) (hok : codeOk Γ M depth fin L D U cd w = true) (htop : topOk top (.act a) = true) (ht : top = true → s.ups = [])
    (hwf : ActWF a) (hfit : FitAct c k a s) (hpy : readAct c a s = .ok s') (hcpp : runCode cc cd cs = .ok cs') :
    Step Γ k s s' cs cs' ∧ (fin = false ∨ endsPlain (.act a) = true → Here c s' cs') ∧ (headed (.act a) = true → ∀ n ∈ ctlNames, dGet (.var n) s'.cur ≠ none) ∧
      (endsSend (.act a) = true → cs'.ls = c.lines.drop (s'.ofs + 1)) := by
  cases a with
  | text k0 fs =>
    obtain ⟨e1, e2, e3⟩ := text_step hb h hh hg hok (ht htop) hfit hpy hcpp
    exact ⟨e1, fun _ => e2, fun _ => e3, by simp [endsSend]⟩
  | cont hd k0 fs =>
    obtain ⟨e1, e2, e3⟩ := cont_step hb h hh hg hok (fun hd => ht (by subst hd; exact htop)) hwf hfit hpy hcpp
    refine ⟨e1, fun _ => e2, fun hh => e3 ?_, by simp [endsSend]⟩
    cases hd with
    | true => rfl
    | false => simp [headed] at hh
  | dir k0 fs =>
    obtain ⟨e1, e2⟩ := dir_step hb h hh hg hok hwf hpy hcpp
    exact ⟨e1, fun _ => e2, by simp [headed], by simp [endsSend]⟩
  | intg k0 fs n => simp [genAct] at hg
  | tab1 k0 fs x y name =>
    obtain ⟨e1, e2⟩ := tab1_step hb h hh hg hok hwf hfit hpy hcpp
    exact ⟨e1, fun _ => e2, by simp [headed], by simp [endsSend]⟩
  | tab2 k0 fs name =>
    obtain ⟨e1, e2⟩ := tab2_step hb h hh hg hok hwf hfit hpy hcpp
    exact ⟨e1, fun _ => e2, by simp [headed], by simp [endsSend]⟩
  | list k0 fs body name =>
    obtain ⟨e1, e2⟩ := list_step hb h hh hg hok hwf hfit hpy hcpp
    exact ⟨e1, fun _ => e2, by simp [headed], by simp [endsSend]⟩
  | send =>
    simp only [genAct, Option.some.injEq, Prod.mk.injEq] at hg
    obtain ⟨rfl, rfl⟩ := hg
    simp only [readAct] at hpy
    obtain ⟨ofs, h1, hpy⟩ := lift_ok hpy
    obtain ⟨⟨r, o⟩, h2, hpy⟩ := lift_ok hpy
    simp only [logRec, Out.ok.injEq] at hpy
    simp only [runCode] at hcpp
    obtain rfl := send_same hcpp
    subst hpy
    simp only [codeOk] at hok
    refine ⟨⟨⟨rfl, rfl, rfl, rfl, Upd.refl h.blk⟩, rfl, rfl⟩, by simp [hok, endsPlain], by simp [headed], fun _ => ?_⟩
    obtain rfl := skip_plain hb.blank h1
    dsimp only
    rw [hh, nextLine_drop]
  | stop =>
    simp only [readAct] at hpy
    obtain ⟨_, _, hpy⟩ := lift_ok hpy
    cases hpy

/-- the number of steps of a lookahead -/
theorem lookCount_lit {c : RCtx} {s : RSt} {n m : Int} (h : lookCount c s (.num (.int n)) = .ok m) : m = n := by
  have hv : evalKnown c.fuel s.env true true (.num (.int n)) = .ok (.num (.int n)) := by
    unfold evalKnown
    cases c.fuel <;> simp [evalExpr, evalWith, bind, Except.bind, pure, Except.pure]
  unfold lookCount at h
  rw [hv] at h
  simp only [bind, Except.bind] at h
  split at h
  · cases h
  · split at h
    · cases h
    · cases h; exact truncRat_int n


/-- the interpreter takes the branches of a choice -/
def Follows (c : RCtx) : Prog → Way → RSt → Prop
  | .seq a b, .seq x y, s => Follows c a x s ∧ ∀ s1, readProg c a s = .ok s1 → Follows c b y s1
  | .ite cond none t _, .thn x, s => evalCond c.fuel s.env cond ≠ .ok false ∧ Follows c t x s
  | .ite cond none _ e, .els x, s => evalCond c.fuel s.env cond ≠ .ok true ∧ Follows c e x s
  | .ite cond (some e) t _, .thn x, s => (∀ n s', lookCount c s e = .ok n → readProg c t { s with look := some n, ignoreAll := true } = .ok s' →
      evalCond c.fuel (s'.envAt s.ups.length) cond ≠ .ok false) ∧ Follows c t x s
  | .ite cond (some e) t els, .els x, s => (∀ n s', lookCount c s e = .ok n → readProg c t { s with look := some n, ignoreAll := true } = .ok s' →
      evalCond c.fuel (s'.envAt s.ups.length) cond ≠ .ok true) ∧ Follows c els x s
  | _, _, _ => True

theorem follows_any (c : RCtx) (p : Prog) (s : RSt) : Follows c p .any s := by
  cases p with
  | ite cond look t e => cases look <;> simp [Follows]
  | _ => simp [Follows]

theorem follows_fst {c : RCtx} {a b : Prog} {w : Way} {s : RSt} (h : Follows c (.seq a b) w s) : Follows c a w.fst s := by
  cases w with
  | seq x y => exact h.1
  | _ => exact follows_any _ _ _

theorem follows_snd {c : RCtx} {a b : Prog} {w : Way} {s s1 : RSt} (h : Follows c (.seq a b) w s) (h1 : readProg c a s = .ok s1) : Follows c b w.snd s1 := by
  cases w with
  | seq x y => exact h.2 _ h1
  | _ => exact follows_any _ _ _

theorem ways_ne (cd : Code) : ∃ w, w ∈ ways cd := by
  induction cd with
  | seq a b iha ihb =>
    obtain ⟨x, hx⟩ := iha
    obtain ⟨y, hy⟩ := ihb
    exact ⟨.seq x y, List.mem_flatMap.2 ⟨x, hx, List.mem_map.2 ⟨y, hy, rfl⟩⟩⟩
  | ite c a b iha ihb =>
    obtain ⟨x, hx⟩ := iha
    exact ⟨.thn x, List.mem_append.2 (.inl (List.mem_map.2 ⟨x, hx, rfl⟩))⟩
  | look st c a b iha ihb =>
    obtain ⟨x, hx⟩ := iha
    exact ⟨.thn x, List.mem_append.2 (.inl (List.mem_map.2 ⟨x, hx, rfl⟩))⟩
  | _ => exact ⟨.any, by simp [ways]⟩

/-- one of the choices is taken -/
theorem follows_ways (c : RCtx) {depth : Nat} {p : Prog} {ds ds' : VDicts} {cd : Code} (hg : genProg depth p ds = some (cd, ds')) (s : RSt) :
    ∃ w ∈ ways cd, Follows c p w s := by
  induction p generalizing ds ds' cd s with
  | seq a b iha ihb =>
    simp only [genProg, Option.bind_eq_bind, Option.bind_eq_some_iff, Option.pure_def, Option.some.injEq, Prod.mk.injEq] at hg
    obtain ⟨⟨x, ds1⟩, hx, ⟨y, ds2⟩, hy, rfl, rfl⟩ := hg
    obtain ⟨w1, h1, f1⟩ := iha hx s
    obtain ⟨w2, h2, f2⟩ : ∃ w ∈ ways y, ∀ s1, readProg c a s = .ok s1 → Follows c b w s1 := by
      cases hr : readProg c a s with
      | ok s1 =>
        obtain ⟨w, hw, hf⟩ := ihb hy s1
        exact ⟨w, hw, fun s2 h2 => by cases h2; exact hf⟩
      | err e s1 =>
        obtain ⟨w, hw⟩ := ways_ne y
        exact ⟨w, hw, fun s2 h2 => by cases h2⟩
    exact ⟨.seq w1 w2, List.mem_flatMap.2 ⟨w1, h1, List.mem_map.2 ⟨w2, h2, rfl⟩⟩, f1, f2⟩
  | ite cond look thn els iht ihe =>
    cases look with
    | none =>
      simp only [genProg] at hg
      split at hg
      · cases hg
      simp only [Option.bind_eq_bind, Option.bind_eq_some_iff, Option.pure_def, Option.some.injEq, Prod.mk.injEq] at hg
      obtain ⟨⟨x, ds1⟩, hx, ⟨y, ds2⟩, hy, rfl, rfl⟩ := hg
      by_cases hc : evalCond c.fuel s.env cond = .ok true
      · obtain ⟨w, hw, hf⟩ := iht hx s
        exact ⟨.thn w, List.mem_append.2 (.inl (List.mem_map.2 ⟨w, hw, rfl⟩)), by rw [hc]; simp, hf⟩
      · obtain ⟨w, hw, hf⟩ := ihe hy s
        exact ⟨.els w, List.mem_append.2 (.inr (List.mem_map.2 ⟨w, hw, rfl⟩)), hc, hf⟩
    | some e =>
      simp only [genProg] at hg
      split at hg
      case h_2 => cases hg
      rename_i n
      split at hg
      · cases hg
      simp only [Option.bind_eq_bind, Option.bind_eq_some_iff] at hg
      obtain ⟨⟨steps, m, dsl⟩, hgl, hg⟩ := hg
      dsimp only at hg
      split at hg
      · cases hg
      simp only [Option.bind_eq_some_iff, Option.pure_def, Option.some.injEq, Prod.mk.injEq] at hg
      obtain ⟨⟨x, ds1⟩, hx, ⟨y, ds2⟩, hy, rfl, rfl⟩ := hg
      by_cases hc : ∃ n' s', lookCount c s (.num (.int n)) = .ok n' ∧ readProg c thn { s with look := some n', ignoreAll := true } = .ok s' ∧
        evalCond c.fuel (s'.envAt s.ups.length) cond = .ok true
      · obtain ⟨w, hw, hf⟩ := iht hx s
        refine ⟨.thn w, List.mem_append.2 (.inl (List.mem_map.2 ⟨w, hw, rfl⟩)), ?_, hf⟩
        obtain ⟨n1, s1, c1, c2, c3⟩ := hc
        intro n2 s2 d1 d2 d3
        rw [c1] at d1
        cases d1
        rw [c2] at d2
        cases d2
        rw [c3] at d3
        cases d3
      · obtain ⟨w, hw, hf⟩ := ihe hy s
        exact ⟨.els w, List.mem_append.2 (.inr (List.mem_map.2 ⟨w, hw, rfl⟩)), fun n2 s2 d1 d2 d3 => hc ⟨n2, s2, d1, d2, d3⟩, hf⟩
  | _ => exact (ways_ne cd).imp fun w hw => ⟨hw, by cases w <;> simp [Follows]⟩

theorem allWays_ok {c : RCtx} {depth : Nat} {p : Prog} {ds ds' : VDicts} {cd : Code} (hg : genProg depth p ds = some (cd, ds')) (s : RSt)
    {f : Way → Bool} (h : allWays cd f = true) : ∃ w, f w = true ∧ Follows c p w s := by
  simp only [allWays, Bool.or_eq_true, List.all_eq_true] at h
  rcases h with h | h
  · exact ⟨.any, h, follows_any _ _ _⟩
  · obtain ⟨w, hw, hf⟩ := follows_ways c hg s
    exact ⟨w, h w hw, hf⟩

theorem prog_step {Γ M : Kinds} {c : RCtx} {cc : FunCtx} (hb : Both Γ c cc) {k : Ctrl} {depth : Nat} {p : Prog} {fin top : Bool} {L : List Name} {D : List VKey}
    {U : List (List VKey)} {ds ds' : VDicts} {cd : Code} {w : Way} {s s' : RSt} {cs cs' : FunSt} (hg : genProg depth p ds = some (cd, ds'))
    (hok : codeOk Γ M depth fin L D U cd w = true) (htop : topOk top p = true) (ht : top = true → s.ups = []) (hwf : WF p) (hfit : Fit c k p s)
    (hw : Follows c p w s) (h : Rel Γ M k L D U s cs) (hh : Here c s cs) (hpy : readProg c p s = .ok s') (hcpp : runCode cc cd cs = .ok cs') :
    Step Γ k s s' cs cs' ∧ (fin = false ∨ endsPlain p = true → Here c s' cs') ∧ (headed p = true → ∀ n ∈ ctlNames, dGet (.var n) s'.cur ≠ none) ∧
      (endsSend p = true → cs'.ls = c.lines.drop (s'.ofs + 1)) := by
  induction p generalizing Γ M fin top L D U ds ds' cd w s s' cs cs' with
  | skip =>
    simp only [genProg, Option.some.injEq, Prod.mk.injEq] at hg
    obtain ⟨rfl, rfl⟩ := hg
    simp only [readProg, Out.ok.injEq] at hpy
    simp only [runCode, CRes.ok.injEq] at hcpp
    subst hpy; subst hcpp
    exact ⟨h.refl, fun _ => hh, by simp [headed], by simp [endsSend]⟩
  | seq a b iha ihb =>
    simp only [genProg, Option.bind_eq_bind, Option.bind_eq_some_iff, Option.pure_def, Option.some.injEq, Prod.mk.injEq] at hg
    obtain ⟨⟨x, ds1⟩, hx, ⟨y, ds2⟩, hy, rfl, rfl⟩ := hg
    simp only [codeOk, Bool.and_eq_true] at hok
    simp only [topOk, Bool.and_eq_true] at htop
    simp only [readProg] at hpy
    obtain ⟨s1, hs1, hpy⟩ := andThen_ok hpy
    simp only [runCode, cbind_ok'] at hcpp
    obtain ⟨cs1, hcs1, hcpp⟩ := hcpp
    obtain ⟨e1, e2, e3, -⟩ := iha hb hx hok.1 htop.1 ht hwf.1 hfit.1 (follows_fst hw) h hh hs1 hcs1
    obtain ⟨f1, f2, f3, f4⟩ := ihb hb hy hok.2 htop.2 (fun hc => e1.ups.trans (ht hc)) hwf.2 (hfit.2 s1 hs1) (follows_snd hw hs1) (h.step e1) (e2 (.inl rfl)) hpy hcpp
    refine ⟨e1.trans f1, f2, fun hhd n hn => ?_, f4⟩
    simp only [headed, Bool.or_eq_true] at hhd
    rcases hhd with hhd | hhd
    · exact f1.upd.ctl n hn (e3 hhd n hn)
    · exact f3 hhd n hn
  | act a =>
    simp only [readProg] at hpy
    have hpro : s.proceed = some s := by unfold RSt.proceed; rw [h.look]
    rw [hpro] at hpy
    exact act_step hb h hh hg hok htop ht hwf hfit hpy hcpp
  | sect r body ih =>
    simp only [genProg] at hg
    split at hg
    · cases hg
    simp only [Option.bind_eq_bind, Option.bind_eq_some_iff, Option.pure_def, Option.some.injEq, Prod.mk.injEq] at hg
    obtain ⟨⟨x, ds1⟩, hx, rfl, rfl⟩ := hg
    simp only [codeOk, Bool.and_eq_true] at hok
    simp only [topOk] at htop
    simp only [readProg] at hpy
    have hstop : s.stopped = false := by unfold RSt.stopped; rw [h.look]; rfl
    rw [hstop] at hpy
    simp only [Bool.false_eq_true, if_false] at hpy
    obtain ⟨s1, hs1, hpy⟩ := lift_ok hpy
    obtain ⟨s2, hs2, hpy⟩ := andThen_ok hpy
    obtain ⟨cur, hcur, hpy⟩ := lift_ok hpy
    obtain ⟨s3, hs3, hpy⟩ := lift_ok hpy
    cases hpy
    simp only [runCode, cbind_ok'] at hcpp
    obtain ⟨cs1, hcs1, cs2, hcs2, hcs3⟩ := hcpp
    have hf2 := hfit.2 s1 hs1
    obtain ⟨w', hw', hf'⟩ := allWays_ok (c := c) hx { s1 with cur := initWork s1.cur } hok.2
    simp only [Bool.and_eq_true] at hw'
    have hb' := hb.other hw'.1
    obtain ⟨is, rfl, rfl, hrel⟩ := open_rel h hok.1 hfit.1 hs1 hcs1 (wayΓ Γ x w')
    have hrel1 : Rel (wayΓ Γ x w') (meet M (wayΓ Γ x w')) k L ds1.defs (D :: U) { s with cur := initWork [(.up, .mark)], ups := (s.cur, r.name, is) :: s.ups }
        { cs with cur := ⟨ds1.defs, [], []⟩, ups := (cs.cur, r.name, is) :: cs.ups } :=
      ⟨hrel.lv, hrel.lvok, hrel.pos, hrel.look, hrel.ign,
        hrel.lvls.set (blk_dSet (blk_dSet hrel.blk _ (by simp) (by simp)) _ (by simp) (by simp)) rfl, hrel.defs, hrel.outer⟩
    obtain ⟨e1, e2, _⟩ := ih (fin := false) (top := false) hb' hx hw'.2 htop (by simp) hwf hf2 hf' hrel1 hh hs2 hcs2
    have hrel2 := hrel1.step e1
    have hab : dGet .abbrevs s2.cur = some (.names []) := by rw [e1.upd.other _ (by simp)]; rfl
    unfold removeWork at hcur
    rw [hab] at hcur
    simp only [List.foldlM_nil, pure_bind, pure_ok] at hcur
    subst hcur
    have hnd := hrel2.blk.nodup
    obtain ⟨f1, f2, f3⟩ := close_step hb' (s := s) (cs := cs) (s2 := { s2 with cur := dDel .startidcs (dDel .abbrevs s2.cur) }) hok.1 h.blk e1.ups e1.cups
      (blk_dDel (blk_dDel (by have := hrel2.blk; rw [e1.ups] at this; exact this) (by simp)) (by simp)) (by
      intro key hk hup
      show dGet key (dDel .startidcs (dDel .abbrevs s2.cur)) = none
      rw [dGet_dDel (dDel_nodup hnd), dGet_dDel hnd]
      split
      · rfl
      · split
        · rfl
        · rename_i k1 k2
          rw [e1.upd.other _ hk]
          show dGet key (dSet Key.startidcs Val.mark (dSet Key.abbrevs (Val.names []) [(Key.up, Val.mark)])) = none
          rw [dGet_dSet_ne (by tauto), dGet_dSet_ne (by tauto)]
          simp [dGet, hup.symm]) e1.look e1.ign e1.lv e1.clv hs3 hcs3
    refine ⟨f1, fun _ => ?_, by simp [headed], by simp [endsSend]⟩
    show cs'.ls = c.lines.drop s'.ofs
    rw [f2, f3]
    exact e2 (.inl rfl)
  | loop v a b body ih =>
    simp only [genProg, Option.bind_eq_bind, Option.bind_eq_some_iff, Option.pure_def, Option.some.injEq, Prod.mk.injEq] at hg
    obtain ⟨ds1, hd1, ⟨x, ds2⟩, hx, rfl, rfl⟩ := hg
    simp only [codeOk, Bool.and_eq_true] at hok
    simp only [topOk] at htop
    simp only [readProg] at hpy
    have hstop : s.stopped = false := by unfold RSt.stopped; rw [h.look]; rfl
    rw [hstop] at hpy
    simp only [Bool.false_eq_true, if_false] at hpy
    obtain ⟨⟨x0, y0⟩, hhd, hpy⟩ := lift_ok hpy
    dsimp only at hpy
    obtain ⟨t1, ht1, hpy⟩ := andThen_ok hpy
    simp only [Out.ok.injEq] at hpy
    simp only [runCode, cbind_ok'] at hcpp
    obtain ⟨xv, hxv, xi, hxi, hrun⟩ := hcpp
    obtain ⟨l1, rfl, hp1, hs1, hlv1, hlv2⟩ := loop_agree (pt := id) (ps := id) (Pos := fun t l => Here c t l ∧ t.ups = s.ups) (fun _ _ => rfl) (fun _ _ => rfl)
      (fun _ _ _ hp => hp) (P := Fit c k body) h ⟨hh, rfl⟩ hok.1 (.inr (hfit x0 y0 hhd).1) hhd
      (fun t cs1 t' cs2 hr hp hP hbp hbc => by
        obtain ⟨e1, e2, _⟩ := ih (fin := false) (top := top) hb hx hok.2 htop (fun hc => hp.2.trans (ht hc)) hwf hP (follows_any _ _ _) hr hp.1 hbp hbc
        exact ⟨e1, e2 (.inl rfl), e1.ups.trans hp.2⟩) (hfit x0 y0 hhd).2 ht1 hxv hxi hrun
    subst hpy
    refine ⟨⟨⟨?_, hs1.cups, ?_, ?_, ?_⟩, ?_, hlv2⟩, ?_, by simp [headed], by simp [endsSend]⟩
    · split <;> exact hs1.ups
    · split <;> exact hs1.look
    · split <;> exact hs1.ign
    · split <;> exact hs1.upd
    · have : (id s : RSt).lv = s.lv := rfl
      rw [← this, ← hlv1]; split <;> rfl
    · intro _; split <;> exact hp1.1
  | ite cond look thn els iht ihe =>
    cases look with
    | some e =>
      simp only [genProg] at hg
      split at hg
      case h_2 => cases hg
      rename_i n
      split at hg
      · cases hg
      rename_i hn0
      simp only [Option.bind_eq_bind, Option.bind_eq_some_iff] at hg
      obtain ⟨⟨steps, m, dsl⟩, hgl, hg⟩ := hg
      dsimp only at hg
      split at hg
      · cases hg
      simp only [Option.bind_eq_some_iff, Option.pure_def, Option.some.injEq, Prod.mk.injEq] at hg
      obtain ⟨⟨x, ds1⟩, hx, ⟨y, ds2⟩, hy, rfl, rfl⟩ := hg
      simp only [codeOk, Bool.and_eq_true] at hok
      simp only [topOk, Bool.and_eq_true] at htop
      simp only [readProg] at hpy
      have hstop : s.stopped = false := by unfold RSt.stopped; rw [h.look]; rfl
      rw [hstop] at hpy
      simp only [Bool.false_eq_true, if_false] at hpy
      obtain ⟨n', hn', hpy1⟩ := lift_ok hpy
      clear hpy
      have hnn : n' = n := lookCount_lit hn'
      subst hnn
      obtain ⟨s1, hs1, hun, hkn, hsame, hf1, hf2⟩ := hfit n' hn'
      rw [hs1] at hpy1
      dsimp only at hpy1
      obtain ⟨t, hcond, hpy⟩ := lift_ok hpy1
      simp only [runCode, cbind_ok'] at hcpp
      obtain ⟨cs1, hcs1, t', hcond', hcpp⟩ := hcpp
      have hto : ((n'.toNat : Nat) : Int) = n' := Int.toNat_of_nonneg (by omega)
      have := cond_look hb h hh hgl hwf.1 (by rw [hto]; exact hs1) hcs1 hok.1.2 hok.1.1 hkn hsame hun hcond hcond'
      subst this
      have hrel : Rel Γ M k L D U s { cs with line := cs1.line } := ⟨h.lv, h.lvok, h.pos, h.look, h.ign, h.lvls, h.defs, h.outer⟩
      have hback : ∀ {s' cs'}, Step Γ k s s' { cs with line := cs1.line } cs' → Step Γ k s s' cs cs' :=
        fun e => ⟨⟨e.ups, e.cups, e.look, e.ign, e.upd⟩, e.lv, e.clv⟩
      cases t with
      | true =>
        simp only [if_true] at hpy hcpp
        obtain ⟨w', hwt⟩ : ∃ w', codeOk Γ M depth fin L D U x w' = true ∧ Follows c thn w' s := by
          have hok2 := hok.2
          cases w with
          | thn z => exact ⟨z, hok2, hw.2⟩
          | els z => exact absurd hcond (hw.1 n' s1 hn' hs1)
          | any => simp only [Bool.and_eq_true] at hok2; exact ⟨.any, hok2.1, follows_any _ _ _⟩
          | seq z z' => simp only [Bool.and_eq_true] at hok2; exact ⟨.any, hok2.1, follows_any _ _ _⟩
        obtain ⟨e1, e2, e3, e4⟩ := iht hb hx hwt.1 htop.1 ht hwf.1 (hf1 hcond) hwt.2 hrel hh hpy hcpp
        exact ⟨hback e1, fun hf => e2 (hf.imp_right fun hf => by simp only [endsPlain, Bool.and_eq_true] at hf; exact hf.1),
          fun hhd => e3 (by simp only [headed, Bool.and_eq_true] at hhd; exact hhd.1), fun hf => e4 (by simp only [endsSend, Bool.and_eq_true] at hf; exact hf.1)⟩
      | false =>
        simp only [Bool.false_eq_true, if_false] at hpy hcpp
        obtain ⟨w', hwt⟩ : ∃ w', codeOk Γ M depth fin L D U y w' = true ∧ Follows c els w' s := by
          have hok2 := hok.2
          cases w with
          | els z => exact ⟨z, hok2, hw.2⟩
          | thn z => exact absurd hcond (hw.1 n' s1 hn' hs1)
          | any => simp only [Bool.and_eq_true] at hok2; exact ⟨.any, hok2.2, follows_any _ _ _⟩
          | seq z z' => simp only [Bool.and_eq_true] at hok2; exact ⟨.any, hok2.2, follows_any _ _ _⟩
        obtain ⟨e1, e2, e3, e4⟩ := ihe hb hy hwt.1 htop.2 ht hwf.2 (hf2 hcond) hwt.2 hrel hh hpy hcpp
        exact ⟨hback e1, fun hf => e2 (hf.imp_right fun hf => by simp only [endsPlain, Bool.and_eq_true] at hf; exact hf.2),
          fun hhd => e3 (by simp only [headed, Bool.and_eq_true] at hhd; exact hhd.2), fun hf => e4 (by simp only [endsSend, Bool.and_eq_true] at hf; exact hf.2)⟩
    | none =>
    simp only [genProg] at hg
    split at hg
    · cases hg
    simp only [Option.bind_eq_bind, Option.bind_eq_some_iff, Option.pure_def, Option.some.injEq, Prod.mk.injEq] at hg
    obtain ⟨⟨x, ds1⟩, hx, ⟨y, ds2⟩, hy, rfl, rfl⟩ := hg
    simp only [codeOk, Bool.and_eq_true] at hok
    simp only [topOk, Bool.and_eq_true] at htop
    simp only [readProg] at hpy
    have hstop : s.stopped = false := by unfold RSt.stopped; rw [h.look]; rfl
    rw [hstop] at hpy
    simp only [Bool.false_eq_true, if_false] at hpy
    obtain ⟨t, hcond, hpy⟩ := lift_ok hpy
    simp only [runCode, cbind_ok'] at hcpp
    obtain ⟨t', hcond', hcpp⟩ := hcpp
    obtain ⟨hkn, hfit⟩ := hfit
    have := cond_here h hok.1 hkn hcond hcond'
    subst this
    cases t with
    | true =>
      simp only [if_true] at hpy hcpp
      obtain ⟨w', hwt⟩ : ∃ w', codeOk Γ M depth fin L D U x w' = true ∧ Follows c thn w' s := by
        have hok2 := hok.2
        cases w with
        | thn z => exact ⟨z, hok2, hw.2⟩
        | els z => exact absurd hcond hw.1
        | any => simp only [Bool.and_eq_true] at hok2; exact ⟨.any, hok2.1, follows_any _ _ _⟩
        | seq z z' => simp only [Bool.and_eq_true] at hok2; exact ⟨.any, hok2.1, follows_any _ _ _⟩
      obtain ⟨e1, e2, e3, e4⟩ := iht hb hx hwt.1 htop.1 ht hwf.1 (hfit.1 hcond) hwt.2 h hh hpy hcpp
      exact ⟨e1, fun hf => e2 (hf.imp_right fun hf => by simp only [endsPlain, Bool.and_eq_true] at hf; exact hf.1),
          fun hhd => e3 (by simp only [headed, Bool.and_eq_true] at hhd; exact hhd.1), fun hf => e4 (by simp only [endsSend, Bool.and_eq_true] at hf; exact hf.1)⟩
    | false =>
      simp only [Bool.false_eq_true, if_false] at hpy hcpp
      obtain ⟨w', hwt⟩ : ∃ w', codeOk Γ M depth fin L D U y w' = true ∧ Follows c els w' s := by
        have hok2 := hok.2
        cases w with
        | els z => exact ⟨z, hok2, hw.2⟩
        | thn z => exact absurd hcond hw.1
        | any => simp only [Bool.and_eq_true] at hok2; exact ⟨.any, hok2.2, follows_any _ _ _⟩
        | seq z z' => simp only [Bool.and_eq_true] at hok2; exact ⟨.any, hok2.2, follows_any _ _ _⟩
      obtain ⟨e1, e2, e3, e4⟩ := ihe hb hy hwt.1 htop.2 ht hwf.2 (hfit.2 hcond) hwt.2 h hh hpy hcpp
      exact ⟨e1, fun hf => e2 (hf.imp_right fun hf => by simp only [endsPlain, Bool.and_eq_true] at hf; exact hf.2),
          fun hhd => e3 (by simp only [headed, Bool.and_eq_true] at hhd; exact hhd.2), fun hf => e4 (by simp only [endsSend, Bool.and_eq_true] at hf; exact hf.2)⟩
  | abbr n e => simp [genProg] at hg

end Verif.CF
