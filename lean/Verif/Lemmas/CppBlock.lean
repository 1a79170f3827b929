import Verif.Lemmas.CppRun

/-! Sections, tables and lists in both parsers. -/

namespace Verif.CF
open Verif Spec

theorem nameOk_spec {Γ : Kinds} {r : VarRef} (h : nameOk Γ r = true) : Γ r.name = none ∧ r.name ∉ ctlNames := by
  simpa [nameOk] using h

theorem ctlFree_spec {Γ : Kinds} (h : ctlFree Γ = true) : ∀ n ∈ ctlNames, Γ n = none := by
  simpa only [ctlFree, List.all_eq_true, Option.isNone_iff_eq_none] using h

theorem Both.other {Γ Γ' : Kinds} {c : RCtx} {cc : FunCtx} (h : Both Γ c cc) (hΓ : ctlFree Γ' = true) : Both Γ' c cc :=
  ⟨h.width, h.pres, h.acc, h.strict, h.plain, h.blank, ctlFree_spec hΓ⟩

/-- entering a section -/
theorem open_rel {Γ M : Kinds} {k : Ctrl} {L : List Name} {D : List VKey} {U : List (List VKey)} {s s1 : RSt} {cs cs1 : FunSt}
    (h : Rel Γ M k L D U s cs) {r : VarRef} {defs : List VKey} (hn : nameOk Γ r = true) (hnew : NewSub s r)
    (ho : openR s r = .ok s1) (hoc : openC cs r defs = .ok cs1) (Γ' : Kinds) :
    ∃ is, s1 = { s with cur := [(.up, .mark)], ups := (s.cur, r.name, is) :: s.ups } ∧
      cs1 = { cs with cur := ⟨defs, [], []⟩, ups := (cs.cur, r.name, is) :: cs.ups } ∧ Rel Γ' (meet M Γ') k L defs (D :: U) s1 cs1 := by
  obtain ⟨h1, h2⟩ := nameOk_spec hn
  obtain ⟨is, rfl, rfl, hl⟩ := open_agree h.lv h.lvls (subK_meet M Γ').2 (subK_meet M Γ').1 h1 h2 hnew ho hoc
  refine ⟨is, rfl, rfl, h.lv, h.lvok, h.pos, h.look, h.ign, hl, rfl, ?_⟩
  simp only [List.map_cons, h.defs]
  rw [← h.outer]

/-- leaving a section -/
theorem close_step {Γ Γ' : Kinds} {c : RCtx} {cc : FunCtx} (hb : Both Γ' c cc) {k : Ctrl} {s s2 s3 : RSt} {cs cs2 cs3 : FunSt} {r : VarRef} {is : List Int}
    (hn : nameOk Γ r = true) (hblk : Blk Γ (topOf k s.ups) s.cur cs.cur)
    (hu : s2.ups = (s.cur, r.name, is) :: s.ups) (hcu : cs2.ups = (cs.cur, r.name, is) :: cs.ups) (hl : Blk Γ' none s2.cur cs2.cur)
    (hkeys : ∀ key, (∀ n, key ≠ .var n) → key ≠ .up → dGet key s2.cur = none)
    (hlook : s2.look = s.look) (hign : s2.ignoreAll = s.ignoreAll) (hlv : s2.lv = s.lv) (hclv : cs2.lv = cs.lv)
    (hc : closeR s2 = .ok s3) (hcc : closeC cs2 = .ok cs3) :
    Step Γ k s s3 cs cs3 ∧ s3.ofs = s2.ofs ∧ cs3.ls = cs2.ls := by
  obtain ⟨h1, h2⟩ := nameOk_spec hn
  obtain ⟨new, new', rfl, rfl, h3⟩ := close_agree hb.ctl hu hcu h1 h2 hblk hl hkeys hc hcc
  refine ⟨⟨⟨rfl, rfl, hlook, hign, h3, ?_, rfl, ?_, ?_⟩, hlv, hclv⟩, rfl, rfl⟩
  · intro m kk ar hm _ js w _ hw
    have hne : m ≠ r.name := by rintro rfl; rw [h1] at hm; cases hm
    unfold look at hw ⊢
    rw [dGet_dSet_ne (by simpa using hne.symm)]; exact hw
  · intro key hkey
    rw [dGet_dSet_ne (Ne.symm (hkey r.name))]
  · intro m hm hw
    have hne : m ≠ r.name := by rintro rfl; exact h2 hm
    rw [dGet_dSet_ne (by simpa using hne.symm)]; exact hw

/-- a part of a record of the interpreter that is in a section of its own if a name is given -/
def NamedRun (name : Option VarRef) (s s' : RSt) (f : RSt → RSt → Prop) : Prop :=
  match name with
  | none => f s s'
  | some r => ∃ s1 s2, openR s r = .ok s1 ∧ f s1 s2 ∧ closeR s2 = .ok s'

theorem inTable_run {name : Option VarRef} {s s' : RSt} {f : RSt → Out RSt} (h : inTable name s f = .ok s') :
    NamedRun name s s' fun a b => f a = .ok b := by
  unfold inTable at h
  cases name with
  | none => exact h
  | some r =>
    obtain ⟨s1, h1, h⟩ := lift_ok h
    obtain ⟨s2, h2, h⟩ := andThen_ok h
    obtain ⟨s3, h3, h⟩ := lift_ok h
    cases h
    exact ⟨s1, s2, h1, h2, h3⟩

theorem namedBody_run {c : RCtx} {vals : List PyNum} {body : LBody} {name : Option VarRef} {s : RSt} {l : LSt}
    (h : readNamedBody c vals body name s = .ok l) :
    NamedRun name s l.st fun a b => ∃ l', readBody c vals body ⟨0, a⟩ = .ok l' ∧ l'.st = b ∧ l'.pos = l.pos := by
  unfold readNamedBody at h
  cases name with
  | none => exact ⟨l, h, rfl, rfl⟩
  | some r =>
    obtain ⟨s1, h1, h⟩ := lift_ok h
    obtain ⟨l2, h2, h⟩ := andThen_ok h
    obtain ⟨s3, h3, h⟩ := lift_ok h
    cases h
    exact ⟨s1, l2.st, h1, ⟨l2, h2, rfl, rfl⟩, h3⟩

theorem named_step {α : Type} {Γ M : Kinds} {c : RCtx} {cc : FunCtx} (hb : Both Γ c cc) {k : Ctrl} {L : List Name} {D : List VKey} {U : List (List VKey)}
    {s s' : RSt} {cs cs' : FunSt} (h : Rel Γ M k L D U s cs) {name : Option VarRef} {ds ds' : VDicts} {f : VDicts → Option (α × VDicts)}
    {x : α} {nm : CName} (hg : genNamed name ds f = some (x, nm, ds')) {F : Kinds → Kinds → List VKey → List (List VKey) → Bool}
    {loops : List Name} {ks : List (Name × CKind × Nat)} (hok : blockOk Γ M D U nm loops ks F = true) (hnew : NewName s name) {fP : RSt → RSt → Prop} {fC : FunSt → CRes FunSt} {Q : Nat → List Str → Prop}
    (hbody : ∀ Γ' M' D' U' dsa dsb s1 cs1 s2 cs2, Both Γ' c cc → Rel Γ' M' k L D' U' s1 cs1 → F Γ' M' D' U' = true → f dsa = some (x, dsb) →
      s1.ofs = s.ofs → cs1.ls = cs.ls → cs1.line = cs.line → fP s1 s2 → fC cs1 = .ok cs2 →
      Step Γ' k s1 s2 cs1 cs2 ∧ Q s2.ofs cs2.ls)
    (hpy : NamedRun name s s' fP) (hcpp : inBlock nm cs fC = .ok cs') : Step Γ k s s' cs cs' ∧ Q s'.ofs cs'.ls := by
  cases name with
  | none =>
    simp only [genNamed, Option.bind_eq_bind, Option.bind_eq_some_iff, Option.pure_def, Option.some.injEq, Prod.mk.injEq] at hg
    obtain ⟨⟨x', ds1⟩, hx, rfl, rfl, rfl⟩ := hg
    exact hbody Γ M D U ds _ s cs s' cs' hb h hok hx rfl rfl rfl hpy hcpp
  | some r =>
    simp only [genNamed] at hg
    split at hg
    · cases hg
    · simp only [Option.bind_eq_bind, Option.bind_eq_some_iff, Option.pure_def, Option.some.injEq, Prod.mk.injEq] at hg
      obtain ⟨⟨x', ds1⟩, hx, rfl, rfl, rfl⟩ := hg
      obtain ⟨s1, s2, h1, h2, h3⟩ := hpy
      simp only [inBlock, cbind_ok'] at hcpp
      obtain ⟨cs1, c1, cs2, c2, c3⟩ := hcpp
      simp only [blockOk, Bool.and_eq_true] at hok
      have hb' := hb.other hok.1.2
      obtain ⟨is, rfl, rfl, hrel⟩ := open_rel h hok.1.1 hnew h1 c1 (over Γ loops ks)
      obtain ⟨e1, e2⟩ := hbody _ _ _ _ _ _ _ _ _ _ hb' hrel hok.2 hx rfl rfl rfl h2 c2
      have hrel2 := hrel.step e1
      obtain ⟨f1, f2, f3⟩ := close_step hb' (s := s) (cs := cs) hok.1.1 h.blk e1.ups e1.cups (by
        have := hrel2.blk
        rw [e1.ups] at this
        exact this) (by
        intro key hk hup
        rw [e1.upd.other key hk]
        simp [dGet, hup.symm]) e1.look e1.ign e1.lv e1.clv h3 c3
      exact ⟨f1, by rw [f2, f3]; exact e2⟩

/-! ### tables -/

theorem mem_evens_odds {α : Type} : ∀ (l : List α) (x : α), (x ∈ evens l → x ∈ l) ∧ (x ∈ odds l → x ∈ l)
  | [], x => by simp [evens, odds]
  | [a], x => by simp [evens, odds]
  | a :: b :: l, x => by
    obtain ⟨h1, h2⟩ := mem_evens_odds l x
    simp only [evens, odds, List.mem_cons]
    tauto

theorem numsC_val {l : List Num} (h : ∀ x ∈ l, x = .flt x.val) : numsC (l.map Num.val) = numsVal l := by
  unfold numsC numsVal
  rw [List.map_map]
  congr 1
  refine List.map_congr_left fun x hx => ?_
  conv_rhs => rw [h x hx]
  rfl

theorem numbers_flt {o : ROpts} (hp : o.preserve = false) {lines : List Str} {num ofs : Nat} {vals : List Num} {ofs' : Nat}
    (h : readNumbers o lines num ofs = .ok (vals, ofs')) : ∀ x ∈ vals, x = .flt x.val := by
  intro x hx
  obtain ⟨j, hj⟩ := List.mem_iff_getElem?.1 hx
  obtain ⟨l, _, h2⟩ := (readNumbers_get h).2.2 j x hj
  exact readFloat_flt hp h2

theorem kind_nums {l : List Num} (h : ∀ x ∈ l, x = .flt x.val) : KindVal .fvec (numsVal l) :=
  ⟨l.map Num.val, by rw [← numsC_val h]; rfl⟩

theorem kind_ints (l : List Int) : KindVal .ivec (intsVal l) := ⟨l, rfl⟩

/-- the columns of a table -/
theorem cols_step {Γ M : Kinds} {c : RCtx} {cc : FunCtx} (hb : Both Γ c cc) {k : Ctrl} {L : List Name} {D : List VKey} {U : List (List VKey)}
    {s s' : RSt} {cs cs' : FunSt} (h : Rel Γ M k L D U s cs) {depth : Nat} {gs : List (Nat × CKind × VarRef)} {ds ds' : VDicts} {ps : List Piece}
    {es : List Expr} {vals cols : List Val} (hg : genCols depth gs ds = some (ps, ds')) (hp : ps.all (pieceOk Γ depth L D) = true)
    (h1 : ∀ f ∈ es.zip vals, ∃ i kk r, (i, kk, r) ∈ gs ∧ f.1 = .var r ∧ KindVal kk f.2)
    (h2 : ∀ i kk r, (i, kk, r) ∈ gs → ∀ src, cols[i]? = some src → KindVal kk src ∧ (Expr.var r, src) ∈ es.zip vals)
    (hpy : mapFields c es vals s = .ok s') (hcpp : runPieces cc (colField cols) ps cs = .ok cs') :
    Step Γ k s s' cs cs' ∧ s'.ofs = s.ofs ∧ cs'.ls = cs.ls := by
  obtain ⟨g1, g2⟩ := genCols_spec hg
  obtain ⟨a1, a2, a3, _⟩ := mapFields_step hb h (fun p hp => (g1 p hp).1) hp (by
    intro f hf
    obtain ⟨i, kk, r, hm, he, hk⟩ := h1 f hf
    obtain ⟨p, hp, _, q2, q3⟩ := g2 i kk r hm
    exact ⟨p, hp, q3.trans he.symm, by rw [q2]; exact hk⟩) (by
    intro p hp src hs
    obtain ⟨_, r, he, hm⟩ := g1 p hp
    unfold colField at hs
    split at hs
    · rename_i v hv
      cases hs
      rw [he]
      exact h2 _ _ _ hm _ hv
    · cases hs) hpy hcpp
  exact ⟨a1, a2, a3⟩

theorem two_mul_toNat (n : Int) : (2 * n).toNat = 2 * n.toNat := by omega

theorem tab1_step {Γ M : Kinds} {c : RCtx} {cc : FunCtx} (hb : Both Γ c cc) {k : Ctrl} {L : List Name} {D : List VKey} {U : List (List VKey)}
    {s s' : RSt} {cs cs' : FunSt} (h : Rel Γ M k L D U s cs) (hh : Here c s cs) {depth : Nat} {fin : Bool} {ds ds' : VDicts} {cd : Code} {w : Way} {k0 : CSpec} {fs : List Expr}
    {x y : VarRef} {name : Option VarRef}
    (hg : genAct depth (.tab1 k0 fs x y name) ds = some (cd, ds')) (hok : codeOk Γ M depth fin L D U cd w = true)
    (hwf : ActWF (.tab1 k0 fs x y name)) (hfit : FitAct c k (.tab1 k0 fs x y name) s) (hpy : readAct c (.tab1 k0 fs x y name) s = .ok s')
    (hcpp : runCode cc cd cs = .ok cs') : Step Γ k s s' cs cs' ∧ Here c s' cs' := by
  simp only [genAct, Option.bind_eq_bind, Option.bind_eq_some_iff, Option.pure_def, Option.some.injEq, Prod.mk.injEq] at hg
  obtain ⟨⟨ps, ds1⟩, hx, ⟨cols, nm, ds2⟩, hn, rfl, rfl⟩ := hg
  simp only [codeOk, Bool.and_eq_true] at hok
  simp only [readAct] at hpy
  obtain ⟨r, ofs', h1, h2, h3, hp1⟩ := takeRec_ok hb hpy
  clear hpy
  obtain ⟨q1, q2, q3, q4⟩ := hfit r _ h3
  replace q3 := q3 _ h1
  obtain ⟨_, _, hp2⟩ := lift_ok hp1
  clear hp1
  obtain ⟨s2, hs2, hp3⟩ := andThen_ok hp2
  clear hp2
  replace q4 := q4 s2 hs2
  unfold readTab1 at h2
  simp only [bind_ok, pure_ok, Prod.exists, Prod.mk.injEq] at h2
  obtain ⟨hd, ofs1, hd1, v1, ofs2, hv1, v2, ofs3, hv2, rfl, rfl⟩ := h2
  obtain ⟨rfl, l, hdrop, hpl, hctrl, hlen, hkv, hfld, hn1, hn2⟩ := cont_agree hb.width hb.pres hb.plain hd1
  rw [two_mul_toNat] at hv1 hv2
  dsimp only at q1 q2 q3 hs2 hp3
  simp only [runCode, cbind_ok'] at hcpp
  obtain ⟨cs1, hcs1, cs2, hcs2, hcpp⟩ := hcpp
  have := prepLine_ok hcs1
  rw [hh, hdrop] at this
  dsimp only [nextLine] at this
  subst this
  have hr := h.line ofs3 (s.spans ++ [(s.ofs, ofs3)]) l (c.lines.drop (s.ofs + 1))
  have hrel := h.step hr
  have hwf : fs.length = 6 := hwf
  obtain ⟨e1, e2, e3, e4⟩ := record_step hb hrel hx hok.1 (es := fs.take 4) (vals := hd.vals.take 4) (by
    intro f hf
    obtain ⟨i, hi1, hi2⟩ := mem_zip_get.1 hf
    rw [List.getElem?_take] at hi1 hi2
    split at hi1
    · rename_i hi
      rw [if_pos hi] at hi2
      exact ⟨i, by simp; omega, hi1, hkv i _ hi2⟩
    · cases hi1) (by
    intro i e src hns he hs
    have hi : i < 6 := by rw [← hwf]; exact (List.getElem?_eq_some_iff.1 he).1
    have h4 : i < 4 := by simp at hns; omega
    have := hfld i hi cc hb.acc src hs
    refine ⟨hkv i _ this, mem_zip_get.2 ⟨i, ?_, ?_⟩⟩
    · rw [List.getElem?_take, if_pos h4]; exact he
    · rw [List.getElem?_take, if_pos h4]; exact this) hs2 hcs2
  have hrel2 := hrel.step e1
  have hpro : s2.proceed = some s2 := by unfold RSt.proceed; rw [hrel2.look]
  rw [hpro] at hp3
  dsimp only at hp3
  obtain ⟨s4, hs4, hp4⟩ := andThen_ok hp3
  clear hp3
  simp only [logRec, Out.ok.injEq] at hp4
  have hflt := numbers_flt hb.pres hv2
  have hev : ∀ x ∈ evens v2, x = .flt x.val := fun x hx => hflt x ((mem_evens_odds _ _).1 hx)
  have hod : ∀ x ∈ odds v2, x = .flt x.val := fun x hx => hflt x ((mem_evens_odds _ _).2 hx)
  have hofs2 := (readNumbers_get hv1).2.1
  have htab := C78_tab1_partial c.ro hb.width false cc.ctrl c.lines (slotVal hd.n1).toNat (slotVal hd.n2).toNat (s.ofs + 1) ofs2 ofs3 v1 v2
    (by omega) (by omega) (fun kk l' _ _ hl' => ⟨hb.plain _ (List.mem_of_getElem? hl'), by intro hc; cases hc⟩)
    (fun kk l' k1 k2 hl' => q3 kk l' k1 (by rw [hofs2] at k2; exact k2) hl') hv1 hv2
  obtain ⟨f1, f2⟩ := named_step hb hrel2 hn hok.2 q4 (Q := fun o ls => o = ofs3 ∧ ls = c.lines.drop ofs3) (by
    intro Γ' M' D' U' dsa dsb t1 ct1 t2 ct2 hb' hrl hF hgc ho1 hl1 hl2 hP hC
    simp only [cbind_ok'] at hC
    obtain ⟨nr, hnr, np, hnp, ⟨t, lsx⟩, ht, hC⟩ := hC
    rw [hl2, e4] at hnr hnp
    dsimp only at hnr hnp
    have := hn1 _ hnr
    subst this
    have := hn2 _ hnp
    subst this
    replace ht := readTab1_false ht
    rw [hl1, e3, hb.acc] at ht
    rw [htab] at ht
    simp only [CRes.ok.injEq, Prod.mk.injEq] at ht
    obtain ⟨rfl, rfl⟩ := ht
    have hrl' : Step Γ' k t1 t1 ct1 { ct1 with ls := c.lines.drop ofs3 } := ⟨⟨rfl, rfl, rfl, rfl, Upd.refl hrl.blk⟩, rfl, rfl⟩
    obtain ⟨g1, g2, g3⟩ := cols_step hb' (hrl.step hrl') hgc hF (by
      intro f hf
      simp only [nbtInt, List.cons_append, List.nil_append, List.zip_cons_cons, List.zip_nil_right, List.mem_cons, List.not_mem_nil, or_false] at hf
      rcases hf with rfl | rfl | rfl | rfl
      · exact ⟨3, .ivec, ⟨"NBT", []⟩, by simp, rfl, kind_ints _⟩
      · exact ⟨2, .ivec, ⟨"INT", []⟩, by simp, rfl, kind_ints _⟩
      · exact ⟨0, .fvec, x, by simp, rfl, kind_nums hev⟩
      · exact ⟨1, .fvec, y, by simp, rfl, kind_nums hod⟩) (by
      intro i kk rr hm src hs
      simp only [List.mem_cons, List.not_mem_nil, or_false, Prod.mk.injEq] at hm
      dsimp only at hs
      rcases hm with ⟨rfl, rfl, rfl⟩ | ⟨rfl, rfl, rfl⟩ | ⟨rfl, rfl, rfl⟩ | ⟨rfl, rfl, rfl⟩ <;>
        simp only [List.getElem?_cons_zero, List.getElem?_cons_succ, Option.some.injEq] at hs <;> subst hs
      · rw [numsC_val hev]; exact ⟨kind_nums hev, by simp [nbtInt]⟩
      · rw [numsC_val hod]; exact ⟨kind_nums hod, by simp [nbtInt]⟩
      · exact ⟨kind_ints _, by simp [nbtInt]⟩
      · exact ⟨kind_ints _, by simp [nbtInt]⟩) hP hC
    exact ⟨hrl'.trans g1, by rw [g2, ho1, e2], g3⟩) (inTable_run hs4) hcpp
  subst hp4
  refine ⟨((hr.trans e1).trans f1).log _, ?_⟩
  show cs'.ls = c.lines.drop s4.ofs
  rw [f2.1, f2.2]

theorem tab2_step {Γ M : Kinds} {c : RCtx} {cc : FunCtx} (hb : Both Γ c cc) {k : Ctrl} {L : List Name} {D : List VKey} {U : List (List VKey)}
    {s s' : RSt} {cs cs' : FunSt} (h : Rel Γ M k L D U s cs) (hh : Here c s cs) {depth : Nat} {fin : Bool} {ds ds' : VDicts} {cd : Code} {w : Way} {k0 : CSpec} {fs : List Expr}
    {name : Option VarRef}
    (hg : genAct depth (.tab2 k0 fs name) ds = some (cd, ds')) (hok : codeOk Γ M depth fin L D U cd w = true)
    (hwf : ActWF (.tab2 k0 fs name)) (hfit : FitAct c k (.tab2 k0 fs name) s) (hpy : readAct c (.tab2 k0 fs name) s = .ok s')
    (hcpp : runCode cc cd cs = .ok cs') : Step Γ k s s' cs cs' ∧ Here c s' cs' := by
  simp only [genAct, Option.bind_eq_bind, Option.bind_eq_some_iff, Option.pure_def, Option.some.injEq, Prod.mk.injEq] at hg
  obtain ⟨⟨ps, ds1⟩, hx, ⟨cols, nm, ds2⟩, hn, rfl, rfl⟩ := hg
  simp only [codeOk, Bool.and_eq_true] at hok
  simp only [readAct] at hpy
  obtain ⟨r, ofs', h1, h2, h3, hp1⟩ := takeRec_ok hb hpy
  clear hpy
  obtain ⟨q1, q3, q4⟩ := hfit r _ h3
  replace q3 := q3 _ h1
  obtain ⟨_, _, hp2⟩ := lift_ok hp1
  clear hp1
  obtain ⟨s2, hs2, hp3⟩ := andThen_ok hp2
  clear hp2
  replace q4 := q4 s2 hs2
  unfold readTab2 at h2
  simp only [bind_ok, pure_ok, Prod.exists, Prod.mk.injEq] at h2
  obtain ⟨hd, ofs1, hd1, v1, ofs2, hv1, rfl, rfl⟩ := h2
  obtain ⟨rfl, l, hdrop, hpl, hctrl, hlen, hkv, hfld, hn1, hn2⟩ := cont_agree hb.width hb.pres hb.plain hd1
  rw [two_mul_toNat] at hv1
  dsimp only at q1 q3 hs2 hp3
  simp only [runCode, cbind_ok'] at hcpp
  obtain ⟨cs1, hcs1, cs2, hcs2, hcpp⟩ := hcpp
  have := prepLine_ok hcs1
  rw [hh, hdrop] at this
  dsimp only [nextLine] at this
  subst this
  have hr := h.line ofs2 (s.spans ++ [(s.ofs, ofs2)]) l (c.lines.drop (s.ofs + 1))
  have hrel := h.step hr
  have hwf : fs.length = 6 := hwf
  obtain ⟨w0, w1, w2, w3, w4, w5, hvals⟩ : ∃ w0 w1 w2 w3 w4 w5, hd.vals = [w0, w1, w2, w3, w4, w5] := ⟨_, _, _, _, _, _, rfl⟩
  obtain ⟨g0, g1, g2, g3, g4, g5, hfs⟩ : ∃ g0 g1 g2 g3 g4 g5, fs = [g0, g1, g2, g3, g4, g5] := by
    match fs, hwf with
    | [g0, g1, g2, g3, g4, g5], _ => exact ⟨_, _, _, _, _, _, rfl⟩
  obtain ⟨e1, e2, e3, e4⟩ := record_step hb hrel hx hok.1 (es := fs.take 4 ++ fs.drop 5) (vals := hd.vals.take 4 ++ hd.vals.drop 5) (by
    intro f hf
    rw [hfs, hvals] at hf
    rw [hvals] at hkv
    simp only [List.take_succ_cons, List.take_zero, List.drop_succ_cons, List.drop_zero, List.cons_append, List.nil_append, List.zip_cons_cons,
      List.zip_nil_right, List.mem_cons, List.not_mem_nil, or_false] at hf
    rcases hf with rfl | rfl | rfl | rfl | rfl
    · exact ⟨0, by simp, by rw [hfs]; rfl, hkv 0 _ rfl⟩
    · exact ⟨1, by simp, by rw [hfs]; rfl, hkv 1 _ rfl⟩
    · exact ⟨2, by simp, by rw [hfs]; rfl, hkv 2 _ rfl⟩
    · exact ⟨3, by simp, by rw [hfs]; rfl, hkv 3 _ rfl⟩
    · exact ⟨5, by simp, by rw [hfs]; rfl, hkv 5 _ rfl⟩) (by
    intro i e src hns he hs
    have hi : i < 6 := by rw [← hwf]; exact (List.getElem?_eq_some_iff.1 he).1
    have h4 : i ≠ 4 := by simpa using hns
    have := hfld i hi cc hb.acc src hs
    refine ⟨hkv i _ this, ?_⟩
    rw [hvals] at this ⊢
    rw [hfs] at he ⊢
    have : i = 0 ∨ i = 1 ∨ i = 2 ∨ i = 3 ∨ i = 5 := by omega
    rcases this with rfl | rfl | rfl | rfl | rfl <;> simp_all) hs2 hcs2
  have hrel2 := hrel.step e1
  have hpro : s2.proceed = some s2 := by unfold RSt.proceed; rw [hrel2.look]
  rw [hpro] at hp3
  dsimp only at hp3
  obtain ⟨s4, hs4, hp4⟩ := andThen_ok hp3
  clear hp3
  simp only [logRec, Out.ok.injEq] at hp4
  have hofs2 := (readNumbers_get hv1).2.1
  have htab := (readVec_agree c.ro hb.width cppInt (fun v => truncRat v.val) false cc.ctrl c.lines (2 * (slotVal hd.n1).toNat)
    (by omega) (s.ofs + 1) v1 ofs2 (fun kk l' k1 k2 hl' => ⟨(by intro hc; cases hc), fun i hi z hz => by
      obtain ⟨n, hn⟩ := q3 kk l' k1 (by rw [hofs2] at k2; exact k2) hl' i hi
      exact plainLine_int hb.width (hb.plain _ (List.mem_of_getElem? hl')) hi hn hz⟩) hv1).1
  obtain ⟨f1, f2⟩ := named_step hb hrel2 hn hok.2 q4 (Q := fun o ls => o = ofs2 ∧ ls = c.lines.drop ofs2) (by
    intro Γ' M' D' U' dsa dsb t1 ct1 t2 ct2 hb' hrl hF hgc ho1 hl1 hl2 hP hC
    simp only [cbind_ok'] at hC
    obtain ⟨nr, hnr, ⟨t, lsx⟩, ht, hC⟩ := hC
    rw [hl2, e4] at hnr
    dsimp only at hnr
    have := hn1 _ hnr
    subst this
    replace ht := readTab2_false ht
    rw [hl1, e3] at ht
    unfold cppReadTab2 at ht
    rw [htab] at ht
    simp only [cbind_ok, CRes.ok.injEq, Prod.mk.injEq] at ht
    obtain ⟨rfl, rfl⟩ := ht
    have hrl' : Step Γ' k t1 t1 ct1 { ct1 with ls := c.lines.drop ofs2 } := ⟨⟨rfl, rfl, rfl, rfl, Upd.refl hrl.blk⟩, rfl, rfl⟩
    obtain ⟨g1, g2, g3⟩ := cols_step hb' (hrl.step hrl') hgc hF (by
      intro f hf
      simp only [nbtInt, List.zip_cons_cons, List.zip_nil_right, List.mem_cons, List.not_mem_nil, or_false] at hf
      rcases hf with rfl | rfl
      · exact ⟨3, .ivec, ⟨"NBT", []⟩, by simp, rfl, kind_ints _⟩
      · exact ⟨2, .ivec, ⟨"INT", []⟩, by simp, rfl, kind_ints _⟩) (by
      intro i kk rr hm src hs
      simp only [List.mem_cons, List.not_mem_nil, or_false, Prod.mk.injEq] at hm
      dsimp only at hs
      rcases hm with ⟨rfl, rfl, rfl⟩ | ⟨rfl, rfl, rfl⟩ <;>
        simp only [List.getElem?_cons_zero, List.getElem?_cons_succ, Option.some.injEq] at hs <;> subst hs
      · exact ⟨kind_ints _, by simp [nbtInt, toInts]⟩
      · exact ⟨kind_ints _, by simp [nbtInt, toInts]⟩) hP hC
    exact ⟨hrl'.trans g1, by rw [g2, ho1, e2], g3⟩) (inTable_run hs4) hcpp
  subst hp4
  refine ⟨((hr.trans e1).trans f1).log _, ?_⟩
  show cs'.ls = c.lines.drop s4.ofs
  rw [f2.1, f2.2]

end Verif.CF
