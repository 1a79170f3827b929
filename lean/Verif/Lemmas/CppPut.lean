import Verif.Lemmas.CppDict
import Verif.Lemmas.CppGen

/-! The compiled writer: fields of a record. -/

namespace Verif
open Spec

/-- what the conditions on a piece of code give -/
structure WPieceStat (depth : Nat) (D : List VKey) (p : Piece) : Prop where
  div : noDiv p.e = true
  lits : p.kind = .int → intLits p.e = true
  defs : ∀ r ∈ p.e.vars, r.key ∈ D ∧ ∀ i, Idx.num i ∈ r.idx → 0 ≤ i
  inj : ∀ r ∈ p.e.vars, ∀ r' ∈ p.e.vars, r.name = r'.name → r = r'
  cpp : ∀ r ∈ p.e.vars, r.xvar.name ≠ cppVal.name
  op : match p.op with
    | .check => True
    | .refuse _ v => v ∈ p.e.vars
    | .put _ v sol => v ∈ p.e.vars ∧
        (p.kind.isNum = true → solShape p.kind sol = true ∧ ∃ x l, p.e.toX = some x ∧ varAssign true depth x v.xvar = .ok (l, sol)) ∧
        (p.kind.isNum = false → sol = .var cppVal)

theorem wPieceOk_stat {depth : Nat} {D : List VKey} {p : Piece} (hgen : GenOf depth p) (h : wPieceOk depth D p = true) :
    WPieceStat depth D p := by
  unfold wPieceOk at h
  simp only [Bool.and_eq_true, List.all_eq_true, decide_eq_true_eq, Bool.or_eq_true, List.contains_iff_mem] at h
  obtain ⟨⟨⟨⟨⟨h0, h1⟩, h2⟩, h3⟩, h4⟩, h5⟩ := h
  have hcpp : ∀ r ∈ p.e.vars, r.xvar.name ≠ cppVal.name := by
    intro r hr hc
    exact h4 r hr (String.toList_injective hc)
  refine ⟨h0, fun hk => h1.resolve_left fun hn => hn hk, fun r hr => ⟨(h2 r hr).1, fun i hi => ?_⟩, h3, hcpp, ?_⟩
  · have := (h2 r hr).2 _ hi
    simpa [idxOk] using this
  · unfold GenOf at hgen
    cases hop : p.op with
    | check => trivial
    | refuse g v => rw [hop] at h5; simpa using h5
    | put g v sol =>
      rw [hop] at h5 hgen
      simp only [Bool.and_eq_true, List.contains_iff_mem] at h5
      obtain ⟨hv, h5⟩ := h5
      refine ⟨hv, fun hk => ?_, fun hk => ?_⟩
      · rw [if_pos hk] at h5
        simp only [Bool.and_eq_true] at h5
        refine ⟨h5.1, ?_⟩
        have h7 := h5.2
        cases hx : p.e.toX with
        | none => rw [hx] at h7; cases h7
        | some x =>
          rw [hx] at h7
          dsimp only at h7
          cases hva : varAssign true depth x v.xvar with
          | error e => rw [hva] at h7; cases h7
          | ok q =>
            obtain ⟨l, sol'⟩ := q
            let S : XVar → Prop := fun y => y = cppVal ∨ ∃ r ∈ p.e.vars, r.xvar = y
            have hS : OneIdx S := by
              intro a b ha hb hab
              rcases ha with rfl | ⟨r, hr, rfl⟩ <;> rcases hb with rfl | ⟨r', hr', rfl⟩
              · rfl
              · exact absurd hab.symm (hcpp r' hr')
              · exact absurd hab (hcpp r hr)
              · rw [h3 r hr r' hr' (String.toList_injective hab)]
            have := (C63_partial S hS depth x v.xvar (toX_good hx fun r hr => .inr ⟨r, hr, rfl⟩) (.inr ⟨v, hv, rfl⟩) (.inl rfl)
              (fun h => hcpp v hv (by rw [h])) l sol' hva).1
            unfold solFor at hgen
            rw [hx] at hgen
            dsimp only at hgen
            rw [this] at hgen
            cases hgen
            exact ⟨x, l, rfl, hva⟩
      · rw [if_neg (by simp [hk])] at h5
        unfold isCppVal at h5
        split at h5
        · rw [of_decide_eq_true h5]
        · cases h5

/-- a number in a field -/
theorem fieldR_num {ρ : VarRef → CRes Val} {k : CKind} (hk : k.isNum = true) {e : Expr} {w : Val} (h : fieldR ρ k e = .ok w) :
    ∃ z, evR ρ e = .ok z ∧ toKind k (.num z) = .ok w := by
  cases k <;> simp only [CKind.isNum, Bool.false_eq_true] at hk <;> simp only [fieldR, cbind_ok'] at h <;> exact h

theorem fieldR_other {ρ : VarRef → CRes Val} {k : CKind} (hk : k.isNum = false) {e : Expr} {w : Val} (h : fieldR ρ k e = .ok w) :
    ∃ r, (e = .var r ∨ e = .incons r) ∧ ρ r = .ok w := by
  cases k <;> simp only [CKind.isNum, Bool.true_eq_false] at hk <;> simp only [fieldR] at h <;> split at h <;>
    first | cases h | exact ⟨_, .inl rfl, h⟩ | exact ⟨_, .inr rfl, h⟩

theorem pyCast_int {u : Val} {z : PyNum} (h : pyCast .int u = .ok (.num z)) : z.isInt := by
  cases u <;> simp only [pyCast, reduceCtorEq] at h
  simp only [cbind_ok'] at h
  obtain ⟨y, hy, h⟩ := h
  cases h
  exact (castInt_ok hy).2

theorem isInt_val {z : PyNum} (h : z.isInt) : ∃ n : Int, z.val = n := by
  cases z with
  | int n => exact ⟨n, rfl⟩
  | num v => simp [PyNum.isInt] at h

/-- the variables of a field -/
theorem fieldD_num {s : FunSt} {k : CKind} (hk : k.isNum = true) {e : Expr} (hd : noDiv e = true) (hl : k = .int → intLits e = true)
    {w : Val} (h : fieldD s k e = .ok w) : ∃ z y, evR (fun r => do pyCast k (← dictVal s.cur.pd s.lv r)) e = .ok z ∧ w = .num y ∧ y.val = z.val := by
  obtain ⟨z, hz, hw⟩ := fieldR_num hk h
  obtain ⟨y, hy, hv⟩ := toKind_val hk hw fun hki => by
    subst hki
    have := evR_int hd (hl rfl) (fun r _ z hz => by
      simp only [cbind_ok'] at hz
      obtain ⟨u, _, hz⟩ := hz
      exact pyCast_int hz) hz
    exact isInt_val this
  exact ⟨z, y, hz, hy, hv⟩

theorem var_num {s : FunSt} {k : CKind} {r : VarRef} {z : PyNum} (h : (do pyCast k (← dictVal s.cur.pd s.lv r)) = .ok (Val.num z)) :
    ∃ u, dictVal s.cur.pd s.lv r = .ok (.num u) ∧ u.val = z.val ∧ (k = .int → u.isInt) := by
  simp only [cbind_ok'] at h
  obtain ⟨u, hu, h⟩ := h
  obtain ⟨x, rfl, hx⟩ := SameVal.num (pyCast_same h)
  refine ⟨x, hu, hx, fun hk => ?_⟩
  subst hk
  simp only [pyCast, cbind_ok'] at h
  obtain ⟨y, hy, h⟩ := h
  have := castInt_ok hy
  rw [← this.1]; exact this.2

/-- the solution is the value in the dictionary -/
theorem sol_dict {depth : Nat} {D : List VKey} {s : FunSt} {p : Piece} (hp : WPieceStat depth D p) (hD : s.cur.defs = D)
    (hg : ∀ b ∈ s.blocks, GoodW b) (hlv : ∀ r ∈ p.e.vars, dGet r.name s.lv = none) {src : Val} (hsrc : fieldD s p.kind p.e = .ok src)
    {g : Bool} {v : VarRef} {sol : X} (hop : p.op = .put g v sol)
    {x w : Val} (h1 : solVal s p.e src sol = .ok x) (h2 : toKind p.kind x = .ok w) :
    ∃ u, dictVal s.cur.pd s.lv v = .ok u ∧ SameVal u w := by
  obtain ⟨hdiv, hlits, hdefs, hinj, hcpp, hpo⟩ := hp
  rw [hop] at hpo
  obtain ⟨hv, hnum, hnon⟩ := hpo
  cases hkn : p.kind.isNum with
  | false =>
    rw [hnon hkn] at h1
    simp only [solVal, if_true, CRes.ok.injEq] at h1
    subst h1
    obtain ⟨r, he, hr⟩ := fieldR_other hkn hsrc
    have : v = r := by rcases he with he | he <;> rw [he] at hv <;> simpa [Expr.vars] using hv
    subst this
    simp only [cbind_ok'] at hr
    obtain ⟨u, hu, hr⟩ := hr
    refine ⟨u, hu, ?_⟩
    have hs := pyCast_same hr
    have : w = src := by
      revert h2 hkn
      cases p.kind <;> cases src <;> simp +contextual [CKind.isNum, toKind, eq_comm]
    rw [this]; exact hs
  | true =>
    obtain ⟨hshape, x0, l, hx0, hva⟩ := hnum hkn
    obtain ⟨z0, y, hz0, rfl, hy⟩ := fieldD_num hkn hdiv hlits hsrc
    obtain ⟨z, rfl, hz⟩ := solVal_num h1
    obtain ⟨q, hq, hval⟩ := evX_sol' hkn hshape hz
    have hall : ∀ r ∈ p.e.vars, ∃ u, dictVal s.cur.pd s.lv r = .ok (.num u) ∧ (p.kind = .int → u.isInt) := by
      intro r hr
      obtain ⟨z, hz⟩ := evR_reads hz0 r hr
      obtain ⟨u, hu, _, hi⟩ := var_num hz
      exact ⟨u, hu, hi⟩
    -- the values of the variables
    let ρ : XEnv := ⟨fun t => if t = cppVal then y.val else match p.e.vars.find? (fun r => r.xvar = t) with
      | some r => (match dictVal s.cur.pd s.lv r with | .ok (.num z) => z.val | _ => 0)
      | none => 0, fun _ _ => none⟩
    have hρ : ∀ r ∈ p.e.vars, ∀ u, dictVal s.cur.pd s.lv r = .ok (.num u) → ρ.val r.xvar = u.val := by
      intro r hr u hu
      have hne : r.xvar ≠ cppVal := fun h => hcpp r hr (by rw [h])
      simp only [ρ, if_neg hne]
      cases hf : p.e.vars.find? (fun r' => r'.xvar = r.xvar) with
      | none =>
        have := List.find?_eq_none.1 hf r hr
        simp at this
      | some r' =>
        have h1 := List.mem_of_find?_eq_some hf
        have h2 : r'.xvar = r.xvar := by simpa using List.find?_some hf
        have h3 : r'.name = r.name := by
          have := congrArg XVar.name h2
          simp only [VarRef.xvar] at this
          exact String.toList_injective this
        rw [hinj r' h1 r hr h3]
        simp only [hu]
    have hq' : xval ρ sol = some q := hq ρ fun t ht u hu => by
      rcases tokVal_ok hu with ⟨rfl, h⟩ | ⟨r, hr, rfl, hrr⟩
      · cases h; simp only [ρ, if_true]
      · obtain ⟨b, is, u', hb, his, hlook, hs⟩ := readRef_dict hg (hlv r hr) hrr
        have hbc : b = s.cur := by
          simp only [FunSt.blocks, blockOf] at hb
          rw [if_pos (by rw [hD]; exact (hdefs r hr).1)] at hb
          cases hb; rfl
        subst hbc
        obtain ⟨x', rfl, hx'⟩ := SameVal.num hs
        rw [hρ r hr x' (dictVal_ok.2 ⟨is, his, hlook⟩), hx']
    have hfit : xval ρ x0 = some (ρ.val cppVal) := by
      have e : ρ.val cppVal = y.val := by simp only [ρ, if_true]
      rw [e, hy]
      refine evR_xval hdiv hx0 (fun r hr z hz => ?_) hz0
      obtain ⟨u, hu, huz, _⟩ := var_num hz
      rw [hρ r hr u hu, huz]
    let S : XVar → Prop := fun t => t = cppVal ∨ ∃ r ∈ p.e.vars, t = r.xvar
    have hS : OneIdx S := by
      rintro a b (rfl | ⟨r, hr, rfl⟩) (rfl | ⟨r', hr', rfl⟩) hn
      · rfl
      · exact absurd hn.symm (hcpp r' hr')
      · exact absurd hn (hcpp r hr)
      · rw [hinj r hr r' hr' (String.toList_injective hn)]
    have huniq := (C63_partial S hS depth x0 v.xvar (toX_good hx0 fun r hr => .inr ⟨r, hr, rfl⟩) (.inr ⟨v, hv, rfl⟩) (.inl rfl)
      (fun h => hcpp v hv (by rw [h])) l sol hva).2.2.2.2
    have hvq := huniq ρ q hq' hfit
    obtain ⟨u, hu, hui⟩ := hall v hv
    rw [hρ v hv u hu] at hvq
    obtain ⟨y', rfl, hy'⟩ := hval (fun hk => by
      obtain ⟨n, hn⟩ := isInt_val (hui hk)
      exact ⟨n, by rw [← hvq, hn]⟩) w h2
    exact ⟨.num u, hu, by simp only [SameVal]; rw [hy', hvq]⟩

/-- assignment of the value in the dictionary -/
theorem assign_dict {s s' : FunSt} {v : VarRef} {u w : Val} (hlv : ∀ n i, dGet n s.lv = some i → 0 ≤ i)
    (hidx : ∀ i, Idx.num i ∈ v.idx → 0 ≤ i) (hg : GoodW s.cur) (hu : dictVal s.cur.pd s.lv v = .ok u) (hs : SameVal u w)
    (h : assign s v w = .ok s') : (∃ b, s' = { s with cur := b }) ∧ GoodW s'.cur ∧ GrowW s.cur s'.cur ∧ HasB s'.cur s.lv v := by
  unfold assign at h
  simp only [cbind_ok'] at h
  obtain ⟨is, his, t, ht, h⟩ := h
  cases h
  rw [cIdxs_ok] at his
  have hlen := idxs_length his
  have hgood : ∀ x, dGet v.key s.cur.vars = some x → GoodT is.length x := by
    intro x hx
    rw [hlen]; exact hg.tree _ _ hx
  obtain ⟨g1, g2⟩ := vput_good (idx_nonneg hlv hidx his) hgood ht
  have hlw : look s.cur.pd v.name is = some u := by
    obtain ⟨is', his', hl⟩ := dictVal_ok.1 hu
    rw [his] at his'; cases his'; exact hl
  have hfind : ∀ js : List Int, js.length = v.idx.length →
      clook { s.cur with vars := dSet v.key t s.cur.vars } v.name v.idx.length js
        = if js = is then some w else clook s.cur v.name v.idx.length js := by
    intro js hjs
    unfold clook
    have e : ((v.name, v.idx.length) : VKey) = v.key := rfl
    rw [e, dGet_dSet_self]
    exact find_setArr g2 (by omega)
  have hother : ∀ (key : VKey), key ≠ v.key → dGet key (dSet v.key t s.cur.vars) = dGet key s.cur.vars :=
    fun key hne => dGet_dSet_ne (Ne.symm hne) _ _
  refine ⟨⟨_, rfl⟩, ⟨?_, ?_⟩, ⟨rfl, rfl, ?_⟩, ⟨is, w, his, ?_⟩⟩
  · intro key x hx
    dsimp only at hx
    by_cases e : key = v.key
    · subst e
      rw [dGet_dSet_self] at hx; cases hx
      show GoodT v.idx.length t
      rw [← hlen]; exact g1
    · rw [hother key e] at hx
      exact hg.tree key x hx
  · intro n ar js y hjs hy
    by_cases e : (n, ar) = v.key
    · cases e
      rw [hfind js hjs] at hy
      split at hy
      · rename_i e; cases hy; rw [e]; exact ⟨u, hlw, hs⟩
      · exact hg.sound _ _ js y hjs hy
    · unfold clook at hy
      dsimp only at hy
      rw [hother _ e] at hy
      exact hg.sound n ar js y hjs hy
  · intro n ar js y hjs hy
    by_cases e : (n, ar) = v.key
    · cases e
      rw [hfind js hjs]
      split
      · exact ⟨_, rfl⟩
      · exact ⟨y, hy⟩
    · refine ⟨y, ?_⟩
      unfold clook
      dsimp only
      rw [hother _ e]
      exact hy
  · rw [hfind is hlen, if_pos rfl]

/-- a variable of the current block that has been read -/
theorem didRead_has {s : FunSt} {v : VarRef} (hg : ∀ b ∈ s.blocks, GoodW b) (hl : dGet v.name s.lv = none) (hd : v.key ∈ s.cur.defs)
    (h : didRead s v = .ok true) : HasB s.cur s.lv v := by
  unfold didRead at h
  rw [hl] at h
  simp only [FunSt.blocks, blockOf, if_pos hd, cbind_ok'] at h
  obtain ⟨is, his, h⟩ := h
  rw [cIdxs_ok] at his
  split at h
  · rename_i t ht
    simp only [CRes.ok.injEq] at h
    have hgt := (hg s.cur (by simp [FunSt.blocks])).tree _ _ ht
    have hlen := idxs_length his
    obtain ⟨w, hw⟩ := (vhas_toPy (by rw [hlen]; exact hgt)).1 h
    refine ⟨is, w, his, ?_⟩
    unfold clook
    unfold VarRef.key at ht
    rw [ht]
    exact find_some.2 hw
  · cases h

theorem GoodW.blocks {s : FunSt} {b : CScope} (hg : ∀ b ∈ s.blocks, GoodW b) (hb : GoodW b) :
    ∀ b' ∈ ({ s with cur := b } : FunSt).blocks, GoodW b' := by
  intro b' hb'
  rcases List.mem_cons.1 hb' with rfl | hm
  · exact hb
  · exact hg b' (List.mem_cons_of_mem _ hm)

/-- one piece of code -/
theorem wPiece_step {depth : Nat} {s s' : FunSt} {fs fs' : Dict Nat Val} {p : Piece} (hp : WPieceStat depth s.cur.defs p)
    (hg : ∀ b ∈ s.blocks, GoodW b) (hpos : ∀ n i, dGet n s.lv = some i → 0 ≤ i) (hlv : ∀ r ∈ p.e.vars, dGet r.name s.lv = none)
    (h : wPiece s fs p = .ok (s', fs')) :
    (∃ b, s' = { s with cur := b }) ∧ GoodW s'.cur ∧ GrowW s.cur s'.cur ∧ (∀ v ∈ putRefs [p], HasB s'.cur s.lv v) ∧
    ∃ src, fieldD s p.kind p.e = .ok src ∧ fs' = dSet p.fld src fs := by
  unfold wPiece at h
  simp only [cbind_ok'] at h
  obtain ⟨src, hsrc, s1, hs1, h⟩ := h
  cases h
  have hgc := hg s.cur (by simp [FunSt.blocks])
  suffices hh : (∃ b, s' = { s with cur := b }) ∧ GoodW s'.cur ∧ GrowW s.cur s'.cur ∧ (∀ v ∈ putRefs [p], HasB s'.cur s.lv v) from
    ⟨hh.1, hh.2.1, hh.2.2.1, hh.2.2.2, src, hsrc, rfl⟩
  have hpo := hp.op
  unfold setPiece at hs1
  split at hs1
  · rename_i hop
    cases hs1
    refine ⟨⟨s.cur, rfl⟩, hgc, .refl _, ?_⟩
    simp [putRefs, hop]
  · rename_i g v sol hop
    rw [hop] at hpo
    obtain ⟨hv, -⟩ := hpo
    simp only [cbind_ok'] at hs1
    obtain ⟨known, hkn, hs1⟩ := hs1
    have hput : putRefs [p] = [v] := by simp [putRefs, hop]
    split at hs1
    · rename_i hk
      cases hs1
      refine ⟨⟨s.cur, rfl⟩, hgc, .refl _, ?_⟩
      rw [hput]
      intro r hr
      rw [List.mem_singleton] at hr; subst hr
      split at hkn
      · rw [hk] at hkn
        exact didRead_has hg (hlv _ hv) (hp.defs _ hv).1 hkn
      · cases hkn; cases hk
    · simp only [cbind_ok'] at hs1
      obtain ⟨x, hx, w, hw, hs1⟩ := hs1
      obtain ⟨u, hu, hsv⟩ := sol_dict hp rfl hg hlv hsrc hop hx hw
      obtain ⟨a1, a2, a3, a4⟩ := assign_dict hpos (hp.defs v hv).2 hgc hu hsv hs1
      refine ⟨a1, a2, a3, ?_⟩
      rw [hput]
      intro r hr
      rw [List.mem_singleton] at hr; subst hr
      exact a4
  · rename_i g v hop
    rw [hop] at hpo
    simp only [cbind_ok'] at hs1
    obtain ⟨known, hkn, hs1⟩ := hs1
    have hput : putRefs [p] = [v] := by simp [putRefs, hop]
    split at hs1
    · rename_i hk
      cases hs1
      refine ⟨⟨s.cur, rfl⟩, hgc, .refl _, ?_⟩
      rw [hput]
      intro r hr
      rw [List.mem_singleton] at hr; subst hr
      split at hkn
      · rw [hk] at hkn
        exact didRead_has hg (hlv _ hpo) (hp.defs _ hpo).1 hkn
      · cases hkn; cases hk
    · cases hs1

theorem fieldD_cur {s : FunSt} {b : CScope} (hb : b.pd = s.cur.pd) {k : CKind} {e : Expr} :
    fieldD { s with cur := b } k e = fieldD s k e := by
  unfold fieldD; simp only [hb]

theorem wPieces_step {depth : Nat} {ps : List Piece} {s s' : FunSt} {fs fs' : Dict Nat Val}
    (hp : ∀ p ∈ ps, WPieceStat depth s.cur.defs p) (hg : ∀ b ∈ s.blocks, GoodW b)
    (hpos : ∀ n i, dGet n s.lv = some i → 0 ≤ i) (hlv : ∀ p ∈ ps, ∀ r ∈ p.e.vars, dGet r.name s.lv = none)
    (h : wPieces ps s fs = .ok (s', fs')) :
    (∃ b, s' = { s with cur := b }) ∧ GoodW s'.cur ∧ GrowW s.cur s'.cur ∧ (∀ v ∈ putRefs ps, HasB s'.cur s.lv v) := by
  induction ps generalizing s fs with
  | nil =>
    simp only [wPieces, CRes.ok.injEq, Prod.mk.injEq] at h
    obtain ⟨rfl, rfl⟩ := h
    exact ⟨⟨s.cur, rfl⟩, hg s.cur (by simp [FunSt.blocks]), .refl _, by simp [putRefs]⟩
  | cons p ps ih =>
    simp only [wPieces, cbind_ok'] at h
    obtain ⟨⟨s1, fs1⟩, h1, h⟩ := h
    obtain ⟨⟨b, rfl⟩, a2, a3, a4, -⟩ := wPiece_step (hp p (by simp)) hg hpos (hlv p (by simp)) h1
    have hd : b.defs = s.cur.defs := a3.defs
    obtain ⟨⟨b', rfl⟩, c2, c3, c4⟩ := ih (s := { s with cur := b }) (fun q hq => by
        show WPieceStat depth b.defs q
        rw [hd]; exact hp q (List.mem_cons_of_mem _ hq)) (GoodW.blocks hg a2) hpos
      (fun q hq => hlv q (List.mem_cons_of_mem _ hq)) h
    refine ⟨⟨b', rfl⟩, c2, a3.trans c3, fun v hv => ?_⟩
    have : putRefs (p :: ps) = putRefs [p] ++ putRefs ps := by simp [putRefs]
    rw [this] at hv
    rcases List.mem_append.1 hv with hv | hv
    · exact (a4 v hv).grow c3
    · exact c4 v hv

/-- the values of the fields -/
theorem wPieces_flds {ps : List Piece} {s s' : FunSt} {fs fs' : Dict Nat Val}
    (hsame : ∀ p ∈ ps, ∀ q ∈ ps, p.fld = q.fld → p.kind = q.kind ∧ p.e = q.e)
    (hfs : ∀ p ∈ ps, ∀ u, dGet p.fld fs = some u → fieldD s p.kind p.e = .ok u)
    (h : wPieces ps s fs = .ok (s', fs')) : ∀ p ∈ ps, ∃ u, dGet p.fld fs' = some u ∧ fieldD s p.kind p.e = .ok u := by
  have hpd : ∀ {s : FunSt} {fs p s1 fs1}, wPiece s fs p = .ok (s1, fs1) → s1.cur.pd = s.cur.pd ∧ s1.lv = s.lv := by
    intro s fs p s1 fs1 h
    unfold wPiece at h
    simp only [cbind_ok'] at h
    obtain ⟨src, hsrc, s2, hs2, h⟩ := h
    cases h
    unfold setPiece at hs2
    split at hs2
    · cases hs2; exact ⟨rfl, rfl⟩
    · simp only [cbind_ok'] at hs2
      obtain ⟨known, hkn, hs2⟩ := hs2
      split at hs2
      · cases hs2; exact ⟨rfl, rfl⟩
      · simp only [cbind_ok', assign] at hs2
        obtain ⟨x, hx, w, hw, is, his, t, ht, hs2⟩ := hs2
        cases hs2; exact ⟨rfl, rfl⟩
    · simp only [cbind_ok'] at hs2
      obtain ⟨known, hkn, hs2⟩ := hs2
      split at hs2 <;> cases hs2
      exact ⟨rfl, rfl⟩
  have hfd : ∀ {s1 s : FunSt} {k e}, s1.cur.pd = s.cur.pd → s1.lv = s.lv → fieldD s1 k e = fieldD s k e := by
    intro s1 s k e h1 h2
    unfold fieldD; rw [h1, h2]
  -- fields of earlier pieces stay
  have hstay : ∀ (ps : List Piece) (s s' : FunSt) (fs fs' : Dict Nat Val), wPieces ps s fs = .ok (s', fs') → ∀ i u, dGet i fs = some u →
      ∀ w, (∀ p ∈ ps, p.fld = i → fieldD s p.kind p.e = .ok w) → w = u → dGet i fs' = some w := by
    intro ps
    induction ps with
    | nil =>
      intro s s' fs fs' h i u hu w _ hw
      simp only [wPieces, CRes.ok.injEq, Prod.mk.injEq] at h
      obtain ⟨rfl, rfl⟩ := h
      rw [hu, hw]
    | cons p ps ih =>
      intro s s' fs fs' h i u hu w hall hw
      simp only [wPieces, cbind_ok'] at h
      obtain ⟨⟨s1, fs1⟩, h1, h⟩ := h
      obtain ⟨e1, e2⟩ := hpd h1
      unfold wPiece at h1
      simp only [cbind_ok'] at h1
      obtain ⟨src, hsrc, s2, hs2, h1⟩ := h1
      cases h1
      by_cases e : p.fld = i
      · have := hall p (by simp) e
        rw [hsrc] at this; cases this
        refine ih _ _ _ _ h i w (by rw [← e]; exact dGet_dSet_self _ _ _) w (fun q hq hf => ?_) rfl
        rw [hfd e1 e2]; exact hall q (List.mem_cons_of_mem _ hq) hf
      · refine ih _ _ _ _ h i u (by rw [dGet_dSet_ne e]; exact hu) w (fun q hq hf => ?_) hw
        rw [hfd e1 e2]; exact hall q (List.mem_cons_of_mem _ hq) hf
  induction ps generalizing s fs with
  | nil => simp
  | cons p ps ih =>
    simp only [wPieces, cbind_ok'] at h
    obtain ⟨⟨s1, fs1⟩, h1, h⟩ := h
    obtain ⟨e1, e2⟩ := hpd h1
    unfold wPiece at h1
    simp only [cbind_ok'] at h1
    obtain ⟨src, hsrc, s2, hs2, h1⟩ := h1
    cases h1
    intro q hq
    rcases List.mem_cons.1 hq with rfl | hq
    · refine ⟨src, hstay _ _ _ _ _ h q.fld src (dGet_dSet_self _ _ _) src (fun p' hp' hf => ?_) rfl, hsrc⟩
      obtain ⟨k1, k2⟩ := hsame p' (List.mem_cons_of_mem _ hp') q (by simp) hf
      rw [hfd e1 e2, k1, k2]; exact hsrc
    · have := ih (s := s1) (fs := dSet p.fld src fs) (fun a ha b hb => hsame a (List.mem_cons_of_mem _ ha) b (List.mem_cons_of_mem _ hb)) (fun a ha u hu => by
        rw [hfd e1 e2]
        by_cases e : p.fld = a.fld
        · rw [← e, dGet_dSet_self] at hu; cases hu
          obtain ⟨k1, k2⟩ := hsame p (by simp) a (List.mem_cons_of_mem _ ha) e
          rw [← k1, ← k2]; exact hsrc
        · rw [dGet_dSet_ne e] at hu
          exact hfs a (List.mem_cons_of_mem _ ha) u hu) h q hq
      obtain ⟨u, hu, hf⟩ := this
      rw [hfd e1 e2] at hf
      exact ⟨u, hu, hf⟩

end Verif
