import Verif.Lemmas.CppWEnv

/-! The compiled writer: lookahead. -/

namespace Verif
open Spec

theorem dGet_filterKey {κ α : Type} [DecidableEq κ] (p : κ → Bool) (d : Dict κ α) (k : κ) :
    dGet k (d.filter fun x => p x.1) = if p k then dGet k d else none := by
  induction d with
  | nil => simp [dGet]
  | cons x d ih =>
    obtain ⟨k', v⟩ := x
    by_cases hk : k' = k
    · subst hk
      by_cases hp : p k'
      · simp [hp, dGet]
      · simp only [List.filter_cons, hp, Bool.false_eq_true, if_false, dGet, if_true, ih]
    · by_cases hp : p k'
      · simp only [List.filter_cons, hp, if_true, dGet, hk, if_false, ih]
      · simp only [List.filter_cons, hp, Bool.false_eq_true, if_false, dGet, hk, ih]

theorem dGet_append {κ α : Type} [DecidableEq κ] (a b : Dict κ α) (k : κ) : dGet k (a ++ b) = (dGet k a).or (dGet k b) := by
  induction a with
  | nil => rfl
  | cons x a ih =>
    obtain ⟨k', v⟩ := x
    by_cases hk : k' = k
    · simp [dGet, hk]
    · simp only [List.cons_append, dGet, hk, if_false, ih]

/-- the block behind a lookahead, with those variables that are used in the condition and are in the dictionary; other variables as before -/
def knownB (C : List Name) (b0 b : CScope) : CScope :=
  { b with vars := (b.vars.filter fun x => C.contains x.1.1 && dHas (.var x.1.1) b.pd) ++ b0.vars.filter fun x => !C.contains x.1.1 }

def knownSt (C : List Name) (b0 : CScope) (s : FunSt) : FunSt := { s with cur := knownB C b0 s.cur }

theorem knownB_get {C : List Name} {b0 b : CScope} {key : VKey} : dGet key (knownB C b0 b).vars =
    if key.1 ∈ C then (if dHas (.var key.1) b.pd then dGet key b.vars else none) else dGet key b0.vars := by
  have h1 := dGet_filterKey (fun key : VKey => C.contains key.1 && dHas (Key.var key.1) b.pd) b.vars key
  have h2 := dGet_filterKey (fun key : VKey => !C.contains key.1) b0.vars key
  unfold knownB
  dsimp only
  rw [dGet_append, h1, h2]
  by_cases hC : key.1 ∈ C
  · simp only [List.contains_eq_mem, hC, decide_true, Bool.true_and, Bool.not_true, Bool.false_eq_true, if_false, if_true]
    split <;> simp
  · simp [hC]

theorem knownB_look {C : List Name} {b0 b : CScope} {n : Name} {ar : Nat} {is : List Int} :
    clook (knownB C b0 b) n ar is = if n ∈ C then (if dHas (.var n) b.pd then clook b n ar is else none) else clook b0 n ar is := by
  unfold clook
  rw [knownB_get]
  dsimp only
  split
  · split <;> rfl
  · rfl

theorem look_has {d : DDic} {n : Name} {is : List Int} {u : Val} (h : look d n is = some u) : dHas (.var n) d = true := by
  unfold look at h
  cases hv : dGet (.var n) d with
  | none => rw [hv] at h; cases h
  | some v => exact dHas_some.2 ⟨_, hv⟩

/-- the values that stand for missing variables -/
def Dflt (w : Val) : Prop := ∃ z, w = .num z ∧ (z.val = -99999 ∨ z.val = -999999 / 10)

/-- A block in a lookahead; `C` are the names in the condition. -/
structure LookB (C : List Name) (b : CScope) : Prop where
  tree : ∀ key t, dGet key b.vars = some t → GoodT key.2 t
  sound : ∀ n ar is w, is.length = ar → clook b n ar is = some w → n ∈ C →
    (∃ u, look b.pd n is = some u ∧ SameVal u w) ∨ dHas (.var n) b.pd = false ∧ Dflt w

theorem GoodW.lookB {b : CScope} (h : GoodW b) (C : List Name) : LookB C b := ⟨h.tree, fun n ar is w hl hw _ => .inl (h.sound n ar is w hl hw)⟩

theorem LookB.known {C : List Name} {b0 b : CScope} (h : LookB C b) (h0 : GoodW b0) (hpd : b.pd = b0.pd) : GoodW (knownB C b0 b) := by
  refine ⟨fun key t ht => ?_, fun n ar is w hl hw => ?_⟩
  · rw [knownB_get] at ht
    split at ht
    · split at ht
      · exact h.tree _ _ ht
      · cases ht
    · exact h0.tree _ _ ht
  · rw [knownB_look] at hw
    show ∃ u, look b.pd n is = some u ∧ _
    split at hw
    · rename_i hC
      split at hw
      · rename_i hn
        rcases h.sound n ar is w hl hw hC with h1 | ⟨h1, _⟩
        · exact h1
        · rw [h1] at hn; cases hn
      · cases hw
    · rw [hpd]; exact h0.sound n ar is w hl hw

theorem GrowW.known {b b' : CScope} (C : List Name) (hg : GoodW b) (h : GrowW b b') : GrowW b (knownB C b b') := by
  refine ⟨h.pd, h.defs, fun n ar is w hl hw => ?_⟩
  obtain ⟨w', hw'⟩ := h.more n ar is w hl hw
  obtain ⟨u, hu, _⟩ := hg.sound n ar is w hl hw
  rw [knownB_look]
  split
  · exact ⟨w', by rw [if_pos (by rw [h.pd]; exact look_has hu)]; exact hw'⟩
  · exact ⟨w, hw⟩

/-- an assignment, in general -/
theorem assign_gen {P : Name → List Int → Val → Prop} {s s' : FunSt} {v : VarRef} {w : Val} (hlv : ∀ n i, dGet n s.lv = some i → 0 ≤ i)
    (hidx : ∀ i, Idx.num i ∈ v.idx → 0 ≤ i) (ht : ∀ key t, dGet key s.cur.vars = some t → GoodT key.2 t)
    (hP : ∀ n ar is w, is.length = ar → clook s.cur n ar is = some w → P n is w)
    (hv : ∀ is, v.idx.mapM (idxVal s.lv) = .ok is → P v.name is w) (h : assign s v w = .ok s') :
    (∃ b, s' = { s with cur := b }) ∧ (∀ key t, dGet key s'.cur.vars = some t → GoodT key.2 t) ∧
      (∀ n ar is w, is.length = ar → clook s'.cur n ar is = some w → P n is w) ∧ GrowW s.cur s'.cur ∧ HasB s'.cur s.lv v := by
  unfold assign at h
  simp only [cbind_ok'] at h
  obtain ⟨is, his, t, htt, h⟩ := h
  cases h
  rw [cIdxs_ok] at his
  have hlen := idxs_length his
  have hgood : ∀ x, dGet v.key s.cur.vars = some x → GoodT is.length x := by
    intro x hx
    rw [hlen]; exact ht _ _ hx
  obtain ⟨g1, g2⟩ := vput_good (idx_nonneg hlv hidx his) hgood htt
  have hfind : ∀ js : List Int, js.length = v.idx.length →
      clook { s.cur with vars := dSet v.key t s.cur.vars } v.name v.idx.length js
        = if js = is then some w else clook s.cur v.name v.idx.length js := by
    intro js hjs
    unfold clook
    have e : ((v.name, v.idx.length) : VKey) = v.key := rfl
    rw [e, dGet_dSet_self]
    exact find_setArr g2 (by omega)
  have hother : ∀ (key : VKey), key ≠ v.key → dGet key (dSet v.key t s.cur.vars) = dGet key s.cur.vars :=
    fun key hne => dGet_dSet_ne (Ne.symm hne) _ _
  refine ⟨⟨_, rfl⟩, ?_, ?_, ⟨rfl, rfl, ?_⟩, ⟨is, w, his, ?_⟩⟩
  · intro key x hx
    dsimp only at hx
    by_cases e : key = v.key
    · subst e
      rw [dGet_dSet_self] at hx; cases hx
      show GoodT v.idx.length t
      rw [← hlen]; exact g1
    · rw [hother key e] at hx
      exact ht key x hx
  · intro n ar js y hjs hy
    by_cases e : (n, ar) = v.key
    · cases e
      rw [hfind js hjs] at hy
      split at hy
      · rename_i e; cases hy; rw [e]; exact hv is his
      · exact hP _ _ js y hjs hy
    · unfold clook at hy
      dsimp only at hy
      rw [hother _ e] at hy
      exact hP n ar js y hjs hy
  · intro n ar js y hjs hy
    by_cases e : (n, ar) = v.key
    · cases e
      rw [hfind js hjs]
      split
      · exact ⟨_, rfl⟩
      · exact ⟨y, hy⟩
    · refine ⟨y, ?_⟩
      unfold clook
      dsimp only
      rw [hother _ e]
      exact hy
  · rw [hfind is hlen, if_pos rfl]

theorem didRead_iff {s : FunSt} {v : VarRef} (ht : ∀ key t, dGet key s.cur.vars = some t → GoodT key.2 t) (hl : dGet v.name s.lv = none)
    (hd : v.key ∈ s.cur.defs) {t : Bool} (h : didRead s v = .ok t) : t = true ↔ HasB s.cur s.lv v := by
  unfold didRead at h
  rw [hl] at h
  simp only [FunSt.blocks, blockOf, if_pos hd, cbind_ok'] at h
  obtain ⟨is, his, h⟩ := h
  rw [cIdxs_ok] at his
  have hlen := idxs_length his
  unfold HasB clook
  have e : ((v.name, v.idx.length) : VKey) = v.key := rfl
  rw [e]
  split at h
  · rename_i x hx
    simp only [CRes.ok.injEq] at h
    subst h
    have hgt := ht _ _ hx
    rw [vhas_toPy (by rw [hlen]; exact hgt)]
    constructor
    · rintro ⟨w, hw⟩; exact ⟨is, w, his, by rw [hx]; exact find_some.2 hw⟩
    · rintro ⟨is', w, his', hw⟩
      rw [his] at his'; cases his'
      rw [hx] at hw
      exact ⟨w, find_some.1 hw⟩
  · rename_i hx
    cases h
    constructor
    · intro h; cases h
    · rintro ⟨is', w, his', hw⟩
      rw [hx] at hw
      cases hw

theorem evR_congr {ρ ρ' : VarRef → CRes Val} {e : Expr} (h : ∀ r ∈ e.vars, ρ r = ρ' r) : evR ρ e = evR ρ' e := by
  induction e with
  | num x | desired x => rfl
  | var r | incons r => simp only [evR, h r (by simp [Expr.vars])]
  | neg a ih => simp only [evR, ih h]
  | add a b i1 i2 | sub a b i1 i2 | mul a b i1 i2 | div a b i1 i2 | mod a b i1 i2 =>
    simp only [Expr.vars, List.mem_append] at h
    simp only [evR, i1 fun r hr => h r (.inl hr), i2 fun r hr => h r (.inr hr)]

theorem fieldR_congr {ρ ρ' : VarRef → CRes Val} {k : CKind} {e : Expr} (h : ∀ r ∈ e.vars, ρ r = ρ' r) : fieldR ρ k e = fieldR ρ' k e := by
  unfold fieldR
  rw [evR_congr h]
  split
  · rfl
  · rfl
  · split
    · exact h _ (by simp [Expr.vars])
    · exact h _ (by simp [Expr.vars])
    · rfl

theorem solVal_congr {s s' : FunSt} {e : Expr} (h : ∀ r ∈ e.vars, readRef s r = readRef s' r) {src : Val} {sol : X} :
    solVal s e src sol = solVal s' e src sol := by
  have ht : tokVal s e src = tokVal s' e src := by
    funext y
    unfold tokVal
    split
    · rfl
    · cases hf : e.vars.find? (fun r => r.xvar = y) with
      | none => rfl
      | some r => dsimp only; rw [h r (List.mem_of_find?_eq_some hf)]
  unfold solVal
  rw [ht]

/-- reading a variable in a lookahead, with and without missing variables -/
def Fine (C : List Name) (b0 : CScope) (s : FunSt) (r : VarRef) : Prop :=
  readRef s r = readRef (knownSt C b0 s) r ∧ didRead s r = didRead (knownSt C b0 s) r

theorem fine_of {C : List Name} {b0 : CScope} {s : FunSt} {r : VarRef} (hC : r.name ∈ C)
    (h : dGet r.name s.lv ≠ none ∨ r.key ∉ s.cur.defs ∨ dHas (.var r.name) s.cur.pd = true) : Fine C b0 s r := by
  have hb : blockOf r.key s.blocks = if r.key ∈ s.cur.defs then some s.cur else blockOf r.key s.blocks.tail := rfl
  have hb' : blockOf r.key (knownSt C b0 s).blocks = if r.key ∈ s.cur.defs then some (knownB C b0 s.cur) else blockOf r.key s.blocks.tail := rfl
  unfold Fine readRef didRead
  rw [hb, hb']
  have hlv : (knownSt C b0 s).lv = s.lv := rfl
  rw [hlv]
  cases hl : dGet r.name s.lv with
  | some i => exact ⟨rfl, rfl⟩
  | none =>
    rw [hl] at h
    simp only [ne_eq, not_true_eq_false, false_or] at h
    by_cases hd : r.key ∈ s.cur.defs
    · have hp := h.resolve_left fun hh => hh hd
      have hp' : dHas (Key.var r.key.1) s.cur.pd = true := hp
      have hC' : r.key.1 ∈ C := hC
      simp only [if_pos hd, knownB_get, hp', hC', if_true, and_self]
    · simp only [if_neg hd, and_self]

theorem closedSol_val {sol : X} (h : closedSol sol = true) (s s' : FunSt) (e : Expr) (src : Val) : solVal s e src sol = solVal s' e src sol := by
  unfold closedSol at h
  split at h
  · rw [of_decide_eq_true h]; simp [solVal]
  · rw [of_decide_eq_true h]; simp [solVal, evX, tokVal]
  · cases h

/-- the solution for a missing variable -/
theorem missSol_dflt {k : CKind} {e : Expr} {sol : X} {s : FunSt} {src x w : Val} (hm : missSol k e sol = true) (hcl : closedSol sol = true)
    (hsrc : fieldR (fun _ => .ok (missVal k)) k e = .ok src) (hx : solVal s e src sol = .ok x) (hw : toKind k x = .ok w) : Dflt w := by
  unfold missSol at hm
  rw [hsrc] at hm
  dsimp only at hm
  rw [closedSol_val hcl _ s, hx] at hm
  dsimp only at hm
  rw [hw] at hm
  split at hm
  · rename_i z hz
    cases hz
    exact ⟨z, rfl, of_decide_eq_true hm⟩
  · cases hm

theorem lookPieceD_step {C : List Name} {b0 : CScope} {depth : Nat} {s s' : FunSt} {p : Piece} (hp : WPieceStat depth s.cur.defs p)
    (hk : p.kind.isNum = true) (hg : ∀ b ∈ s.blocks.tail, GoodW b) (hB : LookB C s.cur) (h0 : GoodW b0) (hpd : s.cur.pd = b0.pd)
    (hpos : ∀ n i, dGet n s.lv = some i → 0 ≤ i) (hlv : ∀ r ∈ p.e.vars, dGet r.name s.lv = none) {A : List VarRef} (hA : ∀ v ∈ A, HasB s.cur s.lv v)
    (hop : match p.op with
      | .put g v sol => v.name ∈ C → g = true ∧ v ∈ A ∨ (∀ r ∈ p.e.vars, r = v) ∧ closedSol sol = true ∧ missSol p.kind p.e sol = true
      | _ => True)
    (h : lookPieceD s p = .ok s') :
    (∃ b, s' = { s with cur := b }) ∧ LookB C s'.cur ∧ GrowW s.cur s'.cur ∧ ∀ v ∈ putRefs [p], HasB s'.cur s.lv v := by
  have hpo := hp.op
  unfold lookPieceD at h
  split at h
  · rename_i ho
    cases h
    exact ⟨⟨s.cur, rfl⟩, hB, .refl _, by simp [putRefs, ho]⟩
  · rename_i g v sol ho
    rw [ho] at hpo hop
    dsimp only at hop
    obtain ⟨hv, -⟩ := hpo
    simp only [cbind_ok'] at h
    obtain ⟨known, hkn, h⟩ := h
    have hput : putRefs [p] = [v] := by simp [putRefs, ho]
    split at h
    · rename_i hkt
      cases h
      refine ⟨⟨s.cur, rfl⟩, hB, .refl _, ?_⟩
      rw [hput]
      intro r hr
      rw [List.mem_singleton] at hr; subst hr
      split at hkn
      · exact (didRead_iff hB.tree (hlv _ hv) (hp.defs _ hv).1 hkn).1 hkt
      · cases hkn; cases hkt
    · rename_i hkt
      simp only [cbind_ok'] at h
      obtain ⟨src, hsrc, x, hx, w, hw, h⟩ := h
      have hval : v.name ∈ C → (∃ u, dictVal s.cur.pd s.lv v = .ok u ∧ SameVal u w) ∨ dHas (.var v.name) s.cur.pd = false ∧ Dflt w := by
        intro hC
        obtain ⟨hop1, hop2, hop3⟩ : (∀ r ∈ p.e.vars, r = v) ∧ closedSol sol = true ∧ missSol p.kind p.e sol = true := by
          rcases hop hC with ⟨rfl, hvA⟩ | hop
          · exfalso
            rw [if_pos rfl] at hkn
            exact hkt ((didRead_iff hB.tree (hlv _ hv) (hp.defs _ hv).1 hkn).2 (hA v hvA))
          · exact hop
        cases hh : dHas (.var v.name) s.cur.pd with
        | true =>
          left
          have hfd : fieldD (knownSt C b0 s) p.kind p.e = .ok src := by
            rw [← hsrc]
            unfold fieldD
            refine fieldR_congr fun r hr => ?_
            rw [hop1 r hr]
            unfold lookVal
            rw [if_pos hh]
            rfl
          have hgk : ∀ b ∈ (knownSt C b0 s).blocks, GoodW b := by
            intro b hb
            rcases List.mem_cons.1 hb with rfl | hb
            · exact hB.known h0 hpd
            · exact hg b hb
          rw [solVal_congr (s' := knownSt C b0 s) fun r hr => (fine_of (by rw [hop1 r hr]; exact hC) (.inr (.inr (by rw [hop1 r hr]; exact hh)))).1] at hx
          exact sol_dict (s := knownSt C b0 s) hp rfl hgk hlv hfd ho hx hw
        | false =>
          refine .inr ⟨rfl, missSol_dflt hop3 hop2 ?_ hx hw⟩
          rw [← hsrc]
          refine fieldR_congr fun r hr => ?_
          rw [hop1 r hr]
          unfold lookVal
          rw [if_neg (by rw [hh]; simp)]
          cases hkk : p.kind with
          | int => rfl
          | flt => rfl
          | _ => rw [hkk] at hk; cases hk
      obtain ⟨a1, a2, a3, a4, a5⟩ := assign_gen
        (P := fun n is w => n ∈ C → (∃ u, look s.cur.pd n is = some u ∧ SameVal u w) ∨ dHas (.var n) s.cur.pd = false ∧ Dflt w)
        hpos (hp.defs v hv).2 hB.tree hB.sound (fun is his hC => by
          rcases hval hC with ⟨u, hu, hs⟩ | hval
          · obtain ⟨is', his', hl⟩ := dictVal_ok.1 hu
            rw [his] at his'; cases his'
            exact .inl ⟨u, hl, hs⟩
          · exact .inr hval) h
      refine ⟨a1, ⟨a2, ?_⟩, a4, ?_⟩
      · rw [a4.pd]; exact a3
      · rw [hput]
        intro r hr
        rw [List.mem_singleton] at hr; subst hr
        exact a5
  · rename_i g v ho
    rw [ho] at hpo
    simp only [cbind_ok'] at h
    obtain ⟨known, hkn, h⟩ := h
    have hput : putRefs [p] = [v] := by simp [putRefs, ho]
    split at h
    · rename_i hkt
      cases h
      refine ⟨⟨s.cur, rfl⟩, hB, .refl _, ?_⟩
      rw [hput]
      intro r hr
      rw [List.mem_singleton] at hr; subst hr
      split at hkn
      · exact (didRead_iff hB.tree (hlv _ hpo) (hp.defs _ hpo).1 hkn).1 hkt
      · cases hkn; cases hkt
    · cases h

theorem lookPiecesD_step {C : List Name} {b0 : CScope} {L : List Name} {depth : Nat} {D : List VKey} {ps : List Piece} {s s' : FunSt} {A : List VarRef}
    (hgen : ∀ p ∈ ps, GenOf depth p) (hok : wLookPiecesOk depth L D C ps A = true) (hD : s.cur.defs = D) (hL : LvOk L s.lv)
    (hg : ∀ b ∈ s.blocks.tail, GoodW b) (hB : LookB C s.cur) (h0 : GoodW b0) (hpd : s.cur.pd = b0.pd)
    (hpos : ∀ n i, dGet n s.lv = some i → 0 ≤ i) (hA : ∀ v ∈ A, HasB s.cur s.lv v)
    (h : lookPiecesD ps s = .ok s') :
    (∃ b, s' = { s with cur := b }) ∧ LookB C s'.cur ∧ GrowW s.cur s'.cur ∧ ∀ v ∈ putRefs ps, HasB s'.cur s.lv v := by
  induction ps generalizing s A with
  | nil =>
    simp only [lookPiecesD, CRes.ok.injEq] at h
    subst h
    exact ⟨⟨s.cur, rfl⟩, hB, .refl _, by simp [putRefs]⟩
  | cons p ps ih =>
    simp only [lookPiecesD, cbind_ok'] at h
    obtain ⟨s1, h1, h⟩ := h
    simp only [wLookPiecesOk, Bool.and_eq_true, List.all_eq_true, Bool.not_eq_true', List.contains_eq_mem, decide_eq_false_iff_not] at hok
    obtain ⟨⟨⟨⟨o1, o2⟩, o3⟩, o4⟩, o5⟩ := hok
    obtain ⟨⟨b, rfl⟩, a2, a3, a4⟩ := lookPieceD_step (C := C) (by rw [hD]; exact wPieceOk_stat (hgen p (by simp)) o1) o2 hg hB h0 hpd hpos
      (fun r hr => hL.none.2 (o3 r hr)) hA (by
        cases ho : p.op with
        | put g v sol =>
          rw [ho] at o4
          simp only [Bool.or_eq_true, Bool.and_eq_true, decide_eq_true_eq, List.all_eq_true, Bool.not_eq_true', decide_eq_false_iff_not] at o4
          intro hC
          rcases o4 with (o4 | o4) | ⟨⟨o4, o5⟩, o6⟩
          · exact absurd hC o4
          · exact .inl o4
          · exact .inr ⟨o4, o5, o6⟩
        | _ => trivial) h1
    obtain ⟨⟨b', rfl⟩, c2, c3, c4⟩ := ih (s := { s with cur := b }) (fun q hq => hgen q (List.mem_cons_of_mem _ hq)) o5 (by rw [← hD]; exact a3.defs) hL hg a2 (by rw [← hpd]; exact a3.pd) hpos
      (fun v hv => by
        rcases List.mem_append.1 hv with hv | hv
        · exact (hA v hv).grow a3
        · exact a4 v hv) h
    refine ⟨⟨b', rfl⟩, c2, a3.trans c3, fun v hv => ?_⟩
    have : putRefs (p :: ps) = putRefs [p] ++ putRefs ps := by simp [putRefs]
    rw [this] at hv
    rcases List.mem_append.1 hv with hv | hv
    · exact (a4 v hv).grow c3
    · exact c4 v hv

theorem lookStepsD_flat {steps : List (List Piece)} {s : FunSt} : lookStepsD steps s = lookPiecesD steps.flatten s := by
  have happ : ∀ (a b : List Piece) (s : FunSt), lookPiecesD (a ++ b) s = (do lookPiecesD b (← lookPiecesD a s)) := by
    intro a b
    induction a with
    | nil => intro s; rfl
    | cons p a ih =>
      intro s
      simp only [List.cons_append, lookPiecesD]
      cases lookPieceD s p with
      | ok s1 => exact ih s1
      | throw => rfl
      | undef => rfl
  induction steps generalizing s with
  | nil => rfl
  | cons ps pss ih =>
    simp only [lookStepsD, List.flatten_cons, happ, ih]

/-! ### conditions -/

def condVars : Cond → List VarRef
  | .cmp _ a b => a.vars ++ b.vars
  | .and a b | .or a b => condVars a ++ condVars b

theorem evC_fine {C : List Name} {b0 : CScope} {s : FunSt} {e : Expr} (h : ∀ r ∈ e.vars, Fine C b0 s r) : evC s e = evC (knownSt C b0 s) e := by
  rw [evC_evR, evC_evR]
  exact evR_congr fun r hr => (h r hr).1

theorem allRead_fine {C : List Name} {b0 : CScope} {s : FunSt} {l : List VarRef} (h : ∀ r ∈ l, Fine C b0 s r) : allRead s l = allRead (knownSt C b0 s) l := by
  induction l with
  | nil => rfl
  | cons r l ih =>
    simp only [allRead, (h r (by simp)).2, ih fun r hr => h r (List.mem_cons_of_mem _ hr)]

theorem condC_fine {C : List Name} {b0 : CScope} {s : FunSt} {c : Cond} (h : ∀ r ∈ condVars c, Fine C b0 s r) : condC s c = condC (knownSt C b0 s) c := by
  induction c with
  | cmp r a b =>
    simp only [condVars, List.mem_append] at h
    simp only [condC, evC_fine fun r hr => h r (.inl hr), evC_fine fun r hr => h r (.inr hr),
      allRead_fine fun r hr => h r (.inl (dedup_sort_mem hr))]
  | and a b i1 i2 | or a b i1 i2 =>
    simp only [condVars, List.mem_append] at h
    simp only [condC, i1 fun r hr => h r (.inl hr), i2 fun r hr => h r (.inr hr)]

/-- a comparison that holds in the compiled code holds in the interpreter -/
theorem cmp_true {N : List Name} {top : DDic} {L : List Name} {d : DDic} {us : List DDic} {s : FunSt} (h : EnvW N top L d us s)
    {r : Rel} {a b : Expr} (hda : noDiv a = true) (hdb : noDiv b = true) (hN : ∀ n ∈ condNames (.cmp r a b), n ∈ N) {fuel : Nat} {t : Bool}
    (hp : evalCond fuel ⟨d, us, s.lv⟩ (.cmp r a b) = .ok t) (hcc : condC s (.cmp r a b) = .ok true) : t = true := by
  have href : ∀ (e : Expr) (r : VarRef), r ∈ e.vars → r.name ∈ exprNames e := by
    intro e r hr
    unfold exprNames
    refine List.mem_map.2 ⟨r, ?_, rfl⟩
    have : e.refs = e.vars := by
      clear hr
      induction e <;> simp_all [Expr.refs, Expr.vars]
    rw [this]; exact hr
  simp only [condNames, List.mem_append] at hN
  simp only [condC, cbind_ok'] at hcc
  obtain ⟨q, hq, hcc⟩ := hcc
  cases q with
  | false => simp at hcc
  | true =>
    simp only [if_true, cbind_ok'] at hcc
    obtain ⟨x, hx, y, hy, hcc⟩ := hcc
    simp only [CRes.ok.injEq] at hcc
    unfold evalCond at hp
    split at hp
    · rename_i heq
      exfalso
      cases h1 : evalKnown fuel ⟨d, us, s.lv⟩ true true a with
      | error e => rw [h1] at heq; cases heq; exact expr_found h hx h1
      | ok u =>
        rw [h1] at heq
        cases h2 : evalKnown fuel ⟨d, us, s.lv⟩ true true b with
        | error e => rw [h2] at heq; cases heq; exact expr_found h hy h2
        | ok u => rw [h2] at heq; cases heq
    · cases hp
    · rename_i x' y' heq
      simp only [bind_ok, pure_ok, Prod.mk.injEq] at heq
      obtain ⟨v, hv, v', hv', rfl, rfl⟩ := heq
      obtain ⟨z, rfl, hz⟩ := expr_same h (fun _ _ h => h) hda (fun r hr => hN _ (.inl (href a r hr))) (fun _ _ h => h) hx hv
      obtain ⟨z', rfl, hz'⟩ := expr_same h (fun _ _ h => h) hdb (fun r hr => hN _ (.inr (href b r hr))) (fun _ _ h => h) hy hv'
      simp only [relHolds, Except.ok.injEq, hz, hz'] at hp
      rw [← hp, ← hcc]
      rfl

theorem wLookPieces_var {depth : Nat} {L : List Name} {D : List VKey} {C : List Name} {ps : List Piece} {A : List VarRef}
    (h : wLookPiecesOk depth L D C ps A = true) {p : Piece} (hp : p ∈ ps) {v : VarRef}
    (hv : v ∈ (match p.op with | .put _ v _ | .refuse _ v => [v] | .check => [])) : v ∈ p.e.vars ∧ v.name ∉ L := by
  induction ps generalizing A with
  | nil => cases hp
  | cons q ps ih =>
    simp only [wLookPiecesOk, Bool.and_eq_true] at h
    obtain ⟨⟨⟨⟨h1, h2⟩, h3⟩, h4⟩, h5⟩ := h
    rcases List.mem_cons.1 hp with rfl | hp
    · have hm : v ∈ p.e.vars := by
        simp only [wPieceOk, Bool.and_eq_true] at h1
        have h1 := h1.2
        cases ho : p.op with
        | check => rw [ho] at hv; cases hv
        | refuse g u =>
          rw [ho] at hv h1
          simp only [List.mem_singleton] at hv
          subst hv
          simpa using h1
        | put g u sol =>
          rw [ho] at hv h1
          simp only [List.mem_singleton] at hv
          subst hv
          simp only [Bool.and_eq_true] at h1
          simpa using h1.1
      refine ⟨hm, ?_⟩
      simp only [List.all_eq_true] at h3
      simpa using h3 v hm
    · exact ih h5 hp

/-- a variable written before a lookahead -/
theorem surely_fine {C : List Name} {b0 : CScope} {L : List Name} {S : WDone} {s s1 : FunSt} (hL : LvOk L s.lv) (hS : HasS S s) (hg : GoodW s.cur) (hs : s1.lv = s.lv)
    (hgr : GrowW s.cur s1.cur) {r : VarRef} (hC : r.name ∈ C) (hr : surely L S r = true) : Fine C b0 s1 r := by
  apply fine_of hC
  rw [hs, hgr.defs, hgr.pd]
  unfold surely at hr
  simp only [Bool.or_eq_true, List.contains_eq_mem, decide_eq_true_eq] at hr
  rcases hr with hr | hr
  · exact .inl fun hn => (hL.none.1 hn) hr
  · right
    unfold HasS FunSt.blocks at hS
    cases hS with
    | @cons x b l m h1 h2 =>
      simp only [List.find?_cons] at hr
      by_cases hd : r.key ∈ x.1
      · right
        simp only [hd, decide_true, decide_eq_true_eq] at hr
        obtain ⟨is, w, his, hw⟩ := h1.2 r hr
        obtain ⟨u, hu, _⟩ := hg.sound _ _ is w (idxs_length his) hw
        exact look_has hu
      · left
        rw [← h1.1]; exact hd

theorem surely_fine1 {C : List Name} {b0 : CScope} {L : List Name} {S : WDone} {ps : List VarRef} {s s1 : FunSt} (hL : LvOk L s.lv) (hS : HasS S s) (hg : GoodW s.cur)
    (hs : s1.lv = s.lv) (hgr : GrowW s.cur s1.cur) (hp : ∀ v ∈ ps, dHas (.var v.name) s.cur.pd = true) {r : VarRef} (hC : r.name ∈ C)
    (hr : surely L (addRefs ps S) r = true) : Fine C b0 s1 r := by
  unfold HasS FunSt.blocks at hS
  cases hS with
  | @cons x b l m h1 h2 =>
    apply fine_of hC
    rw [hs, hgr.defs, hgr.pd]
    unfold surely at hr
    simp only [Bool.or_eq_true, List.contains_eq_mem, decide_eq_true_eq, addRefs] at hr
    rcases hr with hr | hr
    · exact .inl fun hn => (hL.none.1 hn) hr
    · right
      simp only [List.find?_cons] at hr
      by_cases hd : r.key ∈ x.1
      · right
        simp only [hd, decide_true, decide_eq_true_eq, List.mem_append] at hr
        rcases hr with hr | hr
        · obtain ⟨is, w, his, hw⟩ := h1.2 r hr
          obtain ⟨u, hu, _⟩ := hg.sound _ _ is w (idxs_length his) hw
          exact look_has hu
        · exact hp r hr
      · left
        rw [← h1.1]; exact hd

theorem missAtom_some {r : Rel} {a b : Expr} {v : VarRef} (h : missAtom r a b = some v) :
    a = .var v ∧ ∃ x, b = .num x ∧ missFalse r x = true := by
  unfold missAtom at h
  split at h
  · split at h
    · rename_i hm
      simp only [Option.some.injEq] at h
      subst h
      exact ⟨rfl, _, rfl, hm⟩
    · cases h
  · cases h

/-- the number of a literal -/
theorem evC_num {s : FunSt} {x y : PyNum} (h : evC s (.num x) = .ok y) : y.val = x.val := by
  unfold evC at h
  cases x with
  | int n => simp only [cInt] at h; split at h <;> cases h; rfl
  | num v => cases h; rfl

/-- a comparison with a missing variable does not hold -/
theorem missAtom_fine {C : List Name} {b0 : CScope} {s : FunSt} (hB : LookB C s.cur) {r : Rel} {a b : Expr} {v : VarRef} (hm : missAtom r a b = some v)
    (hC : v.name ∈ C) (hcc : condC s (.cmp r a b) = .ok true) : Fine C b0 s v := by
  obtain ⟨rfl, x, rfl, hx⟩ := missAtom_some hm
  by_cases h1 : dGet v.name s.lv ≠ none ∨ v.key ∉ s.cur.defs ∨ dHas (.var v.name) s.cur.pd = true
  · exact fine_of hC h1
  · exfalso
    simp only [not_or, not_not, Bool.not_eq_true] at h1
    obtain ⟨g1, g2, g3⟩ := h1
    simp only [condC, cbind_ok'] at hcc
    obtain ⟨q, hq, hcc⟩ := hcc
    cases q with
    | false => simp at hcc
    | true =>
      simp only [if_true, cbind_ok'] at hcc
      obtain ⟨z, hz, y, hy, hcc⟩ := hcc
      simp only [CRes.ok.injEq] at hcc
      rw [evC_num hy] at hcc
      simp only [evC, cbind_ok'] at hz
      obtain ⟨w, hw, hz⟩ := hz
      unfold readRef at hw
      rw [g1] at hw
      simp only [FunSt.blocks, blockOf, if_pos g2, cbind_ok'] at hw
      obtain ⟨is, his, hw⟩ := hw
      rw [cIdxs_ok] at his
      have hlen := idxs_length his
      split at hw
      · rename_i t ht
        have hgt := hB.tree _ _ ht
        rw [vget_toPy (by rw [hlen]; exact hgt)] at hw
        have hcl : clook s.cur v.name v.idx.length is = some w := by
          unfold clook
          have e : ((v.name, v.idx.length) : VKey) = v.key := rfl
          rw [e, ht]
          exact find_some.2 hw
        rcases hB.sound _ _ is w hlen hcl hC with ⟨u, hu, _⟩ | ⟨_, hd⟩
        · rw [look_has hu] at g3; cases g3
        · obtain ⟨z', rfl, hz'⟩ := hd
          simp only [cNum, CRes.ok.injEq] at hz
          subst hz
          unfold missFalse at hx
          simp only [Bool.and_eq_true, Bool.not_eq_true'] at hx
          rcases hz' with hz' | hz' <;> rw [hz'] at hcc
          · rw [hx.1] at hcc; cases hcc
          · rw [hx.2] at hcc; cases hcc
      · split at hw <;> cases hw

theorem vars_names {e : Expr} {r : VarRef} (hr : r ∈ e.vars) : r.name ∈ exprNames e := by
  unfold exprNames
  refine List.mem_map.2 ⟨r, ?_, rfl⟩
  have : e.refs = e.vars := by
    clear hr
    induction e <;> simp_all [Expr.refs, Expr.vars]
  rw [this]; exact hr

theorem condVars_names {c : Cond} {r : VarRef} (hr : r ∈ condVars c) : r.name ∈ condNames c := by
  induction c with
  | cmp _ a b =>
    simp only [condVars, condNames, List.mem_append] at hr ⊢
    exact hr.imp vars_names vars_names
  | and a b i1 i2 | or a b i1 i2 =>
    simp only [condVars, condNames, List.mem_append] at hr ⊢
    exact hr.imp i1 i2

theorem exprNames_var {v : VarRef} : v.name ∈ exprNames (.var v) := by simp [exprNames, Expr.refs]

theorem needs_fine {C : List Name} {b0 : CScope} {s : FunSt} (hB : LookB C s.cur) {c : Cond} (hC : ∀ n ∈ condNames c, n ∈ C) (hcc : condC s c = .ok true) :
    ∀ v ∈ needs c, Fine C b0 s v := by
  induction c with
  | cmp r a b =>
    intro v hv
    simp only [needs, Option.mem_toList] at hv
    have hm : missAtom r a b = some v := hv
    refine missAtom_fine hB hm (hC _ ?_) hcc
    obtain ⟨rfl, _⟩ := missAtom_some hm
    simp only [condNames, List.mem_append]
    exact .inl exprNames_var
  | and a b i1 i2 =>
    simp only [condNames, List.mem_append] at hC
    simp only [condC, cbind_ok'] at hcc
    obtain ⟨q, hq, hcc⟩ := hcc
    cases q with
    | false => simp at hcc
    | true =>
      simp only [if_true] at hcc
      intro v hv
      rcases List.mem_append.1 hv with hv | hv
      · exact i1 (fun n hn => hC n (.inl hn)) hq v hv
      · exact i2 (fun n hn => hC n (.inr hn)) hcc v hv
  | or a b i1 i2 =>
    simp only [condNames, List.mem_append] at hC
    simp only [condC, cbind_ok'] at hcc
    obtain ⟨q, hq, hcc⟩ := hcc
    intro v hv
    simp only [needs, List.mem_filter, List.contains_eq_mem, decide_eq_true_eq] at hv
    cases q with
    | true => exact i1 (fun n hn => hC n (.inl hn)) hq v hv.1
    | false =>
      simp only [Bool.false_eq_true, if_false] at hcc
      exact i2 (fun n hn => hC n (.inr hn)) hcc v hv.2

/-- a condition that holds behind a lookahead holds in the interpreter -/
theorem look_true {N : List Name} {top : DDic} {L : List Name} {d : DDic} {us : List DDic} {s1 : FunSt} {C : List Name} {b0 : CScope} {S S1 : WDone}
    (h : EnvW N top L d us (knownSt C b0 s1)) (hB : LookB C s1.cur) (hfine : ∀ r, r.name ∈ C → surely L S r = true → Fine C b0 s1 r) {c : Cond} {K : List VarRef}
    (hC : ∀ n ∈ condNames c, n ∈ C) (hok : wLookCondOk L S S1 c K = true) (hK : ∀ v ∈ K, Fine C b0 s1 v) (hN : ∀ n ∈ condNames c, n ∈ N)
    {fuel : Nat} {t : Bool} (hp : evalCond fuel ⟨d, us, s1.lv⟩ c = .ok t) (hcc : condC s1 c = .ok true) : t = true := by
  induction c generalizing K t with
  | cmp r a b =>
    simp only [wLookCondOk, Bool.and_eq_true, Bool.or_eq_true, List.all_eq_true, List.contains_eq_mem, decide_eq_true_eq] at hok
    obtain ⟨⟨⟨o1, o2⟩, o3⟩, o4⟩ := hok
    have hfi : ∀ v ∈ condVars (.cmp r a b), Fine C b0 s1 v := by
      rcases o4 with o4 | o4
      · intro v hm
        rcases o4 v hm with hv | hv
        · exact hfine v (hC _ (condVars_names hm)) hv
        · exact hK v hv
      · obtain ⟨v, hv⟩ := Option.isSome_iff_exists.1 o4
        have hf := missAtom_fine (b0 := b0) hB hv (hC _ (by
          obtain ⟨rfl, _⟩ := missAtom_some hv
          simp only [condNames, List.mem_append]
          exact .inl exprNames_var)) hcc
        obtain ⟨rfl, x, rfl, _⟩ := missAtom_some hv
        intro u hu
        simp only [condVars, Expr.vars, List.append_nil, List.mem_singleton] at hu
        subst hu
        exact hf
    rw [condC_fine hfi] at hcc
    exact cmp_true h o1 o2 hN hp hcc
  | and a b i1 i2 =>
    simp only [wLookCondOk, Bool.and_eq_true] at hok
    simp only [condNames, List.mem_append] at hN hC
    simp only [condC, cbind_ok'] at hcc
    obtain ⟨q, hq, hcc⟩ := hcc
    simp only [evalCond, bind_ok] at hp
    obtain ⟨q', hq', hp⟩ := hp
    cases q with
    | false => simp at hcc
    | true =>
      simp only [if_true] at hcc
      have n1 := needs_fine (b0 := b0) hB (fun n hn => hC n (.inl hn)) hq
      have n2 := needs_fine (b0 := b0) hB (fun n hn => hC n (.inr hn)) hcc
      have := i1 (fun n hn => hC n (.inl hn)) hok.1 (fun v hv => by
        rcases List.mem_append.1 hv with hv | hv
        · exact hK v hv
        · exact n2 v hv) (fun n hn => hN n (.inl hn)) hq' hq
      subst this
      simp only [Bool.true_eq_false, if_false] at hp
      exact i2 (fun n hn => hC n (.inr hn)) hok.2 (fun v hv => by
        rcases List.mem_append.1 hv with hv | hv
        · exact hK v hv
        · exact n1 v hv) (fun n hn => hN n (.inr hn)) hp hcc
  | or a b i1 i2 =>
    simp only [wLookCondOk, Bool.and_eq_true] at hok
    simp only [condNames, List.mem_append] at hN hC
    simp only [condC, cbind_ok'] at hcc
    obtain ⟨q, hq, hcc⟩ := hcc
    simp only [evalCond, bind_ok] at hp
    obtain ⟨q', hq', hp⟩ := hp
    cases q' with
    | true => simp only [if_true, pure_ok] at hp; exact hp.symm
    | false =>
      simp only [Bool.false_eq_true, if_false] at hp
      cases q with
      | true => have := i1 (fun n hn => hC n (.inl hn)) hok.1 hK (fun n hn => hN n (.inl hn)) hq' hq; cases this
      | false =>
        simp only [Bool.false_eq_true, if_false] at hcc
        exact i2 (fun n hn => hC n (.inr hn)) hok.2 hK (fun n hn => hN n (.inr hn)) hp hcc

theorem wLookCond_cond {L : List Name} {S S1 : WDone} {c : Cond} {K : List VarRef} (h : wLookCondOk L S S1 c K = true) :
    wCondOk L S1 c = true ∧ ∀ r ∈ condVars c, surely L S1 r = true := by
  induction c generalizing K with
  | cmp r a b =>
    simp only [wLookCondOk, Bool.and_eq_true, List.all_eq_true] at h
    obtain ⟨⟨⟨o1, o2⟩, o3⟩, _⟩ := h
    simp only [List.mem_append] at o3
    refine ⟨?_, fun v hv => o3 v (by simpa [condVars] using hv)⟩
    simp only [wCondOk, Bool.and_eq_true, List.all_eq_true]
    exact ⟨⟨o1, o2⟩, fun v hv => o3 v (.inl hv)⟩
  | and a b i1 i2 | or a b i1 i2 =>
    simp only [wLookCondOk, Bool.and_eq_true] at h
    obtain ⟨a1, a2⟩ := i1 h.1
    obtain ⟨b1, b2⟩ := i2 h.2
    refine ⟨by simp only [wCondOk, a1, b1, Bool.and_self], fun v hv => ?_⟩
    simp only [condVars, List.mem_append] at hv
    exact hv.elim (a2 v) (b2 v)

/-- The condition behind a lookahead.  If it holds in the interpreter, the variables of the records looked at are in the dictionary
(`hpres`), since these records are written. -/
theorem look_same {N : List Name} {top : DDic} {L : List Name} {d : DDic} {us : List DDic} {s s1 : FunSt} (h : EnvW N top L d us s)
    {S : WDone} (hS : HasS S s) {depth : Nat} {steps : List (List Piece)} {c : Cond} (hgen : ∀ p ∈ steps.flatten, GenOf depth p)
    (hps : wLookPiecesOk depth L (curDefs S) (condNames c) steps.flatten (S.headD ([], [])).2 = true)
    (hok : wLookCondOk L S (addRefs (foundRefs c steps) S) c [] = true) (hN : ∀ n ∈ condNames c, n ∈ N)
    (hc : lookStepsD steps s = .ok s1) {fuel : Nat} {t t' : Bool}
    (hpres : t = true → ∀ v ∈ putRefs steps.flatten, dHas (.var v.name) s.cur.pd = true)
    (hp : evalCond fuel ⟨d, us, s.lv⟩ c = .ok t) (hcc : condC s1 c = .ok t') : t = t' := by
  rw [lookStepsD_flat] at hc
  have hgc := h.good s.cur (by simp [FunSt.blocks])
  obtain ⟨⟨b, rfl⟩, a2, a3, a4⟩ := lookPiecesD_step hgen hps hS.defs.symm h.lv (fun b hb => h.good b (List.mem_cons_of_mem _ hb)) (hgc.lookB _) hgc rfl h.pos
    (fun v hv => by
      unfold HasS FunSt.blocks at hS
      cases hS with
      | cons h1 h2 => exact h1.2 v hv) hc
  have hpd : b.pd = s.cur.pd := a3.pd
  have hstay : Stay s (knownSt (condNames c) s.cur { s with cur := b }) := ⟨⟨rfl, a2.known hgc hpd, a3.known _ hgc⟩, rfl⟩
  have hfound : ∀ v ∈ foundRefs c steps, v ∈ putRefs steps.flatten ∧ v.name ∈ condNames c := by
    intro v hv
    simpa [foundRefs] using hv
  have hE := h.stay hstay
  cases t with
  | true =>
    have hf : ∀ r ∈ condVars c, Fine (condNames c) s.cur { s with cur := b } r := fun r hr =>
      surely_fine1 (s := s) (s1 := { s with cur := b }) h.lv hS hgc rfl a3 (fun v hv => hpres rfl v (hfound v hv).1) (condVars_names hr)
        ((wLookCond_cond hok).2 r hr)
    rw [condC_fine hf] at hcc
    have hS1 : HasS (addRefs (foundRefs c steps) S) (knownSt (condNames c) s.cur { s with cur := b }) := by
      refine (hS.stay hstay.toStayX fun _ _ h => h).add fun r hr => ?_
      obtain ⟨is, w, his, hw⟩ := a4 r (hfound r hr).1
      refine ⟨is, w, his, ?_⟩
      show clook (knownB (condNames c) s.cur b) _ _ _ = _
      rw [knownB_look, if_pos (hfound r hr).2, if_pos (by rw [hpd]; exact hpres rfl r (hfound r hr).1)]
      exact hw
    exact cond_same hE hS1 (wLookCond_cond hok).1 hN hp hcc
  | false =>
    cases t' with
    | false => rfl
    | true => exact look_true (s1 := { s with cur := b }) hE a2 (fun r hC hr => surely_fine (s1 := { s with cur := b }) h.lv hS hgc rfl a3 hC hr) (fun _ h => h) hok (by simp) hN hp hcc

end Verif
