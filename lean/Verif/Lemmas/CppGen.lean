import Verif.Spec.CppOk

/-! What the generator makes of the fields of a record. -/

namespace Verif
open Spec

/-- the loop variables have values, other names in the table have not -/
def LvOk (L : List Name) (lv : Dict Name Int) : Prop :=
  (∀ n, n ∈ L → ∃ i, dGet n lv = some i) ∧ ∀ n, n ∉ L → dGet n lv = none

theorem LvOk.none {L : List Name} {lv : Dict Name Int} (h : LvOk L lv) {n : Name} : dGet n lv = none ↔ n ∉ L := by
  refine ⟨fun hn hc => ?_, h.2 n⟩
  obtain ⟨i, hi⟩ := h.1 n hc
  rw [hn] at hi; cases hi

/-- where a piece comes from -/
def GenOf (depth : Nat) (p : Piece) : Prop :=
  match p.op with
  | .put _ v sol => solFor depth p.e v = .ok sol
  | _ => True

theorem pieceOk_stat {Γ : Kinds} {depth : Nat} {L : List Name} {D : List VKey} {lv : Dict Name Int} {p : Piece}
    (hL : LvOk L lv) (hgen : GenOf depth p) (h : pieceOk Γ depth L D p = true) : PieceStat Γ depth lv D p := by
  unfold pieceOk at h
  simp only [Bool.and_eq_true, List.all_eq_true, decide_eq_true_eq] at h
  obtain ⟨⟨⟨⟨h1, h2⟩, h3⟩, h4⟩, h5⟩ := h
  have hloop : ∀ r : VarRef, L.contains r.name = true ↔ dGet r.name lv ≠ none := by
    intro r
    rw [Ne, hL.none, not_not]; simp
  have href : ∀ r ∈ p.e.vars, RefOk Γ lv p.kind r ∧
      (dGet r.name lv = none → r.key ∈ D ∧ ∀ i, Idx.num i ∈ r.idx → 0 ≤ i) := by
    intro r hr
    have := h1 r hr
    unfold refOk at this
    split at this
    · rename_i hc
      have hc' := (hloop r).1 hc
      cases hg : dGet r.name lv with
      | none => exact absurd hg hc'
      | some i => exact ⟨.inl ⟨i, hg, by simpa using this⟩, fun h => by cases h⟩
    · rename_i hc
      have hn : dGet r.name lv = none := by
        by_contra hne; exact hc ((hloop r).2 hne)
      simp only [Bool.and_eq_true, decide_eq_true_eq, List.contains_iff_mem, List.all_eq_true] at this
      refine ⟨.inr ⟨hn, this.1.1⟩, fun _ => ⟨this.1.2, fun i hi => ?_⟩⟩
      have := this.2 _ hi
      simpa [idxOk] using this
  have hcpp : ∀ r ∈ p.e.vars, r.xvar.name ≠ cppVal.name := by
    intro r hr hc
    exact h4 r hr (String.toList_injective hc)
  refine ⟨⟨fun r hr => (href r hr).1, ?_⟩, fun r hr => (href r hr).2, h3, hcpp, ?_⟩
  · simp only [Bool.or_eq_true, List.isEmpty_iff] at h2
    rcases h2 with h2 | h2
    · exact .inl h2
    · split at h2
      · rename_i hk
        simp only [Bool.and_eq_true, Option.isSome_iff_exists] at h2
        exact .inr (.inl ⟨hk, h2.1, h2.2⟩)
      · rename_i hk
        refine .inr (.inr ⟨by simpa using hk, ?_⟩)
        unfold loneVar at h2
        split at h2
        · rename_i r he
          refine ⟨r, .inl he, ?_⟩
          rw [hL.none]; simpa using h2
        · rename_i r he
          refine ⟨r, .inr he, ?_⟩
          rw [hL.none]; simpa using h2
        · cases h2
  · unfold GenOf at hgen
    cases hop : p.op with
    | check => rw [hop] at h5; simpa using h5
    | refuse g v => trivial
    | put g v sol =>
      rw [hop] at h5 hgen
      simp only [Bool.and_eq_true, List.contains_iff_mem] at h5
      obtain ⟨hv, h5⟩ := h5
      refine ⟨hv, fun hne => ?_, fun hn => ?_⟩
      · rw [if_pos (by simpa using (hloop v).2 hne)] at h5
        exact h5
      · rw [if_neg (by simpa using hL.none.1 hn)] at h5
        simp only [Bool.and_eq_true, List.all_eq_true, Bool.or_eq_true, decide_eq_true_eq, List.contains_iff_mem] at h5
        obtain ⟨h5, h6⟩ := h5
        refine ⟨fun r hr hrn => ?_, fun hk => ?_, fun hk => ?_⟩
        · rcases h5 r hr with (h | h) | h
          · exact absurd h (hL.none.1 hrn)
          · exact .inl h
          · exact .inr h
        · rw [if_pos hk] at h6
          simp only [Bool.and_eq_true] at h6
          refine ⟨h6.1, ?_⟩
          have h7 := h6.2
          cases hx : p.e.toX with
          | none => rw [hx] at h7; cases h7
          | some x =>
            rw [hx] at h7
            dsimp only at h7
            cases hva : varAssign true depth x v.xvar with
            | error e => rw [hva] at h7; cases h7
            | ok q =>
              obtain ⟨l, sol'⟩ := q
              let S : XVar → Prop := fun y => y = cppVal ∨ ∃ r ∈ p.e.vars, r.xvar = y
              have hS : OneIdx S := by
                intro a b ha hb hab
                rcases ha with rfl | ⟨r, hr, rfl⟩ <;> rcases hb with rfl | ⟨r', hr', rfl⟩
                · rfl
                · exact absurd hab.symm (hcpp r' hr')
                · exact absurd hab (hcpp r hr)
                · rw [h3 r hr r' hr' (String.toList_injective hab)]
              have := (C63_partial S hS depth x v.xvar (toX_good hx fun r hr => .inr ⟨r, hr, rfl⟩) (.inr ⟨v, hv, rfl⟩) (.inl rfl)
                (fun h => hcpp v hv (by rw [h])) l sol' hva).1
              unfold solFor at hgen
              rw [hx] at hgen
              dsimp only at hgen
              rw [this] at hgen
              cases hgen
              exact ⟨x, l, rfl, hva⟩
        · rw [if_neg (by simp [hk])] at h6
          unfold isCppVal at h6
          split at h6
          · rw [of_decide_eq_true h6]
          · cases h6

/-! ### the generator -/

theorem vfind_vreg {x : VDef} {k : VKey} : ∀ {ds : VDicts}, (vfind k ds).isSome = true → (vfind k (vreg x ds)).isSome = true
  | [], h => h
  | d :: ds, h => by
    unfold vreg
    simp only [vfind] at h ⊢
    by_cases hx : (d.any fun y => decide (y.key = x.key)) = true
    · rw [if_pos hx]; exact h
    · rw [if_neg hx, List.find?_append]
      cases hf : d.find? (fun y => decide (y.key = k)) with
      | some y => simp
      | none =>
        rw [hf] at h
        dsimp only at h
        cases hf' : [x].find? (fun y => decide (y.key = k)) with
        | none => simpa using h
        | some y => simp

theorem mem_insVar {r x : VarRef} : ∀ {l : List VarRef}, x ∈ insVar r l ↔ x = r ∨ x ∈ l
  | [] => by simp [insVar]
  | y :: ys => by
    unfold insVar
    split
    · simp
    · simp only [List.mem_cons, mem_insVar (l := ys)]; tauto

theorem mem_sortVars {x : VarRef} : ∀ {l : List VarRef}, x ∈ sortVars l ↔ x ∈ l
  | [] => by simp [sortVars]
  | y :: ys => by simp [sortVars, mem_insVar, mem_sortVars (l := ys)]

theorem mem_dedupVars {x : VarRef} {l : List VarRef} (h : x ∈ dedupVars l) : x ∈ l := by
  induction l with
  | nil => cases h
  | cons y ys ih =>
    simp only [dedupVars, List.mem_cons, List.mem_filter] at h
    rcases h with rfl | h
    · simp
    · exact List.mem_cons_of_mem _ (ih h.1)

theorem dedupVars_ne {l : List VarRef} (h : l ≠ []) : dedupVars l ≠ [] := by
  cases l with
  | nil => exact absurd rfl h
  | cons y ys => simp [dedupVars]

theorem dedupVars_keys {l : List VarRef} : ((dedupVars l).map VarRef.key).Nodup := by
  induction l with
  | nil => simp [dedupVars]
  | cons y ys ih =>
    simp only [dedupVars, List.map_cons, List.nodup_cons]
    refine ⟨?_, ih.sublist (List.filter_sublist.map _)⟩
    simp

theorem genVars_spec {depth fld : Nat} {kind : CKind} {e : Expr} {tc : Bool} {all : List VarRef} {vs : List VarRef} {ds ds' : VDicts}
    {ps : List Piece} (h : genVars depth fld kind e tc all vs ds = (ds', .ok ps)) :
    (∀ p ∈ ps, p.fld = fld ∧ p.kind = kind ∧ p.e = e ∧ GenOf depth p) ∧
    ((∃ v ∈ vs, ∀ w ∈ all, w.key ≠ v.key → (vfind w.key ds).isSome = true) → ps ≠ []) := by
  induction vs generalizing ds ps ds' with
  | nil =>
    simp only [genVars, Prod.mk.injEq, Except.ok.injEq] at h
    obtain ⟨-, rfl⟩ := h
    exact ⟨by simp, by rintro ⟨v, hv, _⟩; cases hv⟩
  | cons v vs ih =>
    simp only [genVars] at h
    split at h
    · rename_i hc
      obtain ⟨a1, a2⟩ := ih h
      refine ⟨a1, ?_⟩
      rintro ⟨u, hu, hk⟩
      refine a2 ⟨u, ?_, hk⟩
      rcases List.mem_cons.1 hu with rfl | hu
      · exfalso
        simp only [List.any_eq_true, List.mem_filter, decide_eq_true_eq, Option.isNone_iff_eq_none] at hc
        obtain ⟨w, ⟨hw, hne⟩, hwn⟩ := hc
        have := hk w hw hne
        rw [hwn] at this; cases this
      · exact hu
    · split at h
      · rename_i sol hsol
        split at h
        · rename_i ds2 ps' hg
          cases h
          obtain ⟨a1, a2⟩ := ih hg
          refine ⟨?_, by simp⟩
          intro p hp
          rcases List.mem_cons.1 hp with rfl | hp
          · exact ⟨rfl, rfl, rfl, hsol⟩
          · exact a1 p hp
        · rename_i hne
          rw [h] at hne
          exact absurd rfl (hne _ _)
      · split at h
        · split at h
          · rename_i ds2 ps' hg
            cases h
            obtain ⟨a1, a2⟩ := ih hg
            refine ⟨?_, by simp⟩
            intro p hp
            rcases List.mem_cons.1 hp with rfl | hp
            · exact ⟨rfl, rfl, rfl, trivial⟩
            · exact a1 p hp
          · rename_i hne
            rw [h] at hne
            exact absurd rfl (hne _ _)
        · cases h

theorem genField_spec {depth fld : Nat} {kind : CKind} {e : Expr} {tc : Bool} {ds ds' : VDicts} {ps : List Piece}
    (h : genField depth fld kind e tc ds = (ds', .ok ps)) :
    (∀ p ∈ ps, p.fld = fld ∧ p.kind = kind ∧ p.e = e ∧ GenOf depth p) ∧ ps ≠ [] := by
  unfold genField at h
  split at h
  · cases h
  · dsimp only at h
    split at h
    · cases h
      refine ⟨?_, by simp⟩
      intro p hp
      rw [List.mem_singleton] at hp
      subst hp
      exact ⟨rfl, rfl, rfl, trivial⟩
    · rename_i hne
      split at h
      · cases h
      · rename_i hlen
        obtain ⟨a1, a2⟩ := genVars_spec h
        refine ⟨a1, a2 ?_⟩
        -- all but at most one of the variables are known
        have hnd := dedupVars_keys (l := e.vars)
        generalize dedupVars e.vars = vs at *
        cases hf : vs.filter (fun v => (vfind v.key ds).isNone) with
        | nil =>
          cases vs with
          | nil => simp at hne
          | cons v vs =>
            refine ⟨v, mem_sortVars.2 (by simp), fun w hw _ => ?_⟩
            by_contra hc
            have : w ∈ (v :: vs).filter (fun v => (vfind v.key ds).isNone) := by
              rw [List.mem_filter]; exact ⟨hw, by simpa using hc⟩
            rw [hf] at this; cases this
        | cons u us =>
          rw [hf] at hlen
          have hus : us = [] := by
            cases us with
            | nil => rfl
            | cons _ _ => simp at hlen
          subst hus
          have hu : u ∈ vs := by
            have : u ∈ vs.filter (fun v => (vfind v.key ds).isNone) := by rw [hf]; simp
            exact (List.mem_filter.1 this).1
          refine ⟨u, mem_sortVars.2 hu, fun w hw hk => ?_⟩
          by_contra hc
          have : w ∈ vs.filter (fun v => (vfind v.key ds).isNone) := by
            rw [List.mem_filter]; exact ⟨hw, by simpa using hc⟩
          rw [hf, List.mem_singleton] at this
          exact hk (by rw [this])

theorem genFields_spec {depth fuel fails : Nat} {tc : Bool} {q : List (Nat × Expr)} {ds ds' : VDicts} {ps : List Piece}
    (h : genFields depth fuel fails tc q ds = some (ps, ds')) :
    (∀ p ∈ ps, (p.fld, p.e) ∈ q ∧ p.kind = (if p.fld < 2 then .flt else .int) ∧ GenOf depth p) ∧
    ∀ f ∈ q, ∃ p ∈ ps, p.fld = f.1 ∧ p.e = f.2 := by
  induction fuel generalizing fails tc q ds ps with
  | zero =>
    cases q with
    | nil => simp only [genFields, Option.some.injEq, Prod.mk.injEq] at h; obtain ⟨rfl, -⟩ := h; simp
    | cons f q => simp [genFields] at h
  | succ fuel ih =>
    cases q with
    | nil => simp only [genFields, Option.some.injEq, Prod.mk.injEq] at h; obtain ⟨rfl, -⟩ := h; simp
    | cons f q =>
      obtain ⟨i, e⟩ := f
      have hback : ∀ {fails tc ds}, genFields depth fuel fails tc (q ++ [(i, e)]) ds = some (ps, ds') →
          (∀ p ∈ ps, (p.fld, p.e) ∈ (i, e) :: q ∧ p.kind = (if p.fld < 2 then .flt else .int) ∧ GenOf depth p) ∧
          ∀ f ∈ (i, e) :: q, ∃ p ∈ ps, p.fld = f.1 ∧ p.e = f.2 := by
        intro fails tc ds h
        obtain ⟨a1, a2⟩ := ih h
        refine ⟨fun p hp => ⟨?_, (a1 p hp).2⟩, fun f hf => a2 f ?_⟩
        · have := (a1 p hp).1
          simp only [List.mem_append, List.mem_singleton, List.mem_cons] at this ⊢
          tauto
        · simp only [List.mem_append, List.mem_singleton, List.mem_cons] at hf ⊢
          tauto
      simp only [genFields] at h
      split at h
      · rename_i ds1 ps1 hg
        obtain ⟨b1, b2⟩ := genField_spec hg
        cases hr : genFields depth fuel fails tc q ds1 with
        | none => rw [hr] at h; cases h
        | some r =>
          obtain ⟨ps2, ds2⟩ := r
          rw [hr] at h
          cases h
          obtain ⟨a1, a2⟩ := ih hr
          refine ⟨fun p hp => ?_, fun f hf => ?_⟩
          · rcases List.mem_append.1 hp with hp | hp
            · obtain ⟨c1, c2, c3, c4⟩ := b1 p hp
              refine ⟨?_, by rw [c2, c1], c4⟩
              rw [c1, c3]; simp
            · exact ⟨List.mem_cons_of_mem _ (a1 p hp).1, (a1 p hp).2⟩
          · rcases List.mem_cons.1 hf with rfl | hf
            · obtain ⟨p, ps1', rfl⟩ := List.exists_cons_of_ne_nil b2
              exact ⟨p, by simp, (b1 p (by simp)).1, (b1 p (by simp)).2.2.1⟩
            · obtain ⟨p, hp, hpf⟩ := a2 f hf
              exact ⟨p, List.mem_append_right _ hp, hpf⟩
      · split at h
        · cases h
        · exact hback h
      · exact hback h
      · exact hback h
      · cases h

theorem genRecord_spec {depth ofs : Nat} {skip : List Nat} {fs : List Expr} {ds ds' : VDicts} {ps : List Piece}
    (h : genRecord depth ofs skip fs ds = some (ps, ds')) :
    (∀ p ∈ ps, p.fld ∉ skip ∧ ofs ≤ p.fld ∧ fs[p.fld - ofs]? = some p.e ∧ p.kind = (if p.fld < 2 then .flt else .int) ∧ GenOf depth p) ∧
    ∀ i e, i + ofs ∉ skip → fs[i]? = some e → ∃ p ∈ ps, p.fld = i + ofs ∧ p.e = e := by
  unfold genRecord at h
  obtain ⟨a1, a2⟩ := genFields_spec h
  refine ⟨fun p hp => ?_, fun i e hi he => ?_⟩
  · obtain ⟨b1, b2, b3⟩ := a1 p hp
    rw [List.mem_filterMap] at b1
    obtain ⟨⟨e, i⟩, hm, hsome⟩ := b1
    dsimp only at hsome
    split at hsome
    · cases hsome
    · rename_i hns
      simp only [Option.some.injEq, Prod.mk.injEq] at hsome
      obtain ⟨rfl, rfl⟩ := hsome
      have := List.mk_mem_zipIdx_iff_le_and_getElem?_sub.1 hm
      exact ⟨hns, this.1, this.2, b2, b3⟩
  · refine a2 (i + ofs, e) ?_
    rw [List.mem_filterMap]
    refine ⟨(e, i + ofs), ?_, by dsimp only; rw [if_neg hi]⟩
    rw [List.mk_mem_zipIdx_iff_le_and_getElem?_sub]
    exact ⟨by omega, by rw [Nat.add_sub_cancel]; exact he⟩

theorem genCols_spec {depth : Nat} {cs : List (Nat × CKind × VarRef)} {ds ds' : VDicts} {ps : List Piece}
    (h : genCols depth cs ds = some (ps, ds')) :
    (∀ p ∈ ps, GenOf depth p ∧ ∃ r, p.e = .var r ∧ (p.fld, p.kind, r) ∈ cs) ∧
    ∀ i k r, (i, k, r) ∈ cs → ∃ p ∈ ps, p.fld = i ∧ p.kind = k ∧ p.e = .var r := by
  induction cs generalizing ds ps with
  | nil => simp only [genCols, Option.some.injEq, Prod.mk.injEq] at h; obtain ⟨rfl, -⟩ := h; simp
  | cons f cs ih =>
    obtain ⟨i, k, r⟩ := f
    simp only [genCols] at h
    split at h
    · rename_i ds1 ps1 hg
      obtain ⟨b1, b2⟩ := genField_spec hg
      cases hr : genCols depth cs ds1 with
      | none => rw [hr] at h; cases h
      | some q =>
        obtain ⟨ps2, ds2⟩ := q
        rw [hr] at h
        cases h
        obtain ⟨a1, a2⟩ := ih hr
        refine ⟨fun p hp => ?_, fun i' k' r' hf => ?_⟩
        · rcases List.mem_append.1 hp with hp | hp
          · obtain ⟨c1, c2, c3, c4⟩ := b1 p hp
            exact ⟨c4, r, c3, by rw [c1, c2]; simp⟩
          · obtain ⟨d1, r', d2, d3⟩ := a1 p hp
            exact ⟨d1, r', d2, List.mem_cons_of_mem _ d3⟩
        · rcases List.mem_cons.1 hf with hf | hf
          · cases hf
            obtain ⟨p, ps1', rfl⟩ := List.exists_cons_of_ne_nil b2
            exact ⟨p, by simp, (b1 p (by simp)).1, (b1 p (by simp)).2.1, (b1 p (by simp)).2.2.1⟩
          · obtain ⟨p, hp, hpf⟩ := a2 i' k' r' hf
            exact ⟨p, List.mem_append_right _ hp, hpf⟩
    · cases h

end Verif
