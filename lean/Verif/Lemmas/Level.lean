import Verif.Lemmas.Assign
import Verif.Spec.Run
import Verif.Props.Records
/-
Lemmas on the dictionaries the interpreter works on.
-/
namespace Verif
open Spec

theorem dDel_subset {κ α : Type} [DecidableEq κ] (k k' : κ) (d : Dict κ α) : k' ∈ dKeys (dDel k d) → k' ∈ dKeys d := by
  induction d with
  | nil => simp [dDel]
  | cons p d ih =>
    obtain ⟨a, b⟩ := p
    simp only [dDel]
    split
    · intro h; simp only [dKeys, List.map_cons, List.mem_cons]; exact .inr h
    · intro h
      simp only [dKeys, List.map_cons, List.mem_cons] at h ⊢
      rcases h with h | h
      · exact .inl h
      · exact .inr (ih h)

theorem dDel_nodup {κ α : Type} [DecidableEq κ] {k : κ} {d : Dict κ α} (h : DNodup d) : DNodup (dDel k d) := by
  induction d with
  | nil => exact h
  | cons p d ih =>
    obtain ⟨a, b⟩ := p
    unfold DNodup dKeys at h
    rw [List.map_cons, List.nodup_cons] at h
    simp only [dDel]
    split
    · exact h.2
    · unfold DNodup dKeys
      rw [List.map_cons, List.nodup_cons]
      exact ⟨fun hm => h.1 (dDel_subset k a d hm), ih h.2⟩

theorem dSet_dSet {κ α : Type} [DecidableEq κ] (k : κ) (v w : α) (d : Dict κ α) : dSet k v (dSet k w d) = dSet k v d := by
  induction d with
  | nil => simp [dSet]
  | cons p d ih =>
    obtain ⟨a, b⟩ := p
    simp only [dSet]
    by_cases h : a = k
    · subst h; simp [dSet]
    · simp [h, dSet, ih]

theorem dDel_dSet {κ α : Type} [DecidableEq κ] {k : κ} (v : α) {d : Dict κ α} (h : dHas k d = false) :
    dDel k (dSet k v d) = d := by
  induction d with
  | nil => simp [dSet, dDel]
  | cons p d ih =>
    obtain ⟨a, b⟩ := p
    have ha : a ≠ k := by
      rintro rfl
      simp [dHas, dGet] at h
    have hd : dHas k d = false := by
      simpa [dHas, dGet, ha] using h
    simp only [dSet, if_neg ha, dDel, ih hd]

/-- State of a dictionary the interpreter works on.  `a` tells whether abbreviations may be present. -/
structure Lvl (a : Bool) (d : DDic) : Prop where
  nodup : DNodup d
  idx : ∀ i v, dGet (.idx i) d = some v → Clean v
  var : ∀ n v, dGet (.var n) d = some v → Clean v ∨
    (a = true ∧ (∃ e, v = .abb e) ∧ ∃ l, dGet .abbrevs d = some (.names l) ∧ n ∈ l)
  abbrevs : ∀ v, dGet .abbrevs d = some v → a = true ∧ ∃ l, v = .names l
  startidcs : ∀ v, dGet .startidcs d = some v → a = true

theorem Lvl.clean {d : DDic} (h : Lvl false d) : Clean (.dic (dDel .up d)) := by
  refine .dic _ (dDel_nodup h.nodup) ?_ ?_
  · intro k v hv hk
    rw [dGet_dDel h.nodup] at hv
    split at hv
    · cases hv
    · rename_i hne
      rcases hk with rfl | rfl | rfl
      · exact hne rfl
      · have := (h.abbrevs v hv).1; cases this
      · have := h.startidcs v hv; cases this
  · intro k v hv
    rw [dGet_dDel h.nodup] at hv
    split at hv
    · cases hv
    · rename_i hne
      cases k with
      | var n =>
        rcases h.var n v hv with h | ⟨h, -⟩
        · exact h
        · cases h
      | idx i => exact h.idx i v hv
      | up => exact absurd rfl hne
      | abbrevs => have := (h.abbrevs v hv).1; cases this
      | startidcs => have := h.startidcs v hv; cases this

theorem Lvl.of_clean {d : DDic} (h : Clean (.dic d)) : Lvl false d := by
  cases h with
  | dic _ h1 h2 h3 =>
    exact ⟨h1, fun i v hv => h3 _ _ hv, fun n v hv => .inl (h3 _ _ hv),
      fun v hv => absurd (.inr (.inl rfl)) (h2 _ _ hv), fun v hv => absurd (.inr (.inr rfl)) (h2 _ _ hv)⟩

theorem Lvl.set_up {a : Bool} {d : DDic} (h : Lvl a d) (v : Val) : Lvl a (dSet .up v d) := by
  have e : ∀ k, k ≠ Key.up → dGet k (dSet .up v d) = dGet k d := fun k hk => dGet_dSet_ne (Ne.symm hk) _ _
  refine ⟨dSet_nodup h.nodup, ?_, ?_, ?_, ?_⟩
  · intro i v hv; rw [e _ (by simp)] at hv; exact h.idx _ _ hv
  · intro n v hv; rw [e _ (by simp)] at hv; rw [e _ (by simp)]; exact h.var _ _ hv
  · intro v hv; rw [e _ (by simp)] at hv; exact h.abbrevs _ hv
  · intro v hv; rw [e _ (by simp)] at hv; exact h.startidcs _ hv

theorem Lvl.set_var {a : Bool} {d : DDic} (h : Lvl a d) (n : Name) {v : Val} (hv : Clean v) : Lvl a (dSet (.var n) v d) := by
  have e : ∀ k, k ≠ Key.var n → dGet k (dSet (.var n) v d) = dGet k d := fun k hk => dGet_dSet_ne (Ne.symm hk) _ _
  refine ⟨dSet_nodup h.nodup, ?_, ?_, ?_, ?_⟩
  · intro i v hv; rw [e _ (by simp)] at hv; exact h.idx _ _ hv
  · intro m w hw
    by_cases hm : m = n
    · subst hm; rw [dGet_dSet_self] at hw; cases hw; exact .inl hv
    · rw [e _ (by simpa using hm)] at hw; rw [e _ (by simp)]; exact h.var _ _ hw
  · intro v hv; rw [e _ (by simp)] at hv; exact h.abbrevs _ hv
  · intro v hv; rw [e _ (by simp)] at hv; exact h.startidcs _ hv

theorem setArr_clean {o : Option Val} {is : List Int} {w new : Val} (ho : ∀ d, o = some (.dic d) → Clean (.dic d))
    (hw : Clean w) (h : setArr o is w = .ok new) : Clean new := by
  induction is generalizing o new with
  | nil =>
    have : new = w := by
      cases o with
      | none => simp only [setArr, Except.ok.injEq] at h; exact h.symm
      | some v => cases v <;> simp only [setArr, Except.ok.injEq] at h <;> exact h.symm
    subst this; exact hw
  | cons i is ih =>
    cases o with
    | none =>
      simp only [setArr, bind_ok, pure_ok] at h
      obtain ⟨n, hn, rfl⟩ := h
      have hc := ih (by simp) hn
      refine .dic _ (by simp [dSet, DNodup, dKeys]) ?_ ?_
      · intro k v hv hk
        simp only [dSet, dGet] at hv
        split at hv
        · rename_i e; subst e; simp [Key.Internal] at hk
        · cases hv
      · intro k v hv
        simp only [dSet, dGet] at hv
        split at hv
        · cases hv; exact hc
        · cases hv
    | some u =>
      cases u with
      | dic d =>
        simp only [setArr, bind_ok, pure_ok] at h
        obtain ⟨n, hn, rfl⟩ := h
        have hd := ho d rfl
        cases hd with
        | dic _ h1 h2 h3 =>
          have hc := ih (fun d' hd' => h3 _ _ hd') hn
          refine .dic _ (dSet_nodup h1) ?_ ?_
          · intro k v hv hk
            rw [dGet_dSet] at hv
            split at hv
            · rename_i e; subst e; simp [Key.Internal] at hk
            · exact h2 _ _ hv hk
          · intro k v hv
            rw [dGet_dSet] at hv
            split at hv
            · cases hv; exact hc
            · exact h3 _ _ hv
      | _ => simp [setArr] at h

theorem Lvl.dic_clean {a : Bool} {d : DDic} (h : Lvl a d) {n : Name} {d' : DDic} (hd : dGet (.var n) d = some (.dic d')) :
    Clean (.dic d') := by
  rcases h.var _ _ hd with h1 | ⟨_, ⟨e, he⟩, _⟩
  · exact h1
  · cases he

theorem Lvl.setVarval {a : Bool} {d d' : DDic} (h : Lvl a d) {lv : Dict Name Int} {r : VarRef} {w : Val} (hw : Clean w)
    (hs : setVarval d lv r w = .ok d') : Lvl a d' ∧ dHas .up d' = dHas .up d := by
  unfold Verif.setVarval at hs
  simp only [bind_ok, pure_ok] at hs
  obtain ⟨is, _, new, hn, rfl⟩ := hs
  refine ⟨h.set_var _ (setArr_clean (fun d' hd => h.dic_clean hd) hw hn), ?_⟩
  simp only [dHas]; rw [dGet_dSet_ne (by simp)]

theorem solveField_clean {ci : Bool} {v : Lin} {x w : Val} (hx : Clean x) (h : solveField ci v x = .ok w) : Clean w := by
  unfold solveField at h
  split at h
  · split at h
    · cases h; exact hx
    · simp only [bind_ok, pure_ok] at h
      obtain ⟨_, _, _, _, _, _, rfl⟩ := h
      exact .num _
  · cases h

theorem mapOnce_lvl {a : Bool} {fuel : Nat} {po : POpts} {ups : List DDic} {lv : Dict Name Int} {fs : List (Expr × Val)}
    (hfs : ∀ p ∈ fs, Clean p.2) {d d' : DDic} {f f' : Bool} (h : Lvl a d)
    (hm : mapOnce fuel po ups lv fs d f = .ok (d', f')) : Lvl a d' ∧ dHas .up d' = dHas .up d := by
  induction fs generalizing d f with
  | nil => simp only [mapOnce, Except.ok.injEq, Prod.mk.injEq] at hm; rw [← hm.1]; exact ⟨h, rfl⟩
  | cons p fs ih =>
    obtain ⟨e, src⟩ := p
    have ih' := fun {d : DDic} {f : Bool} => ih (d := d) (f := f) (fun p hp => hfs p (List.mem_cons_of_mem _ hp))
    simp only [mapOnce] at hm
    split at hm
    · exact ih' h hm
    · cases hm
    · split at hm
      · split at hm
        · cases hm
        · split at hm
          · cases hm
          · exact ih' h hm
      · split at hm
        · cases hm
        · rename_i val hval
          split at hm
          · cases hm
          · rename_i cur' hset
            obtain ⟨g1, g2⟩ := h.setVarval (solveField_clean (hfs _ List.mem_cons_self) hval) hset
            obtain ⟨g3, g4⟩ := ih' g1 hm
            exact ⟨g3, g4.trans g2⟩

theorem mapTries_lvl {a : Bool} {fuel : Nat} {po : POpts} {ups : List DDic} {lv : Dict Name Int} {fs : List (Expr × Val)}
    (hfs : ∀ p ∈ fs, Clean p.2) (n : Nat) {d d' : DDic} (h : Lvl a d)
    (hm : mapTries fuel po ups lv fs n d = .ok d') : Lvl a d' ∧ dHas .up d' = dHas .up d := by
  induction n generalizing d with
  | zero => simp [mapTries] at hm
  | succ n ih =>
    simp only [mapTries] at hm
    split at hm
    · cases hm
    · rename_i c1 h1
      cases hm; exact mapOnce_lvl hfs h h1
    · rename_i c1 h1
      obtain ⟨g1, g2⟩ := mapOnce_lvl hfs h h1
      obtain ⟨g3, g4⟩ := ih g1 hm
      exact ⟨g3, g4.trans g2⟩

theorem mapRead_lvl {a : Bool} {fuel : Nat} {po : POpts} {ups : List DDic} {lv : Dict Name Int} {es : List Expr}
    {vals : List Val} (hfs : ∀ p ∈ vals, Clean p) {d d' : DDic} (h : Lvl a d)
    (hm : mapRead fuel po ups lv es vals d = .ok d') : Lvl a d' ∧ dHas .up d' = dHas .up d :=
  mapTries_lvl (fun p hp => hfs p.2 (List.of_mem_zip hp).2) 3 h hm

theorem mapTextRead_lvl {a : Bool} {lv : Dict Name Int} {full : Str} {fs : List TextField} {pos : Nat} {d d' : DDic}
    (h : Lvl a d) (hm : mapTextRead lv full fs pos d = .ok d') : Lvl a d' ∧ dHas .up d' = dHas .up d := by
  induction fs generalizing d pos with
  | nil => simp only [mapTextRead, Except.ok.injEq] at hm; rw [← hm]; exact ⟨h, rfl⟩
  | cons f fs ih =>
    have key : ∀ upper : Nat, (if upper ≤ pos then Except.error Err.sizeMismatch
        else match f.ref with
          | none => mapTextRead lv full fs upper d
          | some r => match setVarval d lv r (.txt (slice full pos upper)) with
            | .error e => .error e
            | .ok cur' => mapTextRead lv full fs upper cur') = .ok d' → Lvl a d' ∧ dHas .up d' = dHas .up d := by
      intro upper hm
      split at hm
      · cases hm
      · split at hm
        · exact ih h hm
        · split at hm
          · cases hm
          · rename_i cur' hset
            obtain ⟨g1, g2⟩ := h.setVarval (.txt _) hset
            obtain ⟨g3, g4⟩ := ih g1 hm
            exact ⟨g3, g4.trans g2⟩
    exact key _ hm

theorem setCtrl_lvl {a : Bool} {d : DDic} (h : Lvl a d) (k : Ctrl) :
    Lvl a (setCtrl k d) ∧ dHas .up (setCtrl k d) = dHas .up d := by
  refine ⟨((h.set_var _ (.num _)).set_var _ (.num _)).set_var _ (.num _), ?_⟩
  simp only [setCtrl, dHas]
  rw [dGet_dSet_ne (by simp), dGet_dSet_ne (by simp), dGet_dSet_ne (by simp)]

theorem subDic_clean {o : Option Val} {is : List Int} {d : DDic} (ho : ∀ d, o = some (.dic d) → Clean (.dic d))
    (h : subDic o is = .ok d) : Clean (.dic d) := by
  induction is generalizing o with
  | nil =>
    cases o with
    | none => simp only [subDic, Except.ok.injEq] at h; subst h; exact .dic _ (by simp [DNodup, dKeys]) (by simp [dGet]) (by simp [dGet])
    | some v => cases v <;> simp [subDic] at h; subst h; exact ho _ rfl
  | cons i is ih =>
    cases o with
    | none => simp only [subDic, Except.ok.injEq] at h; subst h; exact .dic _ (by simp [DNodup, dKeys]) (by simp [dGet]) (by simp [dGet])
    | some v =>
      cases v <;> simp [subDic] at h
      rename_i d'
      have := ho d' rfl
      cases this with
      | dic _ h1 h2 h3 => exact ih (fun d' hd => h3 _ _ hd) h

theorem initWork_lvl {d : DDic} (h : Lvl false d) : Lvl true (initWork d) := by
  unfold initWork
  have e : ∀ k, k ≠ Key.startidcs → k ≠ Key.abbrevs → dGet k (dSet .startidcs .mark (dSet .abbrevs (.names []) d)) = dGet k d :=
    fun k h1 h2 => by rw [dGet_dSet_ne (Ne.symm h1), dGet_dSet_ne (Ne.symm h2)]
  refine ⟨dSet_nodup (dSet_nodup h.nodup), ?_, ?_, ?_, ?_⟩
  · intro i v hv; rw [e _ (by simp) (by simp)] at hv; exact h.idx _ _ hv
  · intro n v hv
    rw [e _ (by simp) (by simp)] at hv
    rcases h.var _ _ hv with h | ⟨h, -⟩
    · exact .inl h
    · cases h
  · intro v hv
    rw [dGet_dSet_ne (by simp), dGet_dSet_self] at hv
    cases hv; exact ⟨rfl, _, rfl⟩
  · intro v _; rfl

theorem initWork_up (d : DDic) : dHas .up (initWork d) = dHas .up d := by
  unfold initWork dHas
  rw [dGet_dSet_ne (by simp), dGet_dSet_ne (by simp)]

theorem foldlM_delVar {l : List Name} {d d' : DDic} (hn : DNodup d) (h : l.foldlM delVar d = .ok d') :
    DNodup d' ∧ (∀ n ∈ l, dGet (.var n) d' = none) ∧ (∀ k v, dGet k d' = some v → dGet k d = some v) ∧
    dGet .abbrevs d' = dGet .abbrevs d ∧ dHas .up d' = dHas .up d := by
  induction l generalizing d with
  | nil =>
    simp only [List.foldlM_nil, pure_ok] at h; subst h
    exact ⟨hn, by simp, fun _ _ h => h, rfl, rfl⟩
  | cons m l ih =>
    simp only [List.foldlM_cons, bind_ok] at h
    obtain ⟨d1, h1, h⟩ := h
    unfold delVar at h1
    split at h1
    · cases h1
      obtain ⟨g1, g2, g3, g4, g5⟩ := ih (dDel_nodup hn) h
      refine ⟨g1, ?_, ?_, ?_, ?_⟩
      · intro n hm
        rcases List.mem_cons.1 hm with rfl | hm
        · by_contra hne
          obtain ⟨v, hv⟩ := Option.ne_none_iff_exists'.1 hne
          have := g3 _ _ hv
          rw [dGet_dDel hn, if_pos rfl] at this
          cases this
        · exact g2 n hm
      · intro k v hv
        have := g3 _ _ hv
        rw [dGet_dDel hn] at this
        split at this
        · cases this
        · exact this
      · rw [g4, dGet_dDel hn, if_neg (by simp)]
      · rw [g5]; unfold dHas; rw [dGet_dDel hn, if_neg (by simp)]
    · cases h1

theorem removeWork_lvl {d d' : DDic} (h : Lvl true d) (hr : removeWork d = .ok d') :
    Lvl false d' ∧ dHas .up d' = dHas .up d := by
  unfold removeWork at hr
  split at hr
  · rename_i l hl
    simp only [bind_ok, pure_ok] at hr
    obtain ⟨d1, h1, rfl⟩ := hr
    obtain ⟨g1, g2, g3, g4, g5⟩ := foldlM_delVar h.nodup h1
    have n2 := dDel_nodup (k := Key.abbrevs) g1
    have e : ∀ k, dGet k (dDel Key.startidcs (dDel Key.abbrevs d1)) =
        if Key.startidcs = k then none else if Key.abbrevs = k then none else dGet k d1 := by
      intro k; rw [dGet_dDel n2, dGet_dDel g1]
    refine ⟨⟨dDel_nodup n2, ?_, ?_, ?_, ?_⟩, ?_⟩
    · intro i v hv
      rw [e, if_neg (by simp), if_neg (by simp)] at hv
      exact h.idx _ _ (g3 _ _ hv)
    · intro n v hv
      rw [e, if_neg (by simp), if_neg (by simp)] at hv
      rcases h.var _ _ (g3 _ _ hv) with h2 | ⟨_, _, l', hl', hm⟩
      · exact .inl h2
      · rw [hl] at hl'; cases hl'
        rw [g2 n hm] at hv; cases hv
    · intro v hv; rw [e, if_neg (by simp), if_pos rfl] at hv; cases hv
    · intro v hv; rw [e, if_pos rfl] at hv; cases hv
    · rw [← g5]; unfold dHas; rw [e, if_neg (by simp), if_neg (by simp)]
  · cases hr

theorem introAbbr_lvl {d d' : DDic} (h : Lvl true d) {n : Name} {e : Expr} (hi : introAbbr d n e = .ok d') :
    Lvl true d' ∧ dHas .up d' = dHas .up d := by
  unfold introAbbr at hi
  dsimp only at hi
  generalize hl : abbrNames d = l at hi
  split at hi
  · cases hi
  · simp only [Except.ok.injEq] at hi
    generalize hl2 : (if l.contains n = true then l else l ++ [n]) = l2 at hi
    subst hi
    have hmem : ∀ m, m ∈ l → m ∈ l2 := by
      intro m hm; rw [← hl2]; split
      · exact hm
      · exact List.mem_append_left _ hm
    have hn : n ∈ l2 := by
      rw [← hl2]; split
      · rename_i hc; simpa using hc
      · simp
    have eA : dGet Key.abbrevs (dSet (Key.var n) (.abb e) (dSet .abbrevs (.names l2) d)) = some (.names l2) := by
      rw [dGet_dSet_ne (by simp), dGet_dSet_self]
    have eO : ∀ k, k ≠ Key.var n → k ≠ Key.abbrevs →
        dGet k (dSet (Key.var n) (.abb e) (dSet .abbrevs (.names l2) d)) = dGet k d :=
      fun k h1 h2 => by rw [dGet_dSet_ne (Ne.symm h1), dGet_dSet_ne (Ne.symm h2)]
    refine ⟨⟨dSet_nodup (dSet_nodup h.nodup), ?_, ?_, ?_, ?_⟩, ?_⟩
    · intro i v hv; rw [eO _ (by simp) (by simp)] at hv; exact h.idx _ _ hv
    · intro m v hv
      by_cases hm : m = n
      · subst hm
        rw [dGet_dSet_self] at hv; cases hv
        exact .inr ⟨rfl, ⟨e, rfl⟩, l2, eA, hn⟩
      · rw [eO _ (by simpa using hm) (by simp)] at hv
        rcases h.var _ _ hv with h2 | ⟨h1, h2, l', hl', hm'⟩
        · exact .inl h2
        · simp only [abbrNames, hl'] at hl
          refine .inr ⟨rfl, h2, l2, eA, hmem m ?_⟩
          rw [← hl]; exact hm'
    · intro v hv; rw [eA] at hv; cases hv; exact ⟨rfl, _, rfl⟩
    · intro v _; rfl
    · unfold dHas; rw [eO _ (by simp) (by simp)]

end Verif
