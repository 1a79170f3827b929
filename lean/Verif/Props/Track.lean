import Verif.Model.Track
import Verif.Props.UserTools
import Mathlib.Data.List.Induction
/-
C50: the test for complete retrieval.
-/
namespace Verif
open Spec

/-- the element `k` of the object at `p` was retrieved -/
def Spec.Retrieved (hist : List (List PKey)) (p : List PKey) (k : PKey) : Prop := ∃ h ∈ hist, (p ++ [k]) <+: h

/-- the rest of the paths that begin with `k` -/
def subH (k : PKey) (H : List (List PKey)) : List (List PKey) :=
  H.filterMap fun h => match h with
    | [] => none
    | k' :: p => if k' = k then some p else none

theorem mem_subH {k : PKey} {H : List (List PKey)} {p : List PKey} : p ∈ subH k H ↔ (k :: p) ∈ H := by
  simp only [subH, List.mem_filterMap]
  constructor
  · rintro ⟨h, hm, he⟩
    cases h with
    | nil => cases he
    | cons k' q =>
      simp only at he
      split at he
      · rename_i e; cases he; rw [← e]; exact hm
      · cases he
  · intro h; exact ⟨k :: p, h, by simp⟩

theorem subH_append (k : PKey) (H : List (List PKey)) (h : List PKey) : subH k (H ++ [h]) = subH k H ++ subH k [h] := by
  simp [subH, List.filterMap_append]

/-- state of the tracking object of a dictionary after `H` -/
theorem touch_dic (d : List (PKey × Obj)) (H : List (List PKey)) :
    ∃ acc subs, H.foldl (touch (.dic d)) (Trk.new (.dic d)) = .node acc subs ∧
      (∀ k, k ∈ acc ↔ k.isInt = true ∧ k ∈ dKeys d ∧ subH k H ≠ []) ∧
      ∀ k, dGet k subs = match dGet k d with
        | none => none
        | some v => if shouldTrack k v ∧ subH k H ≠ [] then some ((subH k H).foldl (touch v) (Trk.new v)) else none := by
  induction H using List.reverseRecOn with
  | nil =>
    refine ⟨[], [], rfl, by simp [subH], fun k => ?_⟩
    cases dGet k d <;> simp [subH, dGet]
  | append_singleton H h ih =>
    obtain ⟨acc, subs, h1, h2, h3⟩ := ih
    rw [List.foldl_append, h1]
    simp only [List.foldl_cons, List.foldl_nil]
    cases h with
    | nil =>
      refine ⟨acc, subs, by rw [touch], ?_, ?_⟩
      · intro k; rw [h2, subH_append]; simp [subH]
      · intro k; rw [h3, subH_append]; simp [subH]
    | cons k0 p =>
      have hsub : ∀ k, subH k (H ++ [k0 :: p]) = if k0 = k then subH k H ++ [p] else subH k H := by
        intro k
        rw [subH_append]
        by_cases e : k0 = k <;> simp [subH, e]
      rw [touch]
      cases hg : dGet k0 d with
      | none =>
        refine ⟨acc, subs, rfl, ?_, ?_⟩
        · intro k
          rw [h2, hsub]
          by_cases e : k0 = k
          · subst e
            have := (dGet_none_iff _ _).1 hg
            simp [this]
          · simp [e]
        · intro k
          rw [h3, hsub]
          by_cases e : k0 = k
          · subst e; rw [hg]
          · simp [e]
      | some v =>
        refine ⟨_, _, rfl, ?_, ?_⟩
        · intro k
          rw [hsub]
          have hk0 : k0 ∈ dKeys d := List.mem_map.2 ⟨_, dGet_mem hg, rfl⟩
          by_cases e : k0 = k
          · subst e
            cases hi : k0.isInt with
            | true => simp [hk0]
            | false => simp [h2, hi]
          · have e' : k ≠ k0 := fun x => e x.symm
            cases hi : k0.isInt with
            | true => simp [e, e', h2]
            | false => simp [e, h2]
        · intro k
          rw [hsub]
          by_cases e : k0 = k
          · subst e
            rw [hg]
            dsimp only
            cases ht : shouldTrack k0 v with
            | false =>
              have := h3 k0
              rw [hg] at this
              simpa [ht] using this
            | true =>
              have := h3 k0
              rw [hg] at this
              simp only [ht, true_and] at this
              simp only [if_true, dGet_dSet_self, true_and, ne_eq, List.append_eq_nil_iff, List.cons_ne_nil, and_false,
                not_false_eq_true, List.foldl_append, List.foldl_cons, List.foldl_nil, Option.some.injEq]
              rw [this]
              by_cases hn : subH k0 H = []
              · simp [hn]
              · simp [hn]
          · simp only [e, if_false]
            rw [← h3 k]
            split
            · rw [dGet_dSet_ne e]
            · rfl

/-- state of the tracking object of a list after `H` -/
theorem touch_lst (l : List Obj) (H : List (List PKey)) :
    ∃ acc, H.foldl (touch (.lst l)) (Trk.new (.lst l)) = .lst acc ∧
      ∀ n, n ∈ acc ↔ n < l.length ∧ subH (.int n) H ≠ [] := by
  induction H using List.reverseRecOn with
  | nil => exact ⟨[], rfl, by simp [subH]⟩
  | append_singleton H h ih =>
    obtain ⟨acc, h1, h2⟩ := ih
    rw [List.foldl_append, h1]
    simp only [List.foldl_cons, List.foldl_nil]
    cases h with
    | nil => exact ⟨acc, by rw [touch], fun n => by rw [h2, subH_append]; simp [subH]⟩
    | cons k0 p =>
      have hsub : ∀ k, subH k (H ++ [k0 :: p]) = if k0 = k then subH k H ++ [p] else subH k H := by
        intro k
        rw [subH_append]
        by_cases e : k0 = k <;> simp [subH, e]
      cases k0 with
      | str s => exact ⟨acc, by simp [touch], fun n => by rw [h2, hsub]; simp⟩
      | int m =>
        rw [touch]
        split
        · rename_i hm
          refine ⟨_, rfl, fun n => ?_⟩
          rw [hsub, List.mem_cons, h2]
          by_cases e : m = n
          · subst e
            simp only [Int.toNat_natCast, true_or, if_true, true_iff]
            exact ⟨by omega, by simp⟩
          · have : n ≠ m.toNat := by omega
            simp [e, this]
        · rename_i hm
          refine ⟨acc, rfl, fun n => ?_⟩
          rw [hsub, h2]
          by_cases e : m = n
          · subst e
            have : ¬ n < l.length := by omega
            simp [this]
          · simp [e]

/-- the claim on one level -/
def TrackOk (o : Obj) (H : List (List PKey)) : Prop :=
  match o with
  | .dic d => (∃ n, PKey.int n ∈ dKeys d ∧ subH (.int n) H ≠ []) → ∀ n, PKey.int n ∈ dKeys d → subH (.int n) H ≠ []
  | .lst l => (∃ n : Nat, n < l.length ∧ subH (.int n) H ≠ []) → ∀ n : Nat, n < l.length → subH (.int n) H ≠ []
  | _ => True

theorem verify_lst {l : List Obj} {H : List (List PKey)} : verifyAfter (.lst l) H = .ok () ↔ TrackOk (.lst l) H := by
  obtain ⟨acc, h1, h2⟩ := touch_lst l H
  unfold verifyAfter TrackOk
  rw [h1, verifyO]
  constructor
  · intro h
    split at h
    · cases h
    rename_i hc
    rintro ⟨m, hm1, hm2⟩ n hn
    have hne : acc ≠ [] := fun e => by have := (h2 m).2 ⟨hm1, hm2⟩; rw [e] at this; cases this
    by_contra hcon
    exact hc ⟨hne, n, List.mem_range.2 hn, fun hm => ((h2 n).1 hm).2 hcon⟩
  · intro h
    rw [if_neg]
    rintro ⟨hne, n, hn, hna⟩
    obtain ⟨m, hm⟩ := List.exists_mem_of_ne_nil _ hne
    have hm := (h2 m).1 hm
    have hn := List.mem_range.1 hn
    exact hna ((h2 n).2 ⟨hn, h ⟨m, hm⟩ n hn⟩)

theorem verifyD_ok {d : List (PKey × Obj)} {subs : List (PKey × Trk)} :
    verifyD d subs = .ok () ↔ ∀ k o, (k, o) ∈ d → ∀ t, dGet k subs = some t → verifyO o t = .ok () := by
  induction d with
  | nil => simp [verifyD]
  | cons p d ih =>
    obtain ⟨k, o⟩ := p
    rw [verifyD]
    cases hg : dGet k subs with
    | none =>
      dsimp only
      rw [ih]
      constructor
      · intro h k' o' hm t ht
        rcases List.mem_cons.1 hm with e | hm
        · cases e; rw [hg] at ht; cases ht
        · exact h k' o' hm t ht
      · intro h k' o' hm; exact h k' o' (by simp [hm])
    | some t =>
      dsimp only
      simp only [bind_ok]
      constructor
      · rintro ⟨_, h1, h2⟩ k' o' hm t' ht
        rcases List.mem_cons.1 hm with e | hm
        · cases e; rw [hg] at ht; cases ht; exact h1
        · exact ih.1 h2 k' o' hm t' ht
      · intro h
        exact ⟨(), h k o (by simp) t hg, ih.2 fun k' o' hm => h k' o' (by simp [hm])⟩

theorem verify_dic {d : List (PKey × Obj)} (hn : DNodup d) {H : List (List PKey)} :
    verifyAfter (.dic d) H = .ok () ↔ TrackOk (.dic d) H ∧
      ∀ k v, dGet k d = some v → shouldTrack k v = true → subH k H ≠ [] → verifyAfter v (subH k H) = .ok () := by
  obtain ⟨acc, subs, h1, h2, h3⟩ := touch_dic d H
  unfold verifyAfter TrackOk
  rw [h1, verifyO]
  constructor
  · intro h
    split at h
    · cases h
    rename_i hc
    rw [verifyD_ok] at h
    constructor
    · rintro ⟨m, hm1, hm2⟩ n hnd
      have hne : acc ≠ [] := fun e => by have := (h2 (.int m)).2 ⟨rfl, hm1, hm2⟩; rw [e] at this; cases this
      by_contra hcon
      exact hc ⟨hne, .int n, hnd, rfl, fun hm => ((h2 _).1 hm).2.2 hcon⟩
    · intro k v hg ht hs
      refine h k v (dGet_mem hg) _ ?_
      rw [h3, hg]
      simp [ht, hs]
  · rintro ⟨ha, hb⟩
    rw [if_neg]
    · rw [verifyD_ok]
      intro k o hm t ht
      have hg := dGet_of_mem hn hm
      rw [h3, hg] at ht
      simp only at ht
      split at ht
      · rename_i hc
        cases ht
        exact hb k o hg hc.1 hc.2
      · cases ht
    · rintro ⟨hne, k, hk, hi, hna⟩
      obtain ⟨m, hm⟩ := List.exists_mem_of_ne_nil _ hne
      have hm := (h2 m).1 hm
      cases k with
      | str s => cases hi
      | int n =>
        cases m with
        | str s => cases hm.1
        | int m => exact hna ((h2 _).2 ⟨rfl, hk, ha ⟨m, hm.2.1, hm.2.2⟩ n hk⟩)

theorem retrieved_nil {H : List (List PKey)} {k : PKey} : Retrieved H [] k ↔ subH k H ≠ [] := by
  unfold Retrieved
  constructor
  · rintro ⟨h, hm, t, rfl⟩
    have : t ∈ subH k H := mem_subH.2 (by simpa using hm)
    exact List.ne_nil_of_mem this
  · intro h
    obtain ⟨p, hp⟩ := List.exists_mem_of_ne_nil _ h
    exact ⟨_, mem_subH.1 hp, p, rfl⟩

theorem retrieved_cons {H : List (List PKey)} {k k' : PKey} {p : List PKey} : Retrieved H (k' :: p) k ↔ Retrieved (subH k' H) p k := by
  unfold Retrieved
  constructor
  · rintro ⟨h, hm, t, rfl⟩
    exact ⟨p ++ [k] ++ t, mem_subH.2 (by simpa using hm), t, rfl⟩
  · rintro ⟨h, hm, t, rfl⟩
    exact ⟨_, mem_subH.1 hm, t, rfl⟩

/-- the path doesn't lead through internal variables -/
def Spec.Plain (p : List PKey) : Prop := ∀ k ∈ p, ∀ s, k ≠ .str ('_' :: '_' :: s)

theorem shouldTrack_plain {k : PKey} {v : Obj} (hk : ∀ s, k ≠ .str ('_' :: '_' :: s)) (hv : v.isDict = true ∨ v.isList = true) :
    shouldTrack k v = true := by
  unfold shouldTrack
  rw [Bool.and_eq_true, Bool.or_eq_true]
  refine ⟨?_, hv⟩
  split
  · rename_i s; exact absurd rfl (hk s)
  · rfl

/-- C50, partial: if the test after any sequence of retrievals succeeds and one element of an array, wherever it is in
nested dictionaries, was retrieved, then all of its elements were.  Missing: arrays of which no element was retrieved
(`C50_untouched_fails`), and lists in lists (`C50_list_fails`). -/
theorem C50_dict_partial (o : Obj) (hw : o.Wf) (hist : List (List PKey)) (h : verifyAfter o hist = .ok ()) (p : List PKey)
    (hp : Plain p) (d : List (PKey × Obj)) (hd : getLoc p o = .ok (.dic d)) (m n : Int) (hm : PKey.int m ∈ dKeys d)
    (hr : Retrieved hist p (.int m)) (hn : PKey.int n ∈ dKeys d) : Retrieved hist p (.int n) := by
  induction p generalizing o hist with
  | nil =>
    cases hd
    rw [retrieved_nil] at hr ⊢
    exact ((verify_dic hw.1).1 h).1 ⟨m, hm, hr⟩ n hn
  | cons k p ih =>
    cases o with
    | dic e =>
      rw [getLoc] at hd
      cases hg : dGet k e with
      | none => rw [hg] at hd; cases hd
      | some v =>
        rw [hg] at hd
        rw [retrieved_cons] at hr ⊢
        have hv : v.isDict = true ∨ v.isList = true := by
          cases p with
          | nil => cases hd; exact .inl rfl
          | cons k2 p =>
            cases v with
            | dic _ => exact .inl rfl
            | _ => simp only [getLoc] at hd; cases hd
        have hs : subH k hist ≠ [] := by
          obtain ⟨x, hx, _⟩ := hr
          exact List.ne_nil_of_mem hx
        exact ih v (wfD_mem hw.2 (dGet_mem hg)) (subH k hist)
          (((verify_dic hw.1).1 h).2 k v hg (shouldTrack_plain (hp k (by simp)) hv) hs) (fun k' hk' => hp k' (by simp [hk'])) hd hr
    | _ => simp only [getLoc] at hd; cases hd

/-- C50, partial: the same for lists in nested dictionaries -/
theorem C50_list_partial (o : Obj) (hw : o.Wf) (hist : List (List PKey)) (h : verifyAfter o hist = .ok ()) (p : List PKey)
    (hp : Plain p) (l : List Obj) (hd : getLoc p o = .ok (.lst l)) (m n : Nat) (hm : m < l.length)
    (hr : Retrieved hist p (.int m)) (hn : n < l.length) : Retrieved hist p (.int n) := by
  induction p generalizing o hist with
  | nil =>
    cases hd
    rw [retrieved_nil] at hr ⊢
    exact (verify_lst.1 h) ⟨m, hm, hr⟩ n hn
  | cons k p ih =>
    cases o with
    | dic e =>
      rw [getLoc] at hd
      cases hg : dGet k e with
      | none => rw [hg] at hd; cases hd
      | some v =>
        rw [hg] at hd
        rw [retrieved_cons] at hr ⊢
        have hv : v.isDict = true ∨ v.isList = true := by
          cases p with
          | nil => cases hd; exact .inr rfl
          | cons k2 p =>
            cases v with
            | dic _ => exact .inl rfl
            | _ => simp only [getLoc] at hd; cases hd
        have hs : subH k hist ≠ [] := by
          obtain ⟨x, hx, _⟩ := hr
          exact List.ne_nil_of_mem hx
        exact ih v (wfD_mem hw.2 (dGet_mem hg)) (subH k hist)
          (((verify_dic hw.1).1 h).2 k v hg (shouldTrack_plain (hp k (by simp)) hv) hs) (fun k' hk' => hp k' (by simp [hk'])) hd hr
    | _ => simp only [getLoc] at hd; cases hd

mutual
theorem complete_O : ∀ (o : Obj) (H : List (List PKey)), o.Wf → (∀ p x, getLoc p o = .ok x →
    TrackOk x (p.foldl (fun H k => subH k H) H)) → verifyAfter o H = .ok ()
  | .dic d, H, hw, h => by
    rw [verify_dic hw.1]
    refine ⟨h [] _ rfl, fun k v hg ht hs => ?_⟩
    exact complete_D d (subH k H) hw.2 k v (dGet_mem hg) fun p x hx =>
      h (k :: p) x (by rw [getLoc, hg]; exact hx)
  | .lst l, H, _, h => verify_lst.2 (h [] _ rfl)
  | .none, H, _, _ => by unfold verifyAfter; cases List.foldl (touch Obj.none) (Trk.new Obj.none) H <;> rw [verifyO] <;> simp
  | .num x, H, _, _ => by unfold verifyAfter; cases List.foldl (touch (Obj.num x)) (Trk.new (Obj.num x)) H <;> rw [verifyO] <;> simp
  | .str s, H, _, _ => by unfold verifyAfter; cases List.foldl (touch (Obj.str s)) (Trk.new (Obj.str s)) H <;> rw [verifyO] <;> simp
theorem complete_D : ∀ (d : List (PKey × Obj)) (H : List (List PKey)), wfD d → ∀ k v, (k, v) ∈ d →
    (∀ p x, getLoc p v = .ok x → TrackOk x (p.foldl (fun H k => subH k H) H)) → verifyAfter v H = .ok ()
  | [], _, _, k, v, hm, _ => by cases hm
  | (k', v') :: d, H, hw, k, v, hm, h => by
    simp only [wfD] at hw
    have h1 := complete_O v' H hw.1
    have h2 := complete_D d H hw.2 k v
    rcases List.mem_cons.1 hm with e | hm
    · cases e; exact h1 h
    · exact h2 hm h
end

theorem retrieved_fold {H : List (List PKey)} {k : PKey} (p : List PKey) :
    Retrieved H p k ↔ subH k (p.foldl (fun H k => subH k H) H) ≠ [] := by
  induction p generalizing H with
  | nil => exact retrieved_nil
  | cons k' p ih => rw [retrieved_cons, ih]; rfl

/-- C50: the test fails only if of some array or list one element was retrieved and another one wasn't -/
theorem C50_complete (o : Obj) (hw : o.Wf) (hist : List (List PKey))
    (hd : ∀ p d, getLoc p o = .ok (.dic d) → ∀ m n, PKey.int m ∈ dKeys d → PKey.int n ∈ dKeys d →
      Retrieved hist p (.int m) → Retrieved hist p (.int n))
    (hl : ∀ p l, getLoc p o = .ok (.lst l) → ∀ m n : Nat, m < l.length → n < l.length →
      Retrieved hist p (.int m) → Retrieved hist p (.int n)) : verifyAfter o hist = .ok () := by
  refine complete_O o hist hw fun p x hx => ?_
  cases x with
  | dic d =>
    rintro ⟨m, hm1, hm2⟩ n hn
    rw [← retrieved_fold] at hm2 ⊢
    exact hd p d hx m n hm1 hn hm2
  | lst l =>
    rintro ⟨m, hm1, hm2⟩ n hn
    rw [← retrieved_fold] at hm2 ⊢
    exact hl p l hx m n hm1 hn hm2
  | _ => trivial

/-- **C50 fails**: an array of which no element was retrieved isn't noticed -/
theorem C50_untouched_fails :
    let o : Obj := .dic [(.str ['a'], .dic [(.int 1, .none), (.int 2, .none)])]
    (verifyAfter o []).toBool = true ∧ (verifyAfter o [[.str ['a']]]).toBool = true ∧
    (verifyAfter o [[.str ['a'], .int 1]]).toBool = false := by decide +kernel

/-- **C50 fails** for lists in lists: elements of the inner list needn't be retrieved -/
theorem C50_list_fails :
    let o : Obj := .dic [(.str ['a'], .lst [.lst [.none, .none]])]
    (verifyAfter o [[.str ['a'], .int 0, .int 0]]).toBool = true := by decide +kernel

/-- C50: all elements of a nested array retrieved -/
example :
    let o : Obj := .dic [(.str ['a'], .dic [(.int 1, .dic [(.int 1, .none), (.int 5, .none)])])]
    (verifyAfter o [[.str ['a'], .int 1, .int 1], [.str ['a'], .int 1, .int 5]]).toBool = true ∧
    (verifyAfter o [[.str ['a'], .int 1, .int 1]]).toBool = false := by decide +kernel

end Verif
