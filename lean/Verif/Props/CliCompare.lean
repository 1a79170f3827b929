import Verif.Model.Cli
import Verif.Props.Compare
import Verif.Props.Cycle
import Verif.Spec.Close

/-! Property C98: comparing files on the command line. -/

namespace Verif
open Spec

/-! ## objects -/

theorem pkey_inj {k k' : Key} (h : ¬ Key.Internal k) (h' : ¬ Key.Internal k') (e : k.pkey = k'.pkey) : k = k' := by
  unfold Key.Internal at h h'
  cases k <;> cases k' <;> simp_all [Key.pkey]
  exact String.toList_inj.1 e

theorem dKeys_dicObj : ∀ d : DDic, dKeys (dicObj d) = (dKeys d).map Key.pkey
  | [] => by rw [dicObj]; rfl
  | (k, v) :: d => by
    rw [dicObj]
    have := dKeys_dicObj d
    unfold dKeys at *
    simp only [List.map_cons, this]

theorem mem_dicObj {pk : PKey} {o : Obj} : ∀ {d : DDic}, (pk, o) ∈ dicObj d ↔ ∃ k v, (k, v) ∈ d ∧ pk = k.pkey ∧ o = valObj v
  | [] => by rw [dicObj]; simp
  | (k, v) :: d => by
    rw [dicObj, List.mem_cons, mem_dicObj]
    constructor
    · rintro (h | ⟨k', v', h1, h2, h3⟩)
      · cases h; exact ⟨k, v, by simp, rfl, rfl⟩
      · exact ⟨k', v', by simp [h1], h2, h3⟩
    · rintro ⟨k', v', h1, h2, h3⟩
      rcases List.mem_cons.1 h1 with h | h
      · cases h; exact .inl (by rw [h2, h3])
      · exact .inr ⟨k', v', h, h2, h3⟩

theorem dGet_dicObj {k : Key} (hk : ¬ Key.Internal k) : ∀ {d : DDic}, (∀ p ∈ d, ¬ Key.Internal p.1) → dGet k.pkey (dicObj d) = (dGet k d).map valObj
  | [], _ => by rw [dicObj]; rfl
  | (k', v) :: d, h => by
    rw [dicObj]
    unfold dGet
    by_cases e : k' = k
    · subst e; simp
    · have : ¬ k'.pkey = k.pkey := fun e' => e (pkey_inj (h (k', v) (by simp)) hk e')
      rw [if_neg this, if_neg e]
      exact dGet_dicObj hk (fun p hp => h p (by simp [hp]))

theorem cmpNum_iff {a r : ℚ} {x y : PyNum} : cmpO { atol := a, rtol := r } false (.num x) (.num y) = .ok true ↔ CloseNum a r x y := by
  rw [cmpO]
  have ht : ∀ e, treatDiff false e ≠ .ok true := fun e h => by cases h
  cases x with
  | int n =>
    cases y with
    | int m =>
      dsimp only [CmpOpts.num]
      by_cases e : n = m
      · subst e; rw [if_pos rfl]; exact ⟨fun _ => .int n, fun _ => rfl⟩
      · rw [if_neg e]; exact ⟨fun h => absurd h (ht _), fun h => by cases h; exact absurd rfl e⟩
    | num v => exact ⟨fun h => absurd h (ht _), fun h => nomatch h⟩
  | num u =>
    cases y with
    | int m => exact ⟨fun h => absurd h (ht _), fun h => nomatch h⟩
    | num v =>
      dsimp only [CmpOpts.num]
      by_cases e : |u.val - v.val| ≤ a + r * |v.val|
      · rw [if_pos e]; exact ⟨fun _ => .flt e, fun _ => rfl⟩
      · rw [if_neg e]; exact ⟨fun h => absurd h (ht _), fun h => by cases h; contradiction⟩

theorem cmpStr_iff {a r : ℚ} {s t : Str} : cmpO { atol := a, rtol := r } false (.str s) (.str t) = .ok true ↔ s = t := by
  rw [cmpO]
  have : ({ atol := a, rtol := r } : CmpOpts).sameText s t = decide (s = t) := by
    simp [CmpOpts.sameText, CmpOpts.text]
  rw [this]
  constructor
  · intro h
    split at h
    · rename_i e; simpa using e
    · cases h
  · rintro rfl; simp

theorem cmpL_iff {α : Type} {R : α → α → Prop} {c : CmpOpts} {f : α → Obj} (hf : ∀ x y, cmpO c false (f x) (f y) = .ok true ↔ R x y) : ∀ {l m : List α},
    l.length = m.length → (cmpL c false (l.map f) (m.map f) = .ok true ↔ List.Forall₂ R l m)
  | [], [], _ => by simp [cmpL]
  | x :: l, y :: m, h => by
    simp only [List.map_cons]
    rw [cmpL, both_true, hf, cmpL_iff hf (by simpa using h), List.forall₂_cons]

theorem cmpLst_iff {α : Type} {R : α → α → Prop} {c : CmpOpts} {f : α → Obj} (hf : ∀ x y, cmpO c false (f x) (f y) = .ok true ↔ R x y) (l m : List α) :
    cmpO c false (.lst (l.map f)) (.lst (m.map f)) = .ok true ↔ List.Forall₂ R l m := by
  rw [cmpO, both_true, List.length_map, List.length_map]
  by_cases h : l.length = m.length
  · rw [if_pos h, cmpL_iff hf h]; simp
  · rw [if_neg h]
    exact ⟨fun g => (by cases g.1), fun g => absurd g.length_eq h⟩

theorem cmp_iff {a r : ℚ} {v w : Val} (hv : Clean v) (hw : Clean w) :
    cmpO { atol := a, rtol := r } false (valObj v) (valObj w) = .ok true ↔ Close a r v w := by
  induction hv generalizing w with
  | num x =>
    cases hw with
    | num y => rw [valObj, valObj, cmpNum_iff]; exact ⟨.num, fun h => by cases h; assumption⟩
    | txt => rw [valObj, valObj]; exact ⟨fun h => by rw [cmpO] at h <;> simp_all [treatDiff], fun h => by cases h⟩
    | lst => rw [valObj, valObj]; exact ⟨fun h => by rw [cmpO] at h <;> simp_all [treatDiff], fun h => by cases h⟩
    | dic => rw [valObj, valObj]; exact ⟨fun h => by rw [cmpO] at h <;> simp_all [treatDiff], fun h => by cases h⟩
  | txt s =>
    cases hw with
    | txt t => rw [valObj, valObj, cmpStr_iff]; exact ⟨fun h => h ▸ .txt s, fun h => by cases h; rfl⟩
    | num => rw [valObj, valObj]; exact ⟨fun h => by rw [cmpO] at h <;> simp_all [treatDiff], fun h => by cases h⟩
    | lst => rw [valObj, valObj]; exact ⟨fun h => by rw [cmpO] at h <;> simp_all [treatDiff], fun h => by cases h⟩
    | dic => rw [valObj, valObj]; exact ⟨fun h => by rw [cmpO] at h <;> simp_all [treatDiff], fun h => by cases h⟩
  | lst l =>
    cases hw with
    | lst m => rw [valObj, valObj, cmpLst_iff (fun _ _ => cmpNum_iff)]; exact ⟨.lst, fun h => by cases h; assumption⟩
    | txt => rw [valObj, valObj]; exact ⟨fun h => by rw [cmpO] at h <;> simp_all [treatDiff], fun h => by cases h⟩
    | num => rw [valObj, valObj]; exact ⟨fun h => by rw [cmpO] at h <;> simp_all [treatDiff], fun h => by cases h⟩
    | dic => rw [valObj, valObj]; exact ⟨fun h => by rw [cmpO] at h <;> simp_all [treatDiff], fun h => by cases h⟩
  | dic d hn hi _ ih =>
    cases hw with
    | txt => rw [valObj, valObj]; exact ⟨fun h => by rw [cmpO] at h <;> simp_all [treatDiff], fun h => by cases h⟩
    | num => rw [valObj, valObj]; exact ⟨fun h => by rw [cmpO] at h <;> simp_all [treatDiff], fun h => by cases h⟩
    | lst => rw [valObj, valObj]; exact ⟨fun h => by rw [cmpO] at h <;> simp_all [treatDiff], fun h => by cases h⟩
    | dic e hn' hi' hc' =>
      have hid : ∀ p ∈ d, ¬ Key.Internal p.1 := fun p hp => hi p.1 p.2 (dGet_of_mem hn hp)
      have hie : ∀ p ∈ e, ¬ Key.Internal p.1 := fun p hp => hi' p.1 p.2 (dGet_of_mem hn' hp)
      have hkey : ∀ {u : DDic}, (∀ p ∈ u, ¬ Key.Internal p.1) → ∀ k, k ∈ dKeys u → ¬ Key.Internal k := by
        intro u hu k hk
        obtain ⟨p, hp, rfl⟩ := List.mem_map.1 hk
        exact hu p hp
      rw [valObj, valObj, C49_dict, dKeys_dicObj, dKeys_dicObj]
      constructor
      · rintro ⟨h1, h2⟩
        refine .dic (fun k => ⟨fun hk => ?_, fun hk => ?_⟩) fun k v w h3 h4 => ?_
        · obtain ⟨k', g1, g2⟩ := List.mem_map.1 ((h1 k.pkey).1 (List.mem_map_of_mem hk))
          rw [← pkey_inj (hkey hie _ g1) (hkey hid _ hk) g2]; exact g1
        · obtain ⟨k', g1, g2⟩ := List.mem_map.1 ((h1 k.pkey).2 (List.mem_map_of_mem hk))
          rw [← pkey_inj (hkey hid _ g1) (hkey hie _ hk) g2]; exact g1
        · refine (ih k v h3 (hc' k w h4)).1 (h2 k.pkey (valObj v) (valObj w) (mem_dicObj.2 ⟨k, v, dGet_mem h3, rfl, rfl⟩) ?_)
          rw [dGet_dicObj (hi k v h3) hie, h4]; rfl
      · intro h
        cases h with
        | dic hk hv =>
          refine ⟨fun k => ?_, fun pk o o' h1 h2 => ?_⟩
          · simp only [List.mem_map]
            exact ⟨fun ⟨k', g1, g2⟩ => ⟨k', (hk k').1 g1, g2⟩, fun ⟨k', g1, g2⟩ => ⟨k', (hk k').2 g1, g2⟩⟩
          · obtain ⟨k, v, g1, rfl, rfl⟩ := mem_dicObj.1 h1
            have g := dGet_of_mem hn g1
            rw [dGet_dicObj (hid _ g1) hie] at h2
            cases hg : dGet k e with
            | none => rw [hg] at h2; cases h2
            | some w =>
              rw [hg] at h2
              cases h2
              exact (ih k v g (hc' k w hg)).2 (hv k v w g hg)

/-! ## files -/

theorem split_file_ne {o : SplitOpts} {lines : List Str} {d : MfDic} (h : splitSections o lines = .ok d) (mf : Int) : dGet mf d ≠ some [] := by
  obtain ⟨pre, l, rest, c, st, _, _, _, _, rfl, _, hcase⟩ := splitSections_ok h
  rcases hcase with ⟨_, _, hs⟩ | ⟨_, _, hs⟩
  · exact splitLoop_nonempty _ _ _ hs (by intro mf'; simp [dGet]) mf
  · exact splitLoop_nonempty _ _ _ hs (by intro mf'; simp [addLine, dSet, dGet]) mf

/-- what is known about the result of `parse` -/
structure Parsed (r : Dict Int (Dict Int (SecVal DDic))) : Prop where
  nodup : DNodup r
  nodup2 : ∀ mf q, dGet mf r = some q → DNodup q
  ne : ∀ mf, dGet mf r ≠ some []
  clean : ∀ mf mt d, valOf r mf mt = some (.data d) → Clean (.dic d)

theorem parse_parsed {x : PCtx} {o o' : PObj} {a : PArgs} (ha : a.nofail = false) {r : Dict Int (Dict Int (SecVal DDic))}
    (h : parse x o a = (o', .ok r)) : Parsed r ∧ o' = o := by
  have hkeep := parse_keep_ok ha h
  unfold parse at h
  cases hd : splitSections x.split a.lines with
  | error e => rw [hd] at h; cases h
  | ok d =>
    rw [hd] at h
    dsimp only at h
    have hnd := splitSections_nodup hd
    have hal := parseMfs_along ha h
    refine ⟨⟨?_, fun mf q hq => ?_, fun mf hq => ?_, fun mf mt dd hv => ?_⟩, hkeep⟩
    · have := hal.keys
      unfold DNodup
      rw [this]
      exact hnd.1
    · rcases hal.get mf with ⟨_, g2⟩ | ⟨m, q', g1, g2, g3⟩
      · rw [hq] at g2; cases g2
      · rw [hq] at g2
        cases g2
        have := g3.keys
        unfold DNodup
        rw [this]
        exact hnd.2 mf m g1
    · rcases hal.get mf with ⟨_, g2⟩ | ⟨m, q', g1, g2, g3⟩
      · rw [hq] at g2; cases g2
      · rw [hq] at g2
        cases g2
        have := g3.keys
        have hm : m = [] := by
          unfold dKeys at this
          simpa using this.symm
        subst hm
        exact split_file_ne hd mf g1
    · rcases parse_val ha h mf mt with ⟨_, g2⟩ | ⟨ls, v, g1, g2, g3⟩
      · rw [hv] at g2; cases g2
      · rw [hv] at g2
        cases g2
        unfold parseSec at g3
        split at g3
        · cases g3
        · split at g3
          · cases g3
          · split at g3
            · cases g3
            · split at g3
              · cases g3
              · dsimp only at g3
                split at g3
                · rename_i s hs
                  cases g3
                  exact C37_read _ _ _ _ hs
                · simp only [Prod.mk.injEq] at g3
                  have := g3.2
                  split at this <;> cases this

theorem cmpSec_iff {a r : ℚ} {v w : SecVal DDic} (hv : ∀ d, v = .data d → Clean (.dic d)) (hw : ∀ d, w = .data d → Clean (.dic d)) :
    cmpO { atol := a, rtol := r } false (secObj dicObj v) (secObj dicObj w) = .ok true ↔ CloseSec a r (some v) (some w) := by
  cases v with
  | verb ls =>
    cases w with
    | verb ms =>
      unfold secObj
      dsimp only
      rw [cmpLst_iff (R := (· = ·)) (fun _ _ => cmpStr_iff), List.forall₂_eq_eq_eq]
      exact ⟨fun h => h ▸ .verb ls, fun h => by cases h; rfl⟩
    | data e => exact ⟨fun h => by unfold secObj at h; dsimp only at h; rw [cmpO] at h <;> simp_all [treatDiff], fun h => nomatch h⟩
  | data d =>
    cases w with
    | verb ms => exact ⟨fun h => by unfold secObj at h; dsimp only at h; rw [cmpO] at h <;> simp_all [treatDiff], fun h => nomatch h⟩
    | data e =>
      have := cmp_iff (a := a) (r := r) (hv d rfl) (hw e rfl)
      rw [valObj, valObj] at this
      exact this.trans ⟨.data, fun h => by cases h; assumption⟩

/-- dictionaries with integer keys -/
theorem cmpInt_iff {α : Type} {c : CmpOpts} {f : α → Obj} {d e : Dict Int α} (hd : DNodup d) :
    cmpO c false (.dic (d.map fun p => (PKey.int p.1, f p.2))) (.dic (e.map fun p => (PKey.int p.1, f p.2))) = .ok true ↔
      ∀ k, (dGet k d = none ∧ dGet k e = none) ∨ ∃ v w, dGet k d = some v ∧ dGet k e = some w ∧ cmpO c false (f v) (f w) = .ok true := by
  have hget : ∀ (u : Dict Int α) (k : Int), dGet (PKey.int k) (u.map fun p => (PKey.int p.1, f p.2)) = (dGet k u).map f := by
    intro u k
    induction u with
    | nil => rfl
    | cons p u ih =>
      obtain ⟨k', v⟩ := p
      simp only [List.map_cons, dGet, PKey.int.injEq]
      split
      · rfl
      · exact ih
  have hkeys : ∀ (u : Dict Int α) (k : PKey), k ∈ dKeys (u.map fun p => (PKey.int p.1, f p.2)) ↔ ∃ n, k = .int n ∧ dGet n u ≠ none := by
    intro u k
    unfold dKeys
    simp only [List.map_map, List.mem_map, Function.comp_apply, Prod.exists]
    constructor
    · rintro ⟨n, v, h1, h2⟩
      refine ⟨n, h2.symm, fun hn => ?_⟩
      exact (dGet_none_iff _ _).1 hn (List.mem_map.2 ⟨_, h1, rfl⟩)
    · rintro ⟨n, rfl, hn⟩
      obtain ⟨v, hv⟩ := Option.ne_none_iff_exists'.1 hn
      exact ⟨n, v, dGet_mem hv, rfl⟩
  rw [C49_dict]
  constructor
  · rintro ⟨h1, h2⟩ k
    have h3 : dGet k d ≠ none ↔ dGet k e ≠ none := by
      have := h1 (.int k)
      rw [hkeys, hkeys] at this
      simpa using this
    cases hk : dGet k d with
    | none =>
      rw [hk] at h3
      have : dGet k e = none := by by_contra hc; exact h3.2 hc rfl
      exact .inl ⟨rfl, this⟩
    | some v =>
      obtain ⟨w, hw⟩ := Option.ne_none_iff_exists'.1 (h3.1 (by rw [hk]; simp))
      refine .inr ⟨v, w, rfl, hw, h2 (.int k) (f v) (f w) (List.mem_map.2 ⟨(k, v), dGet_mem hk, rfl⟩) ?_⟩
      rw [hget, hw]; rfl
  · intro h
    refine ⟨fun k => ?_, fun k o o' h1 h2 => ?_⟩
    · rw [hkeys, hkeys]
      have : ∀ n, dGet n d ≠ none ↔ dGet n e ≠ none := by
        intro n
        rcases h n with ⟨g1, g2⟩ | ⟨v, w, g1, g2, _⟩
        · rw [g1, g2]
        · rw [g1, g2]; simp
      simp only [this]
    · obtain ⟨⟨n, v⟩, h3, h4⟩ := List.mem_map.1 h1
      cases h4
      rw [hget] at h2
      rcases h n with ⟨g1, g2⟩ | ⟨v', w, g1, g2, g3⟩
      · rw [g2] at h2; cases h2
      · rw [g2] at h2
        cases h2
        rw [dGet_of_mem hd h3] at g1
        cases g1
        exact g3

theorem cmpFile_iff {a r : ℚ} {r1 r2 : Dict Int (Dict Int (SecVal DDic))} (h1 : Parsed r1) (h2 : Parsed r2) :
    cmpO { atol := a, rtol := r } false (.dic (resultObj dicObj r1)) (.dic (resultObj dicObj r2)) = .ok true ↔
      ∀ mf mt, CloseSec a r (valOf r1 mf mt) (valOf r2 mf mt) := by
  refine (cmpInt_iff (c := { atol := a, rtol := r }) (f := fun q : Dict Int (SecVal DDic) => Obj.dic (q.map fun s => (PKey.int s.1, secObj dicObj s.2)))
    (d := r1) (e := r2) h1.nodup).trans ?_
  constructor
  · intro h mf mt
    rcases h mf with ⟨g1, g2⟩ | ⟨v, w, g1, g2, g3⟩
    · unfold valOf; rw [g1, g2]; exact .none
    · rw [cmpInt_iff (f := secObj dicObj) (h1.nodup2 mf v g1)] at g3
      rcases g3 mt with ⟨e1, e2⟩ | ⟨s, t, e1, e2, e3⟩
      · unfold valOf; rw [g1, g2, Option.bind_some, Option.bind_some, e1, e2]; exact .none
      · have k1 : valOf r1 mf mt = some s := by unfold valOf; rw [g1]; exact e1
        have k2 : valOf r2 mf mt = some t := by unfold valOf; rw [g2]; exact e2
        rw [k1, k2]
        exact (cmpSec_iff (fun d hd => h1.clean mf mt d (by rw [k1, hd])) (fun d hd => h2.clean mf mt d (by rw [k2, hd]))).1 e3
  · intro h mf
    have some_of : ∀ {u : Dict Int (Dict Int (SecVal DDic))}, Parsed u → ∀ q, dGet mf u = some q → ∃ mt v, dGet mt q = some v := by
      intro u hu q hq
      cases q with
      | nil => exact absurd hq (hu.ne mf)
      | cons p q => exact ⟨p.1, p.2, by simp [dGet]⟩
    cases g1 : dGet mf r1 with
    | none =>
      cases g2 : dGet mf r2 with
      | none => exact .inl ⟨rfl, rfl⟩
      | some w =>
        obtain ⟨mt, v, hv⟩ := some_of h2 w g2
        have := h mf mt
        unfold valOf at this
        rw [g1, g2, Option.bind_none, Option.bind_some, hv] at this
        cases this
    | some v =>
      cases g2 : dGet mf r2 with
      | none =>
        obtain ⟨mt, w, hv⟩ := some_of h1 v g1
        have := h mf mt
        unfold valOf at this
        rw [g1, g2, Option.bind_none, Option.bind_some, hv] at this
        cases this
      | some w =>
        refine .inr ⟨v, w, rfl, rfl, ?_⟩
        rw [cmpInt_iff (f := secObj dicObj) (h1.nodup2 mf v g1)]
        intro mt
        have hc := h mf mt
        have k1 : valOf r1 mf mt = dGet mt v := by unfold valOf; rw [g1]; rfl
        have k2 : valOf r2 mf mt = dGet mt w := by unfold valOf; rw [g2]; rfl
        cases e1 : dGet mt v with
        | none =>
          cases e2 : dGet mt w with
          | none => exact .inl ⟨rfl, rfl⟩
          | some t => rw [k1, k2, e1, e2] at hc; cases hc
        | some s =>
          cases e2 : dGet mt w with
          | none => rw [k1, k2, e1, e2] at hc; cases hc
          | some t =>
            rw [k1, k2, e1, e2] at hc
            exact .inr ⟨s, t, rfl, rfl, (cmpSec_iff (fun d hd => h1.clean mf mt d (by rw [k1, e1, hd]))
              (fun d hd => h2.clean mf mt d (by rw [k2, e2, hd]))).2 hc⟩

/-- **C98** For two files that can be parsed, `endf-cli compare` with the Python parser exits with status 0 exactly if both files have the same
MF/MT sections, sections that are not parsed have the same lines, and the dictionaries of the others have the same keys at all levels,
equal integers and texts, and floats within the tolerances; otherwise with status 1. -/
theorem C98_status (x : PCtx) (atol rtol : ℚ) (f g : List Str) (o1 o2 : PObj) (r1 r2 : Dict Int (Dict Int (SecVal DDic)))
    (hf : parse x x.fresh { lines := f } = (o1, .ok r1)) (hg : parse x x.fresh { lines := g } = (o2, .ok r2)) :
    (compareFiles x atol rtol f g = .ok 0 ↔ ∀ mf mt, CloseSec atol rtol (valOf r1 mf mt) (valOf r2 mf mt)) ∧
    (compareFiles x atol rtol f g = .ok 0 ∨ compareFiles x atol rtol f g = .ok 1) := by
  obtain ⟨h1, e1⟩ := parse_parsed rfl hf
  obtain ⟨h2, _⟩ := parse_parsed rfl hg
  subst e1
  obtain ⟨b, hb⟩ := (C49_raise_partial { atol := atol, rtol := rtol } (.dic (resultObj dicObj r1)) (.dic (resultObj dicObj r2))).1
  have he : compareFiles x atol rtol f g = .ok (if b then 0 else 1) := by
    unfold compareFiles
    rw [hf]
    dsimp only
    rw [hg]
    dsimp only
    rw [hb]
    rfl
  have hi := cmpFile_iff (a := atol) (r := rtol) h1 h2
  rw [hb] at hi
  rw [he, ← hi]
  cases b with
  | true => simp
  | false => simp

/-- **C98** A file that cannot be parsed is not compared: the exception of the parser is raised. -/
theorem C98_refused (x : PCtx) (atol rtol : ℚ) (f g : List Str) (o1 : PObj) (e : Err)
    (h : parse x x.fresh { lines := f } = (o1, .error e) ∨
      (∃ r1, parse x x.fresh { lines := f } = (o1, .ok r1)) ∧ ∃ o2, parse x x.fresh { lines := g } = (o2, .error e)) :
    compareFiles x atol rtol f g = .error e := by
  unfold compareFiles
  rcases h with h | ⟨⟨r1, h⟩, o2, h'⟩
  · rw [h]
  · obtain ⟨_, e1⟩ := parse_parsed rfl h
    subst e1
    rw [h]
    dsimp only
    rw [h']

theorem closeNum_self {a r : ℚ} (ha : 0 ≤ a) (hr : 0 ≤ r) (x : PyNum) : CloseNum a r x x := by
  cases x with
  | int n => exact .int n
  | num v =>
    refine .flt ?_
    rw [sub_self, abs_zero]
    exact add_nonneg ha (mul_nonneg hr (abs_nonneg _))

theorem close_self {a r : ℚ} (ha : 0 ≤ a) (hr : 0 ≤ r) {v : Val} (hv : Clean v) : Close a r v v := by
  induction hv with
  | num x => exact .num (closeNum_self ha hr x)
  | txt s => exact .txt s
  | lst l => exact .lst (List.forall₂_same.2 fun x _ => closeNum_self ha hr x)
  | dic d _ _ _ ih =>
    exact .dic (fun _ => Iff.rfl) fun k v w h1 h2 => by
      rw [h1] at h2
      cases h2
      exact ih k v h1

/-- **C98** A file that can be parsed compares equal to itself. -/
theorem C98_self (x : PCtx) (atol rtol : ℚ) (ha : 0 ≤ atol) (hr : 0 ≤ rtol) (f : List Str) (o1 : PObj) (r1 : Dict Int (Dict Int (SecVal DDic)))
    (hf : parse x x.fresh { lines := f } = (o1, .ok r1)) : compareFiles x atol rtol f f = .ok 0 := by
  refine ((C98_status x atol rtol f f o1 o1 r1 r1 hf hf).1).2 fun mf mt => ?_
  have hp := (parse_parsed rfl hf).1
  cases hv : valOf r1 mf mt with
  | none => exact .none
  | some v =>
    cases v with
    | verb ls => exact .verb ls
    | data d => exact .data (close_self ha hr (hp.clean mf mt d hv))

/-- **C98** (partial) A file that has been parsed and written compares equal to the written one, if all its sections have been parsed.
The other conditions are those of `C89_partial`.  Missing: sections that are not parsed, for which it is false, see `C98_fails`. -/
theorem C98_rewritten_partial (x : PCtx) (zab : Bool) (atol rtol : ℚ) (ha : 0 ≤ atol) (hr : 0 ≤ rtol) (hsp : x.split = { fields := x.split.fields })
    (hw : 11 ≤ x.wo.width) (hcw : x.split.fields.width = x.wo.width) (hpre : x.split.fields.preserve = false)
    (hst : Strict x.po) (hig : x.po.ignoreAll = false) (f : List Str)
    (d : MfDic) (hd : splitSections x.split f = .ok d)
    (o' : PObj) (res : Dict Int (Dict Int (SecVal DDic))) (h : parse x x.fresh { lines := f } = (o', .ok res)) (mat : Int)
    (hmat : ∀ l ∈ f, ∀ m f t, (theReader x.split.fields).IsData m f t l → m = mat ∧ 0 < f)
    (hsome : ∃ l ∈ f, ∃ m f t, (theReader x.split.fields).IsData m f t l)
    (hall : ∀ mf mt ls, valOf res mf mt ≠ some (.verb ls))
    (hsec : ∀ mf mt ls k p snd s, secOf d mf mt = some ls → (lineAt ls 0 >>= readCtrl x.wo.width) = .ok k →
      responsible x.trees mf mt = some p → writeSend x.wo false k = .ok snd →
      readSection ⟨ls ++ snd, x.split.fields, x.po, x.fuel⟩ false p = .ok s →
      Faithful ⟨ls ++ snd, x.split.fields, x.po, x.fuel⟩ x.wo p k s)
    (out : List Str) (hout : writeTape (x.writer zab) res = .ok out) : compareFiles x atol rtol f out = .ok 0 := by
  obtain ⟨res2, h1, h2⟩ := C89_partial x zab { lines := f } rfl hsp hw hcw hpre hst hig d hd o' res h mat hmat hsome
    (fun mf mt ls hv => absurd hv (hall mf mt ls)) (fun l hv => absurd hv (hall 0 0 [l]))
    (fun mf mt ls k p snd s g1 g2 g3 _ g5 g6 => hsec mf mt ls k p snd s g1 g2 g3 g5 g6) out hout
  refine ((C98_status x atol rtol f out _ _ res res2 h h1).1).2 fun mf mt => ?_
  have hs := h2 mf mt
  have hp := (parse_parsed rfl h).1
  cases hv : valOf res mf mt with
  | none =>
    rw [hv] at hs
    generalize valOf res2 mf mt = w at hs
    cases hs
    exact .none
  | some v =>
    cases v with
    | verb ls => exact absurd hv (hall mf mt ls)
    | data dd =>
      rw [hv] at hs
      generalize valOf res2 mf mt = w at hs
      cases hs
      exact .data (close_self ha hr (hp.clean mf mt dd hv))

/-! ### concrete files -/

namespace CompareEx
open RoundtripExample CycleExample

def statusIs (r : Res Int) (n : Int) : Bool :=
  match r with
  | .ok m => decide (m = n)
  | .error _ => false

/-- the status of comparing a file with the written one -/
def statusAgain (x : PCtx) (f : List Str) (zab : Bool) (n : Int) : Bool :=
  match (parse x x.fresh { lines := f }).2 with
  | .ok r => (match writeTape (x.writer zab) r with
    | .ok out => statusIs (compareFiles x (1 / 10 ^ 8) (1 / 10 ^ 6) f out) n
    | .error _ => false)
  | .error _ => false

/-- the file of `CycleExample` without the section that has no recipe -/
def tape98 : List Str := tape.take 1 ++ tape.drop 4

def allData (res : Dict Int (Dict Int (SecVal DDic))) : Bool :=
  res.all fun q => q.2.all fun e => match e.2 with
    | .verb _ => false
    | .data _ => true

theorem allData_ok {res : Dict Int (Dict Int (SecVal DDic))} (h : allData res = true) (mf mt : Int) (ls : List Str) : valOf res mf mt ≠ some (.verb ls) := by
  intro hv
  unfold valOf at hv
  cases hm : dGet mf res with
  | none => rw [hm] at hv; cases hv
  | some m =>
    rw [hm] at hv
    have := List.all_eq_true.1 (List.all_eq_true.1 h (mf, m) (dGet_mem hm)) (mt, _) (dGet_mem hv)
    cases this

/-- hypotheses of `C98_rewritten_partial` decided -/
def holds98 (x : PCtx) (f : List Str) (zab : Bool) (mat : Int) : Bool :=
  match splitSections x.split f, (parse x x.fresh { lines := f }).2 with
  | .ok d, .ok res => oneMatB x.split.fields.width mat f && f.any (carries x.split.fields.width 3 1) &&
      allData res && secsB x { lines := f } d && resOk (writeTape (x.writer zab) res)
  | _, _ => false

/-- a tape that meets the hypotheses of `C98_rewritten_partial` -/
example : ∃ o' res out, parse ctx89 ctx89.fresh { lines := tape98 } = (o', .ok res) ∧ writeTape (ctx89.writer true) res = .ok out ∧
    compareFiles ctx89 (1 / 10 ^ 8) (1 / 10 ^ 6) tape98 out = .ok 0 := by
  have h : holds98 ctx89 tape98 true 125 = true := by decide +kernel
  unfold holds98 at h
  split at h
  · rename_i d res hd hres
    simp only [Bool.and_eq_true] at h
    obtain ⟨⟨⟨⟨h1, h2⟩, h3⟩, h4⟩, h5⟩ := h
    obtain ⟨l, hl, hc⟩ := List.any_eq_true.1 h2
    obtain ⟨m, hm⟩ := (carries_iff ctx89.split.fields 3 1 l).1 hc
    have hparse : parse ctx89 ctx89.fresh { lines := tape98 } = ((parse ctx89 ctx89.fresh { lines := tape98 }).1, .ok res) := by rw [← hres]
    cases hout : writeTape (ctx89.writer true) res with
    | error e => rw [hout] at h5; cases h5
    | ok out =>
      exact ⟨_, res, out, hparse, hout, C98_rewritten_partial ctx89 true _ _ (by norm_num) (by norm_num) rfl (by decide) rfl rfl ⟨rfl, rfl, rfl, rfl⟩ rfl
        tape98 d hd _ res hparse 125 (oneMatB_ok h1) ⟨l, hl, m, 3, 1, hm⟩ (allData_ok h3)
        (fun mf mt ls k p snd s g1 g2 g3 g5 g6 => secsB_ok ctx89_wf h4 mf mt ls k p snd s g1 g2 g3 rfl g5 g6) out hout⟩
  · cases h

/-- the file with another number in the LIST record -/
def other98 : List Str :=
  tape98.map fun l => if l = vals then "        1.5        2.6        3.5        0.0        0.0        0.0 125 3  1".toList else l

/-- with the default tolerances they are different, with a larger one they are not -/
example : statusIs (compareFiles ctx89 (1 / 10 ^ 8) (1 / 10 ^ 6) tape98 other98) 1 = true ∧
    statusIs (compareFiles ctx89 (1 / 5) 0 tape98 other98) 0 = true := by decide +kernel

/-- a file without TEND record is refused, see `C98_refused` -/
example : (match parse ctx89 ctx89.fresh { lines := tape98.dropLast } with | (_, .error _) => true | _ => false) = true := by decide +kernel

end CompareEx

open CycleExample CompareEx

/-- **C98 fails** for a file with sections that are not parsed: written with line numbers, which the file did not have, it has the same content but
compares as different. -/
theorem C98_fails : ¬ ∀ (x : PCtx) (zab : Bool) (f out : List Str) (o1 o2 : PObj) (r1 r2 : Dict Int (Dict Int (SecVal DDic))),
    parse x x.fresh { lines := f } = (o1, .ok r1) → writeTape (x.writer zab) r1 = .ok out → parse x x.fresh { lines := out } = (o2, .ok r2) →
    (∀ mf mt, SameSec x.wo.width (valOf r1 mf mt) (valOf r2 mf mt)) → compareFiles x (1 / 10 ^ 8) (1 / 10 ^ 6) f out = .ok 0 := by
  intro h
  obtain ⟨o', res, out, res2, h1, h2, h3, h4⟩ := holds89_ok (x := ctx89) (a := { lines := tape }) (zab := true) (mat := 125) rfl rfl (by decide) rfl rfl
    ⟨rfl, rfl, rfl, rfl⟩ rfl ctx89_wf (by decide +kernel)
  have h5 := h ctx89 true tape out _ _ res res2 h1 h2 h3 h4
  have h6 : statusAgain ctx89 tape true 1 = true := by decide +kernel
  unfold statusAgain at h6
  rw [h1] at h6
  dsimp only at h6
  rw [h2] at h6
  dsimp only at h6
  rw [h5] at h6
  cases h6

end Verif
