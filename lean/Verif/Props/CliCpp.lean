import Verif.Lemmas.RereadRec
import Verif.Props.Cli
import Verif.Props.CppArr
import Verif.Props.CppTapeWrite

/-! Property C97 with the compiled parser: what remains of it where all sections have recipes. -/

namespace Verif
open Spec

/-- a file of one material in strict layout, with the columns up to MT in every line and control numbers that are not blank at the ends of
sections and in the tape head -/
structure OneMat (r : ROpts) (mat : Int) (t : Tape) (m : TMat) : Prop where
  wf : t.WF (theReader r)
  mats : t.mats = [m]
  mat : m.mat = mat
  trail : t.trail = []
  full : ∀ l ∈ t.lines, FullLine l
  tpid : Shown t.tpid ∧ strip (slice t.tpid 66 70) ≠ []
  send : ∀ p ∈ m.sections, Shown p.2.send
  pos : ∀ p ∈ m.sections, 0 < p.1
  dist : m.sections.Pairwise (fun p q => ¬ (p.1 = q.1 ∧ p.2.mt = q.2.mt))

/-- the lines of a section in a material -/
def Spec.TMat.secLines (m : TMat) (a b : Int) : Option (List Str) :=
  (m.sections.find? fun p => decide (p.1 = a ∧ p.2.mt = b)).map fun p => p.2.data

/-! ## dictionaries of sections -/

/-- no key twice, and no file without sections -/
def Neat {δ : Type} (d : Dict Int (Dict Int (SecVal δ))) : Prop := DNodup d ∧ ∀ k f, dGet k d = some f → DNodup f ∧ f ≠ []

theorem neat_put {δ : Type} {d : Dict Int (Dict Int (SecVal δ))} (h : Neat d) (mf mt : Int) (v : SecVal δ) : Neat (putSec mf mt v d) := by
  unfold putSec
  refine ⟨dSet_nodup h.1, fun k f hk => ?_⟩
  rw [dGet_dSet] at hk
  by_cases e : mf = k
  · rw [if_pos e] at hk
    cases hk
    refine ⟨dSet_nodup ?_, fun hn => ?_⟩
    · cases hg : dGet mf d with
      | none => simp [DNodup, dKeys]
      | some g => exact (h.2 mf g hg).1
    · have := dGet_dSet (k := mt) (k' := mt) (v := v) (d := (dGet mf d).getD [])
      rw [hn, if_pos rfl] at this
      cases this
  · rw [if_neg e] at hk
    exact h.2 k f hk

theorem masterStep_out {δ : Type} {x : CTape δ} {start : List Str} {s s' : CSt δ} {l : Str} {ls r : List Str}
    (h : masterStep x start s l ls = .ok (s', r)) : s'.out = s.out ∨ ∃ mf mt v, s'.out = putSec mf mt v s.out := by
  unfold masterStep at h
  simp only [cbind_ok'] at h
  obtain ⟨mat, _, mf, _, mt, _, ⟨s1, r1⟩, h1, h2⟩ := h
  cases h2
  dsimp only
  split at h1
  · split at h1
    all_goals
      split at h1
      · cases h1
      · split at h1
        · cases h1
        · rw [cbind_ok'] at h1
          obtain ⟨⟨d, r2⟩, _, h3⟩ := h1
          cases h3
          exact .inr ⟨mf, mt, .data d, rfl⟩
        · rw [cbind_ok'] at h1
          obtain ⟨⟨d, r2⟩, _, h3⟩ := h1
          cases h3
          exact .inr ⟨mf, mt, .verb d, rfl⟩
  · split at h1
    · rw [cbind_ok'] at h1
      obtain ⟨⟨d, r2⟩, _, h3⟩ := h1
      cases h3
      exact .inr ⟨mf, mt, .verb d, rfl⟩
    · split at h1
      · split at h1
        · cases h1; exact .inl rfl
        · cases h1
      · rw [cbind_ok'] at h1
        obtain ⟨_, _, h1⟩ := h1
        split at h1
        · cases h1; exact .inl rfl
        · rw [cbind_ok'] at h1
          obtain ⟨_, _, h1⟩ := h1
          split at h1
          · cases h1; exact .inl rfl
          · rw [cbind_ok'] at h1
            obtain ⟨_, _, h1⟩ := h1
            split at h1
            · cases h1; exact .inl rfl
            · cases h1

theorem masterLoop_neat {δ : Type} {x : CTape δ} {start : List Str} : ∀ (fuel : Nat) (s : CSt δ) (ls : List Str) (out : Dict Int (Dict Int (SecVal δ))),
    Neat s.out → masterLoop x start fuel s ls = .ok out → Neat out := by
  intro fuel
  induction fuel with
  | zero => intro s ls out _ h; cases h
  | succ n ih =>
    intro s ls out hn h
    cases ls with
    | nil => rw [masterLoop] at h; cases h; exact hn
    | cons l ls =>
      rw [masterLoop, cbind_ok'] at h
      obtain ⟨⟨s', r⟩, h1, h2⟩ := h
      refine ih s' r out ?_ h2
      rcases masterStep_out h1 with e | ⟨mf, mt, v, e⟩
      · rw [e]; exact hn
      · rw [e]; exact neat_put hn mf mt v

theorem neat_parse {δ : Type} {x : CTape δ} {ls : List Str} {out : Dict Int (Dict Int (SecVal δ))} (h : masterParse x ls = .ok out) : Neat out :=
  masterLoop_neat _ _ _ _ ⟨by simp [DNodup, dKeys], fun k f hk => by cases hk⟩ h

theorem OneMat.data {r : ROpts} {mat : Int} {t : Tape} {m : TMat} (h : OneMat r mat t m) {p : Int × TSec} (hp : p ∈ m.sections) :
    p.2.data ≠ [] ∧ ∀ l ∈ p.2.data, FullLine l ∧ (theReader r).IsData mat p.1 p.2.mt l := by
  unfold TMat.sections at hp
  simp only [List.mem_flatMap, List.mem_map] at hp
  obtain ⟨f, hf, c, hc, rfl⟩ := hp
  obtain ⟨_, hms, _⟩ := h.wf
  obtain ⟨_, hfs, _⟩ := hms m (by rw [h.mats]; simp)
  obtain ⟨k1, k2, _⟩ := (hfs f hf).2.1 c hc
  refine ⟨k1, fun l hl => ⟨h.full l ?_, by rw [← h.mat]; exact k2 l hl⟩⟩
  unfold Tape.lines TMat.lines TFile.lines TSec.lines
  rw [h.mats]
  simp only [List.map_cons, List.map_nil, List.flatten_cons, List.flatten_nil, List.append_nil, List.mem_cons, List.mem_append, List.mem_flatten,
    List.mem_map]
  exact .inr (.inl (.inl ⟨_, ⟨f, hf, rfl⟩, List.mem_append.2 (.inl (List.mem_flatten.2 ⟨_, List.mem_map.2 ⟨c, hc, rfl⟩,
    List.mem_append.2 (.inl hl)⟩))⟩))

theorem OneMat.secLines {r : ROpts} {mat : Int} {t : Tape} {m : TMat} (h : OneMat r mat t m) (a b : Int) (ls : List Str) :
    m.secLines a b = some ls ↔ ∃ p ∈ m.sections, p.1 = a ∧ p.2.mt = b ∧ p.2.data = ls := by
  have key : ∀ L : List (Int × TSec), L.Pairwise (fun p q => ¬ (p.1 = q.1 ∧ p.2.mt = q.2.mt)) →
      ((L.find? fun p => decide (p.1 = a ∧ p.2.mt = b)).map (fun p => p.2.data) = some ls ↔ ∃ p ∈ L, p.1 = a ∧ p.2.mt = b ∧ p.2.data = ls) := by
    intro L
    induction L with
    | nil => intro _; simp
    | cons q L ih =>
      intro hp
      obtain ⟨h1, h2⟩ := List.pairwise_cons.1 hp
      by_cases hq : q.1 = a ∧ q.2.mt = b
      · rw [List.find?_cons_of_pos (by simpa using hq)]
        simp only [Option.map_some, Option.some.injEq]
        constructor
        · intro e; exact ⟨q, by simp, hq.1, hq.2, e⟩
        · rintro ⟨p, hp, e1, e2, e3⟩
          rcases List.mem_cons.1 hp with rfl | hp
          · exact e3
          · exact absurd ⟨hq.1.trans e1.symm, hq.2.trans e2.symm⟩ (h1 p hp)
      · rw [List.find?_cons_of_neg (by simpa using hq), ih h2]
        constructor
        · rintro ⟨p, hp, e⟩; exact ⟨p, by simp [hp], e⟩
        · rintro ⟨p, hp, e1, e2, e3⟩
          rcases List.mem_cons.1 hp with rfl | hp
          · exact absurd ⟨e1, e2⟩ hq
          · exact ⟨p, hp, e1, e2, e3⟩
  exact key _ h.dist

/-- a file read with no section selected -/
theorem cppRead_keep {δ : Type} {x : CTape δ} {r : ROpts} (hr : r.width = 11) (hacc : x.acc = r.acceptSpaces) (hv : x.validate = false)
    (hs : ∀ a b, x.should a b = some false) {mat : Int} {t : Tape} {m : TMat} (h : OneMat r mat t m) (h0 : (x.fn 0 0).isSome = true)
    (hf : ∀ p ∈ m.sections, (x.fn p.1 p.2.mt).isSome = true) :
    ∃ out, masterParse x t.lines = .ok out ∧ Neat out ∧ secVal out 0 0 = some (.verb [t.tpid]) ∧
      ∀ a b, ¬ (a = 0 ∧ b = 0) → secVal out a b = (m.secLines a b).map .verb := by
  obtain ⟨f0, hf0⟩ := Option.isSome_iff_exists.1 h0
  obtain ⟨out, h1, h2⟩ := C79_partial x r hr hacc t m h.wf h.mats h.trail h.full (.verb [t.tpid]) ⟨f0, hf0, .inr ⟨hs _ _, hv, h.tpid.1, rfl⟩⟩
    (fun _ c => .verb c.data) (fun p hp => by
      obtain ⟨f, hf⟩ := Option.isSome_iff_exists.1 (hf p hp)
      exact ⟨f, hf, .inr ⟨hs _ _, hv, h.send p hp, rfl⟩⟩) h.dist
  refine ⟨out, h1, neat_parse h1, (h2 0 0 _).2 (.inl ⟨rfl, rfl, rfl⟩), fun a b hab => ?_⟩
  apply Option.ext
  intro v
  rw [h2 a b v, Option.map_eq_some_iff]
  constructor
  · rintro (⟨e1, e2, _⟩ | ⟨p, hp, e1, e2, e3⟩)
    · exact absurd ⟨e1, e2⟩ hab
    · exact ⟨p.2.data, (h.secLines a b _).2 ⟨p, hp, e1, e2, rfl⟩, e3⟩
  · rintro ⟨ls, e, rfl⟩
    obtain ⟨p, hp, e1, e2, e3⟩ := (h.secLines a b ls).1 e
    exact .inr ⟨p, hp, e1, e2, by rw [e3]⟩

/-! ## replacing in the dictionary -/

theorem pathSet_cpp {δ : Type} {mf : Int} {mt : Option Int} {s d : Dict Int (Dict Int (SecVal δ))} (hs : Neat s) (hd : Neat d)
    {b0 : Int} {v0 : SecVal δ} (hsec : secVal s mf b0 = some v0) (hb0 : mt = none ∨ mt = some b0) :
    ∃ obj, pathGet mf mt s = .ok obj ∧ Neat (pathSet mf obj d) ∧
      ∀ a b, secVal (pathSet mf obj d) a b = if a = mf ∧ (mt = none ∨ mt = some b) then secVal s a b else secVal d a b := by
  unfold secVal at hsec
  obtain ⟨f, hf, hv⟩ := Option.bind_eq_some_iff.1 hsec
  cases mt with
  | none =>
    refine ⟨.file f, by unfold pathGet; rw [hf], ⟨dSet_nodup hd.1, fun k g hk => ?_⟩, fun a b => ?_⟩
    · unfold pathSet at hk
      dsimp only at hk
      rw [dGet_dSet] at hk
      by_cases e : mf = k
      · rw [if_pos e] at hk; cases hk; exact hs.2 mf f hf
      · rw [if_neg e] at hk; exact hd.2 k g hk
    · unfold secVal pathSet
      dsimp only
      rw [dGet_dSet]
      by_cases e : mf = a
      · subst e; rw [if_pos rfl, if_pos ⟨rfl, .inl rfl⟩, hf]
      · rw [if_neg e, if_neg (fun h => e h.1.symm)]
  | some b1 =>
    have hb : b1 = b0 := by simpa using hb0
    subst hb
    refine ⟨.sec b1 v0, by unfold pathGet; rw [hf]; dsimp only; rw [hv], neat_put hd mf b1 v0, fun a b => ?_⟩
    have := secVal_put mf b1 v0 d a b
    unfold putSec at this
    unfold pathSet
    dsimp only
    rw [this]
    by_cases e : a = mf ∧ b = b1
    · rw [if_pos e, if_pos ⟨e.1, .inr (by rw [e.2])⟩, e.1, e.2]
      unfold secVal; rw [hf]; exact hv.symm
    · rw [if_neg e, if_neg (fun h => e ⟨h.1, by simpa [eq_comm] using h.2⟩)]

/-! ## the sections in ascending order -/

/-- the lines kept for a section -/
def keptLines {δ : Type} : SecVal δ → List Str
  | .verb ls => ls
  | .data _ => []

theorem sortedSecs_files {δ : Type} {d : Dict Int (Dict Int (SecVal δ))} (hn : Neat d) {tp : Str} (h0 : secVal d 0 0 = some (.verb [tp]))
    (hz : ∀ b v, secVal d 0 b = some v → b = 0) (hpos : ∀ a b v, secVal d a b = some v → 0 ≤ a ∧ ∃ ls, v = .verb ls) :
    ∃ files : List (Int × List (Int × List Str)),
      sortedSecs d = (0, 0, .verb [tp]) :: (files.flatMap fun p => p.2.map fun q => (p.1, q.1, .verb q.2)) ∧
      (files.map Prod.fst).Pairwise (· < ·) ∧ (∀ p ∈ files, p.2 ≠ [] ∧ (p.2.map Prod.fst).Pairwise (· < ·)) ∧
      (∀ p ∈ files, ∀ q ∈ p.2, p.1 ≠ 0 ∧ secVal d p.1 q.1 = some (.verb q.2)) ∧
      ∀ a b ls, a ≠ 0 → secVal d a b = some (.verb ls) → ∃ p ∈ files, ∃ q ∈ p.2, p.1 = a ∧ q.1 = b := by
  unfold secVal at h0
  obtain ⟨f0, hf0, hv0⟩ := Option.bind_eq_some_iff.1 h0
  have hsec : ∀ {a f q}, dGet a d = some f → q ∈ f → secVal d a q.1 = some q.2 := by
    intro a f q hf hq
    unfold secVal
    rw [hf]
    exact dGet_of_mem (hn.2 a f hf).1 hq
  have hpos' : ∀ k w, dGet k d = some w → 0 ≤ k := by
    intro k w hk
    obtain ⟨q, hq⟩ := List.exists_mem_of_ne_nil _ (hn.2 k w hk).2
    exact (hpos k q.1 q.2 (hsec hk hq)).1
  obtain ⟨rest, hrest⟩ := dSort_head hn.1 hf0 hpos'
  obtain ⟨m1, m2, m3⟩ := mem_rest hn.1 hrest
  -- the file 0 has the tape head only
  have hnf0 := (hn.2 0 f0 hf0).1
  obtain ⟨rest0, hrest0⟩ := dSort_head hnf0 hv0 (fun k w hk => by
    have := hz k w (by unfold secVal; rw [hf0]; exact hk)
    omega)
  have hr0 : rest0 = [] := by
    cases rest0 with
    | nil => rfl
    | cons q _ =>
      obtain ⟨n1, _, _⟩ := mem_rest hnf0 hrest0
      obtain ⟨n2, n3⟩ := n1 q (by simp)
      exact absurd (hz q.1 q.2 (by unfold secVal; rw [hf0]; exact n3)) n2
  rw [hr0] at hrest0
  have hverb : ∀ p ∈ rest, ∀ q ∈ dSort p.2, SecVal.verb (keptLines q.2) = q.2 := by
    intro p hp q hq
    obtain ⟨ls, e⟩ := (hpos p.1 q.1 q.2 (hsec (m1 p hp).2 ((dSort_perm p.2).mem_iff.1 hq))).2
    rw [e]; rfl
  refine ⟨rest.map fun p => (p.1, (dSort p.2).map fun q => (q.1, keptLines q.2)), ?_, ?_, ?_, ?_, ?_⟩
  · unfold sortedSecs
    rw [hrest, List.flatMap_cons, hrest0]
    simp only [List.map_cons, List.map_nil, List.cons_append, List.nil_append, List.flatMap_map, List.cons.injEq, true_and, List.map_map]
    apply List.flatMap_congr
    intro p hp
    apply List.map_congr_left
    intro q hq
    simp only [Function.comp_apply]
    rw [hverb p hp q hq]
  · rw [List.map_map, List.pairwise_map]
    exact m3
  · intro p hp
    obtain ⟨p, hp', rfl⟩ := List.mem_map.1 hp
    have hk := hn.2 p.1 p.2 (m1 p hp').2
    refine ⟨fun h => hk.2 ?_, ?_⟩
    · dsimp only at h
      rw [List.map_eq_nil_iff] at h
      have := dSort_perm p.2
      rw [h] at this
      exact this.nil_eq.symm
    · dsimp only
      rw [List.map_map, List.pairwise_map]
      exact dSort_strict hk.1
  · intro p hp q hq
    obtain ⟨p, hp', rfl⟩ := List.mem_map.1 hp
    obtain ⟨q, hq', rfl⟩ := List.mem_map.1 hq
    refine ⟨(m1 p hp').1, ?_⟩
    dsimp only
    rw [hverb p hp' q hq']
    exact hsec (m1 p hp').2 ((dSort_perm p.2).mem_iff.1 hq')
  · intro a b ls ha h
    unfold secVal at h
    obtain ⟨f, hf, hv⟩ := Option.bind_eq_some_iff.1 h
    exact ⟨_, List.mem_map.2 ⟨(a, f), m2 a f hf ha, rfl⟩, _, List.mem_map.2 ⟨(b, .verb ls), (dSort_perm f).mem_iff.2 (dGet_mem hv), rfl⟩, rfl, rfl⟩

/-! ## reading with the splitter -/

theorem not_carries_end {r : ROpts} {a b mat mf : Int} {l : Str} (h : (theReader r).IsEnd mat mf l) : carries r.width a b l = false := by
  rw [Bool.eq_false_iff]
  intro hc
  obtain ⟨n, _, h2, _, _, h5⟩ := (carries_iff r a b l).1 hc
  rw [h.2.1] at h2
  simp only [Option.some.injEq, Prod.mk.injEq] at h2
  omega

/-- the lines of a strict file of one material that carry MF and MT are those of the section -/
theorem tape_filter {r : ROpts} {t : Tape} {m : TMat} (hwf : t.WF (theReader r)) (hm : t.mats = [m]) (a b : Int) :
    t.lines.filter (carries r.width a b) = m.sections.flatMap fun p => if p.1 = a ∧ p.2.mt = b then p.2.data else [] := by
  obtain ⟨⟨_, n, hn⟩, h2, h3, h4⟩ := hwf
  obtain ⟨_, hf, he⟩ := h2 m (by simp [hm])
  have htp : carries r.width a b t.tpid = false := by
    rw [Bool.eq_false_iff]
    intro hc
    obtain ⟨n', _, h2, _, _, h5⟩ := (carries_iff r a b _).1 hc
    rw [hn] at h2
    simp only [Option.some.injEq, Prod.mk.injEq] at h2
    omega
  have htr : t.trail.filter (carries r.width a b) = [] := by
    rw [List.filter_eq_nil_iff]
    intro l hl hc
    obtain ⟨_, h1, _⟩ := (carries_iff r a b l).1 hc
    exact h1 (h4 l hl)
  have hsec : ∀ f ∈ m.files, ∀ s ∈ f.secs, s.lines.filter (carries r.width a b) = if f.mf = a ∧ s.mt = b then s.data else [] := by
    intro f hfm s hs
    obtain ⟨_, k2, k3⟩ := (hf f hfm).2.1 s hs
    unfold TSec.lines
    rw [List.filter_append, List.filter_cons_of_neg (by rw [not_carries_end k3]; simp), List.filter_nil, List.append_nil]
    split
    · rename_i e
      rw [List.filter_eq_self]
      intro l hl
      exact (carries_iff r a b l).2 ⟨m.mat, by have := k2 l hl; rwa [e.1, e.2] at this⟩
    · rename_i e
      rw [List.filter_eq_nil_iff]
      intro l hl hc
      obtain ⟨_, _, h2, _⟩ := (carries_iff r a b l).1 hc
      rw [(k2 l hl).2.1] at h2
      simp only [Option.some.injEq, Prod.mk.injEq] at h2
      exact e h2.2
  have hfile : ∀ f ∈ m.files, f.lines.filter (carries r.width a b) = f.secs.flatMap fun s => if f.mf = a ∧ s.mt = b then s.data else [] := by
    intro f hfm
    unfold TFile.lines
    rw [List.filter_append, List.filter_cons_of_neg (by rw [not_carries_end (hf f hfm).2.2]; simp), List.filter_nil, List.append_nil,
      List.filter_flatten, List.map_map, List.flatMap_def]
    congr 1
    exact List.map_congr_left fun s hs => hsec f hfm s hs
  unfold Tape.lines
  rw [List.filter_cons_of_neg (by rw [htp]; simp), List.filter_append, List.filter_cons_of_neg (by rw [not_carries_end h3]; simp), htr,
    List.append_nil, hm]
  simp only [List.map_cons, List.map_nil, List.flatten_cons, List.flatten_nil, List.append_nil]
  unfold TMat.lines TMat.sections
  rw [List.filter_append, List.filter_cons_of_neg (by rw [not_carries_end he]; simp), List.filter_nil, List.append_nil,
      List.filter_flatten, List.map_map, List.flatMap_assoc, List.flatMap_def]
  congr 1
  refine List.map_congr_left fun f hfm => ?_
  simp only [Function.comp_apply]
  rw [hfile f hfm, List.flatMap_map]

theorem flatMap_dist {L : List (Int × TSec)} (hd : L.Pairwise (fun p q => ¬ (p.1 = q.1 ∧ p.2.mt = q.2.mt))) {p : Int × TSec} (hp : p ∈ L) :
    (L.flatMap fun q => if q.1 = p.1 ∧ q.2.mt = p.2.mt then q.2.data else []) = p.2.data := by
  induction L with
  | nil => cases hp
  | cons q L ih =>
    rw [List.pairwise_cons] at hd
    rw [List.flatMap_cons]
    rcases List.mem_cons.1 hp with rfl | hp
    · rw [if_pos ⟨rfl, rfl⟩]
      have : (L.flatMap fun q => if q.1 = p.1 ∧ q.2.mt = p.2.mt then q.2.data else []) = [] := by
        rw [List.flatMap_eq_nil_iff]
        intro q hq
        rw [if_neg fun h => hd.1 q hq ⟨h.1.symm, h.2.symm⟩]
      rw [this, List.append_nil]
    · rw [if_neg (hd.1 p hp), List.nil_append]
      exact ih hd.2 hp

/-- reading a strict file of one material with the splitter gives the sections of the material -/
theorem split_one {r : ROpts} {t : Tape} {m : TMat} (hwf : t.WF (theReader r)) (hm : t.mats = [m])
    (hd : m.sections.Pairwise (fun p q => ¬ (p.1 = q.1 ∧ p.2.mt = q.2.mt))) :
    ∃ d, splitSections { fields := r } t.lines = .ok d ∧
      ∀ a b ls, a ≠ 0 → b ≠ 0 → (secOf d a b = some ls ↔ ∃ p ∈ m.sections, p.1 = a ∧ p.2.mt = b ∧ p.2.data = ls) := by
  obtain ⟨d, h⟩ := (C21_structure r t.lines).2 ⟨t, rfl, hwf⟩
  refine ⟨d, h, fun a b ls ha hb => ?_⟩
  rw [C22_sections _ _ _ h a b ha hb]
  show entry (t.lines.filter (carries r.width a b)) = some ls ↔ _
  rw [tape_filter hwf hm]
  constructor
  · intro he
    by_cases hx : ∃ p ∈ m.sections, p.1 = a ∧ p.2.mt = b
    · obtain ⟨p, hp, rfl, rfl⟩ := hx
      rw [flatMap_dist hd hp] at he
      unfold entry at he
      split at he
      · cases he
      · cases he; exact ⟨p, hp, rfl, rfl, rfl⟩
    · have : (m.sections.flatMap fun p => if p.1 = a ∧ p.2.mt = b then p.2.data else []) = [] := by
        rw [List.flatMap_eq_nil_iff]
        intro q hq
        rw [if_neg fun h => hx ⟨q, hq, h⟩]
      rw [this] at he
      cases he
  · rintro ⟨p, hp, rfl, rfl, rfl⟩
    rw [flatMap_dist hd hp]
    unfold entry
    rw [if_neg]
    unfold TMat.sections at hp
    obtain ⟨f, hf, hs⟩ := List.mem_flatMap.1 hp
    obtain ⟨s, hs', rfl⟩ := List.mem_map.1 hs
    exact ((((hwf.2.1 m (by simp [hm])).2.1 f hf).2.1) s hs').1

/-! ## C97 -/

/-- the columns up to MT of the lines of a section -/
def SecVal.upToMt {δ : Type} : SecVal δ → SecVal δ
  | .verb ls => .verb (ls.map (List.take 75))
  | .data d => .data d

/-- **C97** (partial) With the compiled parser, `endf-cli replace` writes a file for any two files of the same material whose sections all have
recipes, and reading it again gives: for the path that was replaced the section or the file of the source, for all other sections those of the
destination, with the columns up to MT of all lines, and the tape head of the destination.  The Python parser in strict mode reads the same sections
from it.
Missing: sections without recipe (`C97_cpp_fails`), files that the Python parser reads but the compiled parser does not (`C80_blank_fails`,
`C80_materials_fails`), lines that are shorter or have underscores or other white space. -/
theorem C97_cpp_partial {δ : Type} (x : CTape δ) (w : CWrite δ) (r : ROpts) (hr : r.width = 11) (hacc : x.acc = r.acceptSpaces)
    (hv : x.validate = false) (hw : ∀ a b, w.should a b = some true) (mat : Int) (ts td : Tape) (ms md : TMat) (hs : OneMat r mat ts ms)
    (hd : OneMat r mat td md) (h0 : (x.fn 0 0).isSome = true ∧ (w.fn 0 0).isSome = true)
    (hfn : ∀ p ∈ ms.sections ++ md.sections, (x.fn p.1 p.2.mt).isSome = true ∧ (w.fn p.1 p.2.mt).isSome = true)
    (mf : Int) (mt : Option Int) (hsec : ∃ p ∈ ms.sections, p.1 = mf ∧ (mt = none ∨ mt = some p.2.mt))
    (x' : CTape δ) (hx : x'.fn = x.fn ∧ x'.acc = x.acc ∧ x'.validate = false ∧ ∀ a b, x'.should a b = some false) :
    ∃ lines out, replaceCpp x w mf mt ts.lines td.lines = .ok lines ∧ masterParse x' lines = .ok out ∧
      (secVal out 0 0).map SecVal.upToMt = some (.verb [td.tpid.take 75]) ∧
      (∀ a b, ¬ (a = 0 ∧ b = 0) → (secVal out a b).map SecVal.upToMt =
        ((if a = mf ∧ (mt = none ∨ mt = some b) then ms.secLines a b else md.secLines a b).map fun ls => .verb (ls.map (List.take 75)))) ∧
      ∃ d, splitSections { fields := r } lines = .ok d ∧ ∀ a b, a ≠ 0 → b ≠ 0 → (secOf d a b).map (List.map (List.take 75)) =
        (if a = mf ∧ (mt = none ∨ mt = some b) then ms.secLines a b else md.secLines a b).map (List.map (List.take 75)) := by
  obtain ⟨ps, hps, rfl, hmt⟩ := hsec
  have hmf := hs.pos ps hps
  have hy : ∀ a b, ((shouldParseCpp a b none (some (.many []))).toOption : Option Bool) = some false := fun a b => rfl
  obtain ⟨s, s1, s2, s3, s4⟩ := cppRead_keep
    (x := { x with ignoreSend := true, ignoreTpid := true, should := fun a b => (shouldParseCpp a b none (some (.many []))).toOption })
    hr hacc hv hy hs h0.1 (fun p hp => (hfn p (by simp [hp])).1)
  obtain ⟨d, d1, d2, d3, d4⟩ := cppRead_keep
    (x := { x with ignoreSend := true, ignoreTpid := true, should := fun a b => (shouldParseCpp a b none (some (.many []))).toOption })
    hr hacc hv hy hd h0.1 (fun p hp => (hfn p (by simp [hp])).1)
  have hsv : secVal s ps.1 ps.2.mt = some (.verb ps.2.data) := by
    rw [s4 _ _ (by omega), (hs.secLines _ _ _).2 ⟨ps, hps, rfl, rfl, rfl⟩]; rfl
  obtain ⟨obj, o1, o2, o3⟩ := pathSet_cpp s2 d2 hsv hmt
  have hread : ∀ a b, ¬ (a = 0 ∧ b = 0) → secVal (pathSet ps.1 obj d) a b =
      ((if a = ps.1 ∧ (mt = none ∨ mt = some b) then ms.secLines a b else md.secLines a b).map .verb) := by
    intro a b hab
    rw [o3]
    split
    · exact s4 a b hab
    · exact d4 a b hab
  have hmem : ∀ a b ls, ¬ (a = 0 ∧ b = 0) → secVal (pathSet ps.1 obj d) a b = some (.verb ls) → 0 < a ∧ FitsCtrl mat a 0 ∧ ls ≠ [] ∧
      (∀ l ∈ ls, FullLine l ∧ (theReader r).IsData mat a b l) ∧ (x.fn a b).isSome = true ∧ (w.fn a b).isSome = true := by
    intro a b ls hab h
    rw [hread a b hab, Option.map_eq_some_iff] at h
    obtain ⟨ls', h, e⟩ := h
    cases e
    have key : ∀ {t : Tape} {m : TMat}, OneMat r mat t m → (∀ p ∈ m.sections, (x.fn p.1 p.2.mt).isSome = true ∧ (w.fn p.1 p.2.mt).isSome = true) →
        m.secLines a b = some ls → 0 < a ∧ FitsCtrl mat a 0 ∧ ls ≠ [] ∧
          (∀ l ∈ ls, FullLine l ∧ (theReader r).IsData mat a b l) ∧ (x.fn a b).isSome = true ∧ (w.fn a b).isSome = true := by
      intro t m hm hf hl
      obtain ⟨p, hp, rfl, rfl, rfl⟩ := (hm.secLines a b ls).1 hl
      obtain ⟨k1, k2⟩ := hm.data hp
      refine ⟨hm.pos p hp, ?_, k1, k2, hf p hp⟩
      obtain ⟨l, hl⟩ := List.exists_mem_of_ne_nil _ k1
      have := ctrl_fits (theReader_ctrl.1 (k2 l hl).2.2.1)
      unfold FitsCtrl at this ⊢
      dsimp only at this
      omega
    split at h
    · exact key hs (fun p hp => hfn p (by simp [hp])) h
    · exact key hd (fun p hp => hfn p (by simp [hp])) h
  have hall : ∀ a b v, secVal (pathSet ps.1 obj d) a b = some v → ¬ (a = 0 ∧ b = 0) → ∃ ls, v = .verb ls := by
    intro a b v h hab
    rw [hread a b hab, Option.map_eq_some_iff] at h
    obtain ⟨ls, _, e⟩ := h
    exact ⟨ls, e.symm⟩
  have h00 : secVal (pathSet ps.1 obj d) 0 0 = some (.verb [td.tpid]) := by
    rw [o3, if_neg (fun h => by omega)]; exact d3
  obtain ⟨files, f1, f2, f3, f4, f5⟩ := sortedSecs_files o2 h00
    (by
      intro b v h
      by_contra hb
      obtain ⟨ls, rfl⟩ := hall 0 b v h (fun e => hb e.2)
      exact absurd (hmem 0 b ls (fun e => hb e.2) h).1 (by omega))
    (by
      intro a b v h
      by_cases hab : a = 0 ∧ b = 0
      · obtain ⟨rfl, rfl⟩ := hab
        rw [h00] at h
        cases h
        exact ⟨Int.le_refl _, _, rfl⟩
      · obtain ⟨ls, rfl⟩ := hall a b v h hab
        exact ⟨by have := (hmem a b ls hab h).1; omega, ls, rfl⟩)
  have hq : ∀ p ∈ files, ∀ q ∈ p.2, 0 < p.1 ∧ FitsCtrl mat p.1 0 ∧ q.2 ≠ [] ∧
      (∀ l ∈ q.2, FullLine l ∧ (theReader r).IsData mat p.1 q.1 l) ∧ (x.fn p.1 q.1).isSome = true ∧ (w.fn p.1 q.1).isSome = true :=
    fun p hp q hq => hmem p.1 q.1 q.2 (fun e => (f4 p hp q hq).1 e.1) (f4 p hp q hq).2
  have hne : files ≠ [] := by
    rintro rfl
    have : secVal (pathSet ps.1 obj d) ps.1 ps.2.mt = some (.verb ps.2.data) := by
      rw [o3, if_pos ⟨rfl, hmt⟩]; exact hsv
    obtain ⟨p, hp, _⟩ := f5 ps.1 ps.2.mt _ (by omega) this
    cases hp
  obtain ⟨⟨_, n, hn⟩, _⟩ := hd.wf
  have hn' := theReader_ctrl.1 hn
  rw [hr] at hn'
  obtain ⟨lines, out, w1, w2, ⟨t, w3, w3'⟩, w4, w5, T, m', rfl, t1, t2, t3, t4⟩ := C81_roundtrip_partial w x' r hr (hx.2.1.trans hacc) hx.2.2.1 mat td.tpid n
    (hd.full _ (by simp [Tape.lines])) hn' hd.tpid.1 hd.tpid.2 files hne f2 f3
    (fun p hp q hq' => ⟨(hq p hp q hq').2.1, (hq p hp q hq').2.2.1, (hq p hp q hq').2.2.2.1⟩)
    ⟨hw 0 0, hx.2.2.2 0 0, Option.isSome_iff_exists.1 h0.2, by rw [hx.1]; exact Option.isSome_iff_exists.1 h0.1⟩
    (fun p hp q hq' => ⟨hw _ _, hx.2.2.2 _ _, Option.isSome_iff_exists.1 (hq p hp q hq').2.2.2.2.2, by
      rw [hx.1]; exact Option.isSome_iff_exists.1 (hq p hp q hq').2.2.2.2.1⟩)
  have hout : ∀ a b, ¬ (a = 0 ∧ b = 0) → (secVal out a b).map SecVal.upToMt =
      ((if a = ps.1 ∧ (mt = none ∨ mt = some b) then ms.secLines a b else md.secLines a b).map fun ls => .verb (ls.map (List.take 75))) := by
    intro a b hab
    have hre := hread a b hab
    cases hL : (if a = ps.1 ∧ (mt = none ∨ mt = some b) then ms.secLines a b else md.secLines a b) with
    | some ls =>
      rw [hL] at hre
      have hre' : secVal (pathSet ps.1 obj d) a b = some (.verb ls) := hre
      obtain ⟨p, hp, q, hq', e1, e2⟩ := f5 a b ls (by have := (hmem a b ls hab hre').1; omega) hre'
      obtain ⟨ls', g1, g2⟩ := w4 p hp q hq'
      have g3 := (f4 p hp q hq').2
      rw [e1, e2] at g1 g3
      rw [hre'] at g3
      rw [g1]
      simp only [Option.some.injEq, SecVal.verb.injEq] at g3
      simp only [Option.map_some, SecVal.upToMt]
      rw [g2, ← g3]
    | none =>
      rw [hL] at hre
      cases ho : secVal out a b with
      | none => rfl
      | some v =>
        rcases w5 a b v ho with e | ⟨p, hp, q, hq', e1, e2⟩
        · exact absurd e hab
        · have g3 := (f4 p hp q hq').2
          rw [e1, e2, hre] at g3
          cases g3
  obtain ⟨d', p1, p2⟩ := split_one t1 t2 t3
  refine ⟨T.lines, out, ?_, w2, ?_, hout, d', p1, fun a b ha hb => ?_⟩
  · unfold replaceCpp
    dsimp only
    rw [s1, cbind_ok, o1]
    dsimp only
    rw [d1, cbind_ok, f1]
    exact w1
  · rw [w3]
    simp only [Option.map_some, SecVal.upToMt, List.map_cons, List.map_nil]
    rw [w3']
  · have ho := hout a b (fun h => ha h.1)
    have hd' : ∀ ls, secOf d' a b = some ls ↔ secVal out a b = some (.verb ls) := fun ls =>
      (p2 a b ls ha hb).trans (t4 a b ls (fun h => ha h.1)).symm
    cases hL : (if a = ps.1 ∧ (mt = none ∨ mt = some b) then ms.secLines a b else md.secLines a b) with
    | some ls =>
      rw [hL] at ho
      obtain ⟨v, hv1, hv2⟩ := Option.map_eq_some_iff.1 ho
      cases v with
      | data _ => cases hv2
      | verb ls' =>
        rw [(hd' ls').2 hv1]
        simp only [SecVal.upToMt, SecVal.verb.injEq] at hv2
        rw [Option.map_some, Option.map_some, hv2]
    | none =>
      rw [hL] at ho
      cases hs' : secOf d' a b with
      | none => rfl
      | some ls => rw [(hd' ls).1 hs'] at ho; cases ho

/-! ### concrete files -/

namespace CliCppEx

/-- the file with MF3/MT1 that the section is taken from, as a tape -/
def srcMat : TMat := ⟨125, [⟨3, [⟨1, [exLine "x" 125 3 1, exLine "y" 125 3 1], exLine "" 125 3 0⟩], exLine "" 125 0 0⟩], exLine "" 0 0 0⟩
def srcT : Tape := ⟨exLine "other" 1 0 0, [srcMat], exLine "" (-1) 0 0, []⟩

theorem srcT_lines : srcT.lines = CliEx.source 125 := by decide +kernel

theorem srcMat_wf : srcMat.WF (theReader {}) := by
  refine ⟨by decide, ?_, isEnd_of (by decide +kernel) (by decide +kernel) (by decide +kernel)⟩
  intro f hf
  rw [List.mem_singleton.1 hf]
  refine ⟨by decide, ?_, isEnd_of (by decide +kernel) (by decide +kernel) (by decide +kernel)⟩
  intro c hc
  rw [List.mem_singleton.1 hc]
  refine ⟨by simp, ?_, isEnd_of (by decide +kernel) (by decide +kernel) (by decide +kernel)⟩
  intro l hl
  simp only [List.mem_cons, List.not_mem_nil, or_false] at hl
  rcases hl with rfl | rfl
  · exact isData_of (by decide +kernel) (by decide +kernel) (by decide)
  · exact isData_of (by decide +kernel) (by decide +kernel) (by decide)

theorem srcOne : OneMat {} 125 srcT srcMat where
  wf := ⟨⟨by show strip _ ≠ []; decide +kernel, 1, theReader_ctrl.2 (by decide +kernel)⟩, by
    intro m hm; rw [List.mem_singleton.1 hm]; exact srcMat_wf, isEnd_of (by decide +kernel) (by decide +kernel) (by decide +kernel), by
    intro l hl; cases hl⟩
  mats := rfl
  mat := rfl
  trail := rfl
  full := by rw [srcT_lines]; decide +kernel
  tpid := by decide +kernel
  send := by decide +kernel
  pos := by decide +kernel
  dist := by decide +kernel

theorem dstOne : OneMat {} 125 exT exMat where
  wf := exT_wf
  mats := rfl
  mat := rfl
  trail := rfl
  full := exT_full
  tpid := by decide +kernel
  send := by decide +kernel
  pos := by decide +kernel
  dist := by decide +kernel

end CliCppEx

open CliCppEx CliEx

/-- the hypotheses of `C97_cpp_partial` are met by these two files: MF3/MT1 is replaced, MF3/MT2 and MF1/MT451 stay -/
example : ∃ lines out, replaceCpp exMod write97 3 (some 1) srcT.lines exT.lines = .ok lines ∧
    masterParse { exMod with should := fun _ _ => some false } lines = .ok out ∧
    (secVal out 3 1).map SecVal.upToMt = some (.verb ([exLine "x" 125 3 1, exLine "y" 125 3 1].map (List.take 75))) ∧
    (secVal out 3 2).map SecVal.upToMt = some (.verb ([exLine "d" 125 3 2].map (List.take 75))) ∧
    ∃ d, splitSections {} lines = .ok d ∧
      (secOf d 3 1).map (List.map (List.take 75)) = some ([exLine "x" 125 3 1, exLine "y" 125 3 1].map (List.take 75)) := by
  obtain ⟨lines, out, h1, h2, _, h3, h4⟩ := C97_cpp_partial exMod write97 {} rfl rfl rfl (fun _ _ => rfl) 125 srcT exT srcMat exMat srcOne dstOne
    (by decide +kernel) (by decide +kernel) 3 (some 1) (by decide +kernel) { exMod with should := fun _ _ => some false }
    ⟨rfl, rfl, rfl, fun _ _ => rfl⟩
  refine ⟨lines, out, h1, h2, (h3 3 1 (by decide)).trans ?_, (h3 3 2 (by decide)).trans ?_, ?_⟩
  · rfl
  · rfl
  · obtain ⟨d, g1, g2⟩ := h4
    exact ⟨d, g1, (g2 3 1 (by decide) (by decide)).trans rfl⟩

/-- the same for the whole file MF3: MF3/MT2 is gone -/
example : ∃ lines out, replaceCpp exMod write97 3 none srcT.lines exT.lines = .ok lines ∧
    masterParse { exMod with should := fun _ _ => some false } lines = .ok out ∧ (secVal out 3 2).map SecVal.upToMt = none := by
  obtain ⟨lines, out, h1, h2, _, h3, _⟩ := C97_cpp_partial exMod write97 {} rfl rfl rfl (fun _ _ => rfl) 125 srcT exT srcMat exMat srcOne dstOne
    (by decide +kernel) (by decide +kernel) 3 none (by decide +kernel) { exMod with should := fun _ _ => some false }
    ⟨rfl, rfl, rfl, fun _ _ => rfl⟩
  exact ⟨lines, out, h1, h2, h3 3 2 (by decide)⟩

end Verif
