import Verif.Lemmas.Locate
import Verif.Props.ExchangeFile
import Verif.Props.Shipped

/-! Property C96: files read by both parsers. -/

namespace Verif
open Spec

/-! ## what the loop of the compiled parser has done -/

/-- The compiled parser reads this section, not verbatim; if the function accepts the section at its place in the file `T`, the stream stands
behind the section, and the dictionary has the property `P`. -/
def Leaves {δ : Type} (x : CTape δ) (T : List Str) (mf mt : Int) (own : List Str) (P : δ → Prop) : Prop :=
  ∃ f, x.fn mf mt = some f ∧ x.should mf mt = some true ∧ ∀ rest, own ++ rest <:+ T → ∀ d r, f (own ++ rest) = .ok (d, r) → r = rest ∧ P d

/-- the sections `l` have been stored with dictionaries that have the property `P`, and nothing else has changed -/
def Stored {δ : Type} (P : Int → TSec → δ → Prop) (l : List (Int × TSec)) (o o' : Dict Int (Dict Int (SecVal δ))) : Prop :=
  (∀ p ∈ l, ∃ d, P p.1 p.2 d ∧ secVal o' p.1 p.2.mt = some (.data d)) ∧
  ∀ a b, (∀ p ∈ l, ¬ (p.1 = a ∧ p.2.mt = b)) → secVal o' a b = secVal o a b

theorem Stored.append {δ : Type} {P : Int → TSec → δ → Prop} {l l' : List (Int × TSec)} {o o1 o2 : Dict Int (Dict Int (SecVal δ))}
    (hd : (l ++ l').Pairwise (fun p q => ¬ (p.1 = q.1 ∧ p.2.mt = q.2.mt))) (h : Stored P l o o1) (h' : Stored P l' o1 o2) :
    Stored P (l ++ l') o o2 := by
  obtain ⟨_, _, hd⟩ := List.pairwise_append.1 hd
  refine ⟨fun p hp => ?_, fun a b hn => ?_⟩
  · rcases List.mem_append.1 hp with hp | hp
    · obtain ⟨d, g1, g2⟩ := h.1 p hp
      exact ⟨d, g1, by rw [h'.2 _ _ (fun q hq e => hd p hp q hq ⟨e.1.symm, e.2.symm⟩)]; exact g2⟩
    · exact h'.1 p hp
  · rw [h'.2 a b (fun p hp => hn p (by simp [hp])), h.2 a b (fun p hp => hn p (by simp [hp]))]

theorem pass_step {δ : Type} {x : CTape δ} {start : List Str} {fuel : Nat} {s : CSt δ} {l : Str} {ls : List Str} {out : Dict Int (Dict Int (SecVal δ))}
    (h : masterLoop x start fuel s (l :: ls) = .ok out) :
    ∃ fuel' s' r, masterStep x start s l ls = .ok (s', r) ∧ masterLoop x start fuel' s' r = .ok out := by
  cases fuel with
  | zero => cases h
  | succ n =>
    rw [masterLoop] at h
    obtain ⟨⟨s', r⟩, h1, h2⟩ := cbind_ok'.1 h
    exact ⟨n, s', r, h1, h2⟩

/-- one section -/
theorem pass_sec {δ : Type} {x : CTape δ} {o : ROpts} (ho : o.width = 11) {start T : List Str} {mat mf : Int} {c : TSec}
    (hwf : c.WF (theReader o) mat mf) (hfull : ∀ l ∈ c.lines, FullLine l) {P : Int → TSec → δ → Prop} (hh : Leaves x T mf c.mt c.lines (P mf c))
    {s : CSt δ} (hs : Between s) {rest : List Str} (hT : c.lines ++ rest <:+ T) {fuel : Nat} {out : Dict Int (Dict Int (SecVal δ))}
    (h : masterLoop x start fuel s (c.lines ++ rest) = .ok out) :
    ∃ fuel' s', masterLoop x start fuel' s' rest = .ok out ∧ Between s' ∧ s'.fend = false ∧ Stored P [(mf, c)] s.out s'.out := by
  obtain ⟨hne, hdata, hend⟩ := hwf
  obtain ⟨l, ls, hls⟩ := List.exists_cons_of_ne_nil hne
  obtain ⟨_, hc, hm1, hm2, hm3⟩ := hdata l (by rw [hls]; simp)
  rw [theReader_ctrl, ho] at hc
  have hlf : FullLine l := hfull l (by unfold TSec.lines; rw [hls]; simp)
  obtain ⟨q1, q2, q3⟩ := sees_of_ctrl hlf hc
  dsimp only at q1 q2 q3
  obtain ⟨f, hf, hsh, hcase⟩ := hh
  have hlines : c.lines ++ rest = l :: (ls ++ c.send :: rest) := by unfold TSec.lines; rw [hls]; simp
  rw [hlines] at h
  obtain ⟨fuel', s', r, h1, h2⟩ := pass_step h
  unfold masterStep at h1
  rw [q1, cbind_ok, q2, cbind_ok, q3, cbind_ok, if_neg (fun h => hm2 h.1), hf] at h1
  dsimp only at h1
  have hn : ¬ (mf = 0 ∧ c.mt = 0) := fun h => hm2 h.1
  have hce : ¬ checkEnds x s mf = false := by rw [checkEnds_between hs hm2]; simp
  simp only [if_neg hn, if_neg hce, if_pos hm3, hsh] at h1
  obtain ⟨⟨s2, r2⟩, h3, h4⟩ := cbind_ok'.1 h1
  obtain ⟨⟨d, r3⟩, h5, h6⟩ := cbind_ok'.1 h3
  cases h6
  cases h4
  rw [← hlines] at h5
  obtain ⟨rfl, hP⟩ := hcase rest hT d _ h5
  refine ⟨fuel', _, h2, ⟨rfl, hs.found, hs.mend, hs.tend, rfl, fun h => (by cases h)⟩, rfl, ?_, ?_⟩
  · intro p hp
    rw [List.mem_singleton.1 hp]
    exact ⟨d, hP, by dsimp only; rw [secVal_put, if_pos ⟨rfl, rfl⟩]⟩
  · intro a b hn
    dsimp only
    rw [secVal_put, if_neg (fun e => hn (mf, c) (List.mem_singleton.2 rfl) ⟨e.1.symm, e.2.symm⟩)]

/-- the sections of one file -/
theorem pass_secs {δ : Type} {x : CTape δ} {o : ROpts} (ho : o.width = 11) {start T : List Str} {mat mf : Int} {P : Int → TSec → δ → Prop}
    {rest : List Str} {out : Dict Int (Dict Int (SecVal δ))} : ∀ (secs : List TSec),
    (∀ c ∈ secs, c.WF (theReader o) mat mf ∧ (∀ l ∈ c.lines, FullLine l) ∧ Leaves x T mf c.mt c.lines (P mf c)) →
    (secs.map (fun s => (mf, s))).Pairwise (fun p q => ¬ (p.1 = q.1 ∧ p.2.mt = q.2.mt)) →
    ∀ {s : CSt δ} {fuel : Nat}, Between s → (secs = [] → s.fend = false) → (secs.map TSec.lines).flatten ++ rest <:+ T →
    masterLoop x start fuel s ((secs.map TSec.lines).flatten ++ rest) = .ok out →
    ∃ fuel' s', masterLoop x start fuel' s' rest = .ok out ∧ Between s' ∧ s'.fend = false ∧ Stored P (secs.map (fun s => (mf, s))) s.out s'.out := by
  intro secs
  induction secs with
  | nil => intro _ _ s fuel hs hf _ h; exact ⟨fuel, s, h, hs, hf rfl, (fun p hp => by cases hp), fun _ _ _ => rfl⟩
  | cons c secs ih =>
    intro h hd s fuel hs _ hT hl
    obtain ⟨h1, h2, h3⟩ := h c (by simp)
    have e : ((c :: secs).map TSec.lines).flatten ++ rest = c.lines ++ ((secs.map TSec.lines).flatten ++ rest) := by simp
    rw [e] at hl hT
    obtain ⟨f1, s1, r1, b1, e1, st1⟩ := pass_sec ho h1 h2 h3 hs hT hl
    obtain ⟨f2, s2, r2, b2, e2, st2⟩ := ih (fun c hc => h c (by simp [hc])) (List.pairwise_cons.1 hd).2 b1 (fun _ => e1)
      ((List.suffix_append _ _).trans hT) r1
    exact ⟨f2, s2, r2, b2, e2, st1.append (l' := secs.map fun s => (mf, s)) hd st2⟩

/-- the files of a material -/
theorem pass_files {δ : Type} {x : CTape δ} {o : ROpts} (ho : o.width = 11) (hacc : x.acc = o.acceptSpaces) {start T : List Str} {mat : Int}
    {P : Int → TSec → δ → Prop} {rest : List Str} {out : Dict Int (Dict Int (SecVal δ))} : ∀ (files : List TFile),
    (∀ f ∈ files, f.WF (theReader o) mat ∧ (∀ l ∈ f.lines, FullLine l) ∧ ∀ c ∈ f.secs, Leaves x T f.mf c.mt c.lines (P f.mf c)) →
    (files.flatMap (fun f => f.secs.map (fun s => (f.mf, s)))).Pairwise (fun p q => ¬ (p.1 = q.1 ∧ p.2.mt = q.2.mt)) →
    ∀ {s : CSt δ} {fuel : Nat}, Between s → (files = [] → s.fend = true) → (files.map TFile.lines).flatten ++ rest <:+ T →
    masterLoop x start fuel s ((files.map TFile.lines).flatten ++ rest) = .ok out →
    ∃ fuel' s', masterLoop x start fuel' s' rest = .ok out ∧ Between s' ∧ s'.fend = true ∧
      Stored P (files.flatMap (fun f => f.secs.map (fun s => (f.mf, s)))) s.out s'.out := by
  intro files
  induction files with
  | nil => intro _ _ s fuel hs hf _ h; exact ⟨fuel, s, h, hs, hf rfl, (fun p hp => by cases hp), fun _ _ _ => rfl⟩
  | cons f files ih =>
    intro h hd s fuel hs _ hT hl
    obtain ⟨⟨w1, w2, w3⟩, h2, h3⟩ := h f (by simp)
    have e : ((f :: files).map TFile.lines).flatten ++ rest =
        (f.secs.map TSec.lines).flatten ++ (f.fend :: ((files.map TFile.lines).flatten ++ rest)) := by
      simp [TFile.lines]
    rw [e] at hl hT
    rw [List.flatMap_cons] at hd
    obtain ⟨d1, d2, _⟩ := List.pairwise_append.1 hd
    obtain ⟨f1, s1, r1, b1, e1, st1⟩ := pass_secs ho f.secs (fun c hc => ⟨w2 c hc, fun l hl =>
      h2 l (by unfold TFile.lines; simp only [List.mem_append, List.mem_flatten, List.mem_map]; exact .inl ⟨_, ⟨c, hc, rfl⟩, hl⟩),
      h3 c hc⟩) d1 hs (fun h => absurd h w1) hT hl
    obtain ⟨f2, s2, r, g1, g2⟩ := pass_step r1
    rw [(masterStep_end (start := start) ho hacc (h2 f.fend (by unfold TFile.lines; simp)) w3 b1.first _).1 b1.mend e1] at g1
    cases g1
    obtain ⟨f3, s3, r3, b3, e3, st3⟩ := ih (fun c hc => h c (by simp [hc])) d2 (s := { s1 with fend := true, lastMf := 0, first := false })
      ⟨rfl, b1.found, b1.mend, b1.tend, b1.sec, fun _ => rfl⟩ (fun _ => rfl) ((List.suffix_cons _ _).trans ((List.suffix_append _ _).trans hT)) g2
    exact ⟨f3, s3, r3, b3, e3, st1.append hd st3⟩

/-- a tape of one material -/
theorem pass_tape {δ : Type} {x : CTape δ} {o : ROpts} (ho : o.width = 11) (hacc : x.acc = o.acceptSpaces) {t : Tape} {m : TMat}
    (hwf : t.WF (theReader o)) (hm : t.mats = [m]) (htr : t.trail = []) (hfull : ∀ l ∈ t.lines, FullLine l) {P0 : δ → Prop}
    (h0 : Leaves x t.lines 0 0 [t.tpid] P0) {P : Int → TSec → δ → Prop} (hval : ∀ p ∈ m.sections, Leaves x t.lines p.1 p.2.mt p.2.lines (P p.1 p.2))
    (hdist : m.sections.Pairwise (fun p q => ¬ (p.1 = q.1 ∧ p.2.mt = q.2.mt))) {out : Dict Int (Dict Int (SecVal δ))}
    (h : masterParse x t.lines = .ok out) :
    (∃ d, P0 d ∧ secVal out 0 0 = some (.data d)) ∧ (∀ p ∈ m.sections, ∃ d, P p.1 p.2 d ∧ secVal out p.1 p.2.mt = some (.data d)) ∧
    ∀ a b, ¬ (a = 0 ∧ b = 0) → (∀ p ∈ m.sections, ¬ (p.1 = a ∧ p.2.mt = b)) → secVal out a b = none := by
  obtain ⟨⟨hb, mat, hc⟩, hmats, hte, _⟩ := hwf
  obtain ⟨hmf, hfiles, hmend⟩ := hmats m (by rw [hm]; simp)
  rw [theReader_ctrl, ho] at hc
  have hlines : t.lines = t.tpid :: ((m.files.map TFile.lines).flatten ++ [m.mend, t.tend]) := by
    unfold Tape.lines TMat.lines; rw [hm, htr]; simp
  have hmemf : ∀ f ∈ m.files, ∀ l ∈ f.lines, l ∈ t.lines := by
    intro f hf l hl
    rw [hlines]
    simp only [List.mem_cons, List.mem_append, List.mem_flatten, List.mem_map]
    exact .inr (.inl ⟨_, ⟨f, hf, rfl⟩, hl⟩)
  have hsec : ∀ p ∈ m.sections, p.1 ≠ 0 := by
    intro p hp
    unfold TMat.sections at hp
    simp only [List.mem_flatMap, List.mem_map] at hp
    obtain ⟨f, hf, c, hc, rfl⟩ := hp
    obtain ⟨_, g2, _⟩ := hfiles f hf
    obtain ⟨k1, k2, _⟩ := g2 c hc
    obtain ⟨l, ls, hds⟩ := List.exists_cons_of_ne_nil k1
    exact (k2 l (by rw [hds]; simp)).2.2.2.1
  unfold masterParse at h
  obtain ⟨q1, q2, q3⟩ := sees_of_ctrl (hfull t.tpid (by rw [hlines]; simp)) hc
  dsimp only at q1 q2 q3
  generalize hst : t.lines.length + 2 = n at h
  generalize hstart : t.lines = start at h
  rw [← hstart, hlines] at h
  rw [hstart] at h0 hlines hval hmemf
  obtain ⟨n1, s1, r1, h1, h2⟩ := pass_step h
  obtain ⟨f, hf, hsh, hcase⟩ := h0
  have hce : ¬ checkEnds x ({ found := true } : CSt δ) 0 = false := by unfold checkEnds; simp
  unfold masterStep at h1
  rw [q1, cbind_ok, q2, cbind_ok, q3, cbind_ok, if_neg (by simp), hf] at h1
  simp only [and_self, if_true, if_neg hce, hsh] at h1
  obtain ⟨⟨s2, r2⟩, h3, h4⟩ := cbind_ok'.1 h1
  obtain ⟨⟨d, r3⟩, h5, h6⟩ := cbind_ok'.1 h3
  cases h6
  cases h4
  obtain ⟨rfl, hP⟩ := hcase _ (by rw [hlines]; exact List.suffix_refl _) d _ h5
  obtain ⟨n3, s3, h7, b3, e3, st3⟩ := pass_files ho hacc (T := start) m.files (P := P) (fun f hf => ⟨hfiles f hf, fun l hl => hfull l (by rw [hstart]; exact hmemf f hf l hl),
    fun c hc => hval (f.mf, c) (by unfold TMat.sections; simp only [List.mem_flatMap, List.mem_map]; exact ⟨f, hf, c, hc, rfl⟩)⟩) hdist
    ⟨rfl, rfl, rfl, rfl, rfl, fun h => (by cases h)⟩ (fun h => absurd h hmf) (by rw [hlines]; exact List.suffix_cons _ _) h2
  obtain ⟨n4, s4, r4, g1, g2⟩ := pass_step h7
  rw [(masterStep_end ho hacc (hfull m.mend (by rw [hstart, hlines]; simp)) hmend b3.first _).2.1 b3.mend e3 rfl] at g1
  cases g1
  obtain ⟨n5, s5, r5, g3, g4⟩ := pass_step g2
  rw [(masterStep_end (s := { s3 with mend := true, lastMf := 0, first := false }) ho hacc (hfull t.tend (by rw [hstart, hlines]; simp)) hte rfl _).2.2 rfl rfl] at g3
  cases g3
  have hout : out = s3.out := by
    cases n5 with
    | zero => cases g4
    | succ k => cases g4; rfl
  subst hout
  refine ⟨⟨d, hP, ?_⟩, st3.1, fun a b hab hn => ?_⟩
  · rw [st3.2 0 0 (fun p hp e => hsec p hp e.1)]
    dsimp only
    rw [secVal_put, if_pos ⟨rfl, rfl⟩]
  · rw [st3.2 a b hn]
    dsimp only
    rw [secVal_put, if_neg hab]
    rfl

/-! ## the lines of a section in a tape -/

theorem flatten_none {α : Type} {l : List (List α)} (h : ∀ x ∈ l, x = []) : l.flatten = [] := List.flatten_eq_nil_iff.2 h

theorem sections_flatten (mf mt : Int) (files : List TFile) :
    (files.map (fun f => if f.mf = mf then (f.secs.map (fun s => if s.mt = mt then s.data else [])).flatten else [])).flatten =
      ((files.flatMap (fun f => f.secs.map (fun s => (f.mf, s)))).map (fun p : Int × TSec => if p.1 = mf ∧ p.2.mt = mt then p.2.data else [])).flatten := by
  induction files with
  | nil => rfl
  | cons f files ih =>
    rw [List.map_cons, List.flatten_cons, ih, List.flatMap_cons, List.map_append, List.flatten_append, List.map_map]
    congr 1
    split
    · rename_i h
      congr 1
      apply List.map_congr_left
      intro s _
      simp [h]
    · rename_i h
      symm
      apply flatten_none
      intro l hl
      obtain ⟨s, _, rfl⟩ := List.mem_map.1 hl
      simp [h]

theorem pick_flatten {l : List (Int × TSec)} (hd : l.Pairwise (fun p q => ¬ (p.1 = q.1 ∧ p.2.mt = q.2.mt))) {p : Int × TSec} (hp : p ∈ l) :
    (l.map (fun q : Int × TSec => if q.1 = p.1 ∧ q.2.mt = p.2.mt then q.2.data else [])).flatten = p.2.data := by
  induction l with
  | nil => cases hp
  | cons q l ih =>
    obtain ⟨h1, h2⟩ := List.pairwise_cons.1 hd
    rw [List.map_cons, List.flatten_cons]
    by_cases e : p = q
    · subst e
      rw [if_pos ⟨rfl, rfl⟩, flatten_none, List.append_nil]
      intro x hx
      obtain ⟨r, hr, rfl⟩ := List.mem_map.1 hx
      rw [if_neg (fun e => h1 r hr ⟨e.1.symm, e.2.symm⟩)]
    · have hp' : p ∈ l := (List.mem_cons.1 hp).resolve_left e
      rw [if_neg (h1 p hp'), List.nil_append]
      exact ih h2 hp'

/-- the sections of a tape of one material, if there is only one with each MF and MT -/
theorem tape_sec_of {r : ROpts} {t : Tape} {m : TMat} (ht : t.mats = [m]) (htr : t.trail = []) (hwf : t.WF (theReader r)) {d : MfDic}
    (hdist : m.sections.Pairwise (fun p q => ¬ (p.1 = q.1 ∧ p.2.mt = q.2.mt))) (h : splitSections { fields := r } t.lines = .ok d) :
    secOf d 0 0 = some [t.tpid] ∧ (∀ p ∈ m.sections, secOf d p.1 p.2.mt = some p.2.data) ∧
    ∀ a b, ¬ (a = 0 ∧ b = 0) → (∀ p ∈ m.sections, ¬ (p.1 = a ∧ p.2.mt = b)) → secOf d a b = none := by
  obtain ⟨t1, t2, t3⟩ := tape_secs ht htr hwf h
  obtain ⟨_, hmats, _⟩ := hwf
  obtain ⟨_, hfiles, _⟩ := hmats m (by rw [ht]; simp)
  refine ⟨t1, fun p hp => ?_, fun a b hab hn => ?_⟩
  · have hp' := hp
    unfold TMat.sections at hp'
    simp only [List.mem_flatMap, List.mem_map] at hp'
    obtain ⟨f, hf, c, hc, rfl⟩ := hp'
    obtain ⟨_, g2, _⟩ := hfiles f hf
    obtain ⟨k1, k2, _⟩ := g2 c hc
    obtain ⟨l, ls, hds⟩ := List.exists_cons_of_ne_nil k1
    obtain ⟨_, _, _, n1, n2⟩ := k2 l (by rw [hds]; simp)
    have e := pick_flatten hdist hp
    unfold TMat.sections at e
    rw [t2 _ _ n1 n2, sections_flatten, e]
    unfold entry
    rw [if_neg k1]
  · by_cases hz : a = 0 ∨ b = 0
    · exact t3 a b hz hab
    push Not at hz
    rw [t2 a b hz.1 hz.2, sections_flatten, flatten_none]
    · rfl
    · intro l hl
      obtain ⟨p, hp, rfl⟩ := List.mem_map.1 hl
      rw [if_neg (hn p hp)]

/-! ## one section -/

namespace CF

theorem endsSend_expand (p : Prog) : ∀ A : Abbs, endsSend (A.prog p) = endsSend p := by
  induction p with
  | skip => intro A; rfl
  | abbr n e => intro A; rfl
  | seq a b iha ihb => intro A; simp only [Abbs.prog, endsSend, ihb]
  | act a => intro A; cases a <;> rfl
  | sect r b ih => intro A; rfl
  | loop v a b body ih => intro A; rfl
  | ite c l t e iht ihe => intro A; simp only [Abbs.prog, endsSend, iht, ihe]

theorem endsPlain_expand (p : Prog) : ∀ A : Abbs, endsPlain (A.prog p) = endsPlain p := by
  induction p with
  | skip => intro A; rfl
  | abbr n e => intro A; rfl
  | seq a b iha ihb => intro A; simp only [Abbs.prog, endsPlain, ihb]
  | act a => intro A; cases a <;> rfl
  | sect r b ih => intro A; rfl
  | loop v a b body ih => intro A; rfl
  | ite c l t e iht ihe => intro A; simp only [Abbs.prog, endsPlain, iht, ihe]

/-- the functions of the compared recipes: the dictionary and the stream behind the section -/
theorem funRead_same {p : Prog} (hp : p ∈ Shipped.compared) {c : RCtx} {cc : FunCtx} (h0 : 0 < c.fuel) (hw : c.ro.width = 11) (hpres : c.ro.preserve = false)
    (hacc : cc.acc = c.ro.acceptSpaces) (hst : Strict c.po) (hpl : ∀ l ∈ c.lines, PlainLine l) (hbl : ∀ l ∈ c.lines, isBlankLine l = false)
    {mf : Int} {mt : Option Int} {k : Ctrl} (hk : FunCtrl c.lines mf mt k) (hfit : Fit c k (writeOut p) { cur := initWork [] })
    {s : RSt} {d : DDic} {r : List Str} (hpy : readSection c false p = .ok s) (hhead : HasHead p s) (hcpp : funRead cc p mf mt c.lines = .ok (d, r)) :
    SameAt (.dic s.cur) (.dic d) ∧ (endsSend p = true → r = c.lines.drop (s.ofs + 1)) ∧ (endsPlain p = true → r = c.lines.drop s.ofs) := by
  have h := List.all_eq_true.1 compared_ok p hp
  simp only [comparable, Bool.and_eq_true] at h
  obtain ⟨⟨hab, hwf⟩, h⟩ := h
  unfold funRead at hcpp
  cases hc : compile 50 (writeOut p) with
  | none => rw [hc] at h; cases h
  | some cd =>
    obtain ⟨code, defs⟩ := cd
    rw [hc] at h hcpp
    have hpy' : readSection c false (writeOut p) = .ok s := by
      rcases C87_partial p (of_decide_eq_true hab) c h0 false with ⟨s', h1, h2⟩ | ⟨e, s', _, h1, _⟩ | ⟨s', h1⟩
      · rw [hpy] at h1; cases h1; exact h2
      · rw [hpy] at h1; cases h1
      · rw [hpy] at h1; cases h1
    have := fun_read _ 50 (writeOut p) code defs hc h (wfB_ok hwf) c cc hw hpres hacc hst hpl hbl mf mt k hk hfit s d r hpy'
      (hhead.imp_left fun h => (headed_expand p none).trans h) hcpp
    unfold writeOut at this
    rw [endsSend_expand, endsPlain_expand] at this
    exact this

end CF

/-- what the interpreter makes of the lines `ls` of a section when it appends a SEND record -/
def ReadPy (x : PCtx) (k : Ctrl) (p : Prog) (ls : List Str) (z : Str) (s : RSt) : Prop :=
  writeSend x.wo false k = .ok [z] ∧ readSection ⟨ls ++ [z], x.split.fields, x.po, x.fuel⟩ false p = .ok s

/-- Conditions on a section of the file `T`: the recipe is one of the shipped ones, it ends with a SEND record, and for the section hold the
conditions of `C86_partial` and, for the records the interpreter has looked ahead at, the condition of `C88`. -/
def SharedSec (x : PCtx) (T : List Str) (mat mf : Int) (c : TSec) : Prop :=
  ∃ p, responsible x.trees mf c.mt = some p ∧ p ∈ Shipped.compared ∧ endsSend p = true ∧ ∀ z s, ReadPy x ⟨mat, mf, c.mt⟩ p c.data z s →
    Foreseen ⟨c.data ++ [z], x.split.fields, x.po, x.fuel⟩ s.recs p { cur := initWork [] } ∧ HasHead p s ∧
    ∀ rest, c.lines ++ rest <:+ T → Fit ⟨c.lines ++ rest, x.split.fields, x.po, x.fuel⟩ ⟨mat, mf, c.mt⟩ (writeOut p) { cur := initWork [] }

/-- the same for the tape head, for which the recipe has no SEND record -/
def SharedHead (x : PCtx) (T : List Str) (n : Int) (tpid : Str) : Prop :=
  ∃ p, responsible x.trees 0 0 = some p ∧ p ∈ Shipped.compared ∧ endsPlain p = true ∧ ∀ z s, ReadPy x ⟨n, 0, 0⟩ p [tpid] z s →
    Foreseen ⟨[tpid] ++ [z], x.split.fields, x.po, x.fuel⟩ s.recs p { cur := initWork [] } ∧ HasHead p s ∧
    s.ofs = 1 ∧ (∀ q ∈ s.recs, q.kind ≠ .send) ∧
    ∀ rest, tpid :: rest <:+ T → Fit ⟨tpid :: rest, x.split.fields, x.po, x.fuel⟩ ⟨n, 0, 0⟩ (writeOut p) { cur := initWork [] }

theorem funCtrl_own {trees : Dict Int RecipeEntry} {l : Str} {ls : List Str} {k : Ctrl} (hl : FullLine l) (hc : readCtrl 11 l = .ok k) :
    FunCtrl (l :: ls) k.mf (ownMt trees k.mf k.mt) k := by
  obtain ⟨q1, _, q3⟩ := sees_of_ctrl hl hc
  refine ⟨q1, rfl, ?_⟩
  rcases ownMt_cases trees k.mf k.mt with e | e
  · rw [e]
  · rw [e]
    exact q3

/-- what the interpreter has returned for the section -/
theorem readPy_of {x : PCtx} {a : PArgs} (ha : a.nofail = false) (hex : a.excl = none) (hin : a.incl = none) (hig : x.po.ignoreAll = false)
    (ho : x.wo.width = 11) (hcw : x.split.fields.width = 11) {mf mt : Int} {l : Str} {ls : List Str} {v : SecVal DDic} {k : Ctrl}
    (hk : readCtrl 11 l = .ok k) {p : Prog} (hp : responsible x.trees mf mt = some p) (h : parseSec x a x.fresh mf mt (l :: ls) = (x.fresh, .ok v)) :
    ∃ z s, ReadPy x k p (l :: ls) z s ∧ v = .data s.cur ∧ (theReader x.split.fields).IsEnd k.mat k.mf z := by
  obtain ⟨k', h1, h2⟩ := parseSec_made ha h
  have : k' = k := by
    rw [hcw] at h1
    change readCtrl 11 l = _ at h1
    rw [hk] at h1
    cases h1
    rfl
  subst this
  obtain ⟨z, hz, hze⟩ := writtenEnd (e := x.wo) (r := x.split.fields) (by omega) (by omega) false k'.mat k'.mf k'.mt (ctrl_fits hk)
    (writeSend x.wo false k') ⟨k'.mat, k'.mf, 0⟩ (by simp)
  cases v with
  | verb ls' =>
    obtain ⟨_, h2⟩ := h2
    rcases h2 with h2 | h2
    · rw [hp] at h2; cases h2
    · rw [hex, hin] at h2; cases h2
  | data d =>
    obtain ⟨p', snd, s, e1, _, e2, e3, rfl⟩ := h2
    rw [hp] at e1
    cases e1
    rw [hz] at e2
    cases e2
    have hf : x.fresh.ignoreAll = false := hig
    rw [hf] at e3
    exact ⟨z, s, ⟨hz, e3⟩, rfl, hze⟩

/-- **C96** (partial) Files of one material with a recipe for every section: if both the interpreter and the compiled parser accept the file, they
return the same sections with the same dictionaries.
Missing: the conditions on the sections (`SharedSec`), sections without recipe or that are not selected (see `C79_partial`), several materials,
blank lines and lines with less than 75 characters, tolerant options of the parser. -/
theorem C96_partial (x : PCtx) (a : PArgs) (cc : FunCtx) (ha : a.nofail = false) (hex : a.excl = none) (hin : a.incl = none)
    (hsp : x.split = { fields := x.split.fields }) (ho : x.wo.width = 11) (hcw : x.split.fields.width = 11) (hpre : x.split.fields.preserve = false)
    (hst : Strict x.po) (hig : x.po.ignoreAll = false) (hfu : 0 < x.fuel) (hacc : cc.acc = x.split.fields.acceptSpaces)
    (t : Tape) (m : TMat) (hwf : t.WF (theReader x.split.fields)) (hm : t.mats = [m]) (htr : t.trail = []) (hfull : ∀ l ∈ t.lines, FullLine l)
    (hbl : ∀ l ∈ t.lines, isBlankLine l = false) (hdist : m.sections.Pairwise (fun p q => ¬ (p.1 = q.1 ∧ p.2.mt = q.2.mt)))
    (hhead : ∀ n, readCtrl 11 t.tpid = .ok ⟨n, 0, 0⟩ → SharedHead x t.lines n t.tpid) (hsec : ∀ p ∈ m.sections, SharedSec x t.lines m.mat p.1 p.2)
    (ob : PObj) (res : Dict Int (Dict Int (SecVal DDic))) (hpy : parse x x.fresh { a with lines := t.lines } = (ob, .ok res))
    (out : Dict Int (Dict Int (SecVal DDic))) (hcpp : masterParse (x.reader none none cc) t.lines = .ok out) :
    ∀ mf mt, (valOf res mf mt = none ∧ secVal out mf mt = none) ∨
      ∃ d d', valOf res mf mt = some (.data d) ∧ secVal out mf mt = some (.data d') ∧ SameAt (.dic d) (.dic d') := by
  unfold parse at hpy
  dsimp only at hpy
  split at hpy
  · cases hpy
  rename_i D hD
  rw [hsp] at hD
  obtain ⟨t1, t2, t3⟩ := tape_sec_of hm htr hwf hdist hD
  have hval := parse_val (a := { a with lines := t.lines }) ha hpy
  obtain ⟨⟨hb, n, hc⟩, hmats, -, -⟩ := id hwf
  obtain ⟨-, hfiles, -⟩ := hmats m (by rw [hm]; simp)
  rw [theReader_ctrl, hcw] at hc
  have hmemT : ∀ {ls : List Str}, ls <:+ t.lines → ∀ l ∈ ls, l ∈ t.lines := fun h l hl => h.subset hl
  have hshould : ∀ a b, (x.reader none none cc).should a b = some true := fun _ _ => rfl
  -- the tape head
  have hH : ∃ v, valOf res 0 0 = some v ∧ parseSec x { a with lines := t.lines } x.fresh 0 0 [t.tpid] = (x.fresh, .ok v) := by
    rcases hval 0 0 with ⟨g1, _⟩ | ⟨ls, v, g1, g2, g3⟩
    · rw [t1] at g1; cases g1
    · rw [t1] at g1
      cases g1
      exact ⟨v, g2, g3⟩
  obtain ⟨v0, hv0, hp0⟩ := hH
  have hlines0 : ∃ rest, t.lines = t.tpid :: rest := ⟨_, rfl⟩
  have htp : t.tpid ∈ t.lines := by obtain ⟨r, e⟩ := hlines0; rw [e]; simp
  obtain ⟨p0, a1, a2, a3, a4⟩ := hhead n hc
  obtain ⟨z0, s0, a5, rfl, -⟩ := readPy_of (a := { a with lines := t.lines }) ha hex hin hig ho hcw hc a1 hp0
  obtain ⟨a6, a7, a8, a9, a10⟩ := a4 z0 s0 a5
  have hL0 : Leaves (x.reader none none cc) t.lines 0 0 [t.tpid] (fun d => SameAt (.dic s0.cur) (.dic d)) := by
    refine ⟨funRead cc p0 0 (ownMt x.trees 0 0), by unfold PCtx.reader; dsimp only; rw [a1]; rfl, hshould _ _, fun rest hT d r hr => ?_⟩
    rw [List.singleton_append] at hT hr
    obtain ⟨s2, b1, b2, b3⟩ := readSection_place (c := ⟨[t.tpid] ++ [z0], x.split.fields, x.po, x.fuel⟩) (L' := t.tpid :: rest) (n := 1) rfl
      (fun i hi => by
        obtain rfl : i = 0 := by omega
        exact ⟨t.tpid, rfl, hbl _ htp⟩) a6 a5.2 (by omega) (.inl a9)
    have := CF.funRead_same a2 (c := ⟨t.tpid :: rest, x.split.fields, x.po, x.fuel⟩) hfu hcw hpre hacc hst (fun l hl => (hfull l (hmemT hT l hl)).plain)
      (fun l hl => hbl l (hmemT hT l hl)) (funCtrl_own (trees := x.trees) (hfull _ htp) hc) (a10 rest hT) b1 (by unfold HasHead at a7 ⊢; rw [b2]; exact a7) hr
    refine ⟨?_, by rw [← b2]; exact this.1⟩
    rw [this.2.2 a3, b3, a8]
    rfl
  -- the sections
  have hS : ∀ p : Int × TSec, ∃ s : RSt, p ∈ m.sections → valOf res p.1 p.2.mt = some (.data s.cur) ∧
      Leaves (x.reader none none cc) t.lines p.1 p.2.mt p.2.lines (fun d => SameAt (.dic s.cur) (.dic d)) := by
    intro p
    by_cases hp : p ∈ m.sections
    swap
    · exact ⟨s0, fun h => absurd h hp⟩
    obtain ⟨mf, c⟩ := p
    obtain ⟨f, hf, hcf, rfl⟩ : ∃ f ∈ m.files, c ∈ f.secs ∧ f.mf = mf := by
      have hp' := hp
      unfold TMat.sections at hp'
      simp only [List.mem_flatMap, List.mem_map, Prod.mk.injEq] at hp'
      obtain ⟨f, hf, c', hc', e1, rfl⟩ := hp'
      exact ⟨f, hf, hc', e1⟩
    obtain ⟨k1, k2, k3⟩ := (hfiles f hf).2.1 c hcf
    obtain ⟨v, hv, hps⟩ : ∃ v, valOf res f.mf c.mt = some v ∧ parseSec x { a with lines := t.lines } x.fresh f.mf c.mt c.data = (x.fresh, .ok v) := by
      have e := t2 _ hp
      dsimp only at e
      rcases hval f.mf c.mt with ⟨g1, _⟩ | ⟨ls, v, g1, g2, g3⟩
      · rw [e] at g1; cases g1
      · rw [e] at g1
        cases g1
        exact ⟨v, g2, g3⟩
    obtain ⟨p0, a1, a2, a3, a4⟩ := hsec _ hp
    dsimp only at a1 a4
    obtain ⟨l, ls, hls⟩ := List.exists_cons_of_ne_nil k1
    obtain ⟨-, kc, -, -, -⟩ := k2 l (by rw [hls]; simp)
    rw [theReader_ctrl, hcw] at kc
    rw [hls] at hps
    obtain ⟨z, s, a5, rfl, a6⟩ := readPy_of (a := { a with lines := t.lines }) ha hex hin hig ho hcw kc a1 hps
    rw [← hls] at a5
    obtain ⟨b1, b2, b3⟩ := a4 z s a5
    have hofs := section_ofs (c := ⟨c.data ++ [z], x.split.fields, x.po, x.fuel⟩) (p := p0) (s := s) (data := c.data) (z := z) (mat := m.mat) (mf := f.mf) (mt := c.mt) rfl k2 b1 a3 a5.2
    refine ⟨s, fun _ => ⟨hv, funRead cc p0 f.mf (ownMt x.trees f.mf c.mt), by unfold PCtx.reader; dsimp only; rw [a1]; rfl, hshould _ _, fun rest hT d r hr => ?_⟩⟩
    have hcl : c.lines ++ rest = c.data ++ c.send :: rest := by unfold TSec.lines; simp
    obtain ⟨s2, e1, e2, e3⟩ := readSection_place (c := ⟨c.data ++ [z], x.split.fields, x.po, x.fuel⟩) (L' := c.lines ++ rest) (n := c.data.length)
      (by rw [hcl]; simp) (fun i hi => by
        refine ⟨c.data[i], by dsimp only; rw [List.getElem?_append_left hi, List.getElem?_eq_getElem hi], ?_⟩
        refine hbl _ (hmemT hT _ ?_)
        rw [hcl]
        exact List.mem_append_left _ (List.getElem_mem hi)) b1 a5.2 (by omega)
      (.inr ⟨z, c.send, m.mat, f.mf, by simp, by rw [hcl]; simp, a6, k3⟩)
    have hfl : c.lines ++ rest = l :: (ls ++ c.send :: rest) := by rw [hcl, hls]; rfl
    have := CF.funRead_same a2 (c := ⟨c.lines ++ rest, x.split.fields, x.po, x.fuel⟩) hfu hcw hpre hacc hst (fun l hl => (hfull l (hmemT hT l hl)).plain)
      (fun l hl => hbl l (hmemT hT l hl)) (by
        dsimp only
        rw [hfl]
        exact funCtrl_own (trees := x.trees) (hfull _ (hmemT hT l (by rw [hfl]; simp))) kc) (b3 rest hT) e1
      (by unfold HasHead at b2 ⊢; rw [e2]; exact b2) hr
    refine ⟨?_, by rw [← e2]; exact this.1⟩
    rw [this.2.1 a3, e3, hofs, hcl]
    simp
  choose S hS using hS
  obtain ⟨c1, c2, c3⟩ := pass_tape (P := fun mf c d => SameAt (.dic (S (mf, c)).cur) (.dic d)) hcw hacc hwf hm htr hfull hL0 (fun p hp => (hS p hp).2) hdist hcpp
  intro mf mt
  by_cases h00 : mf = 0 ∧ mt = 0
  · obtain ⟨rfl, rfl⟩ := h00
    obtain ⟨d, g1, g2⟩ := c1
    exact .inr ⟨_, d, hv0, g2, g1⟩
  by_cases hex : ∃ p ∈ m.sections, p.1 = mf ∧ p.2.mt = mt
  · obtain ⟨p, hp, rfl, rfl⟩ := hex
    obtain ⟨d, g1, g2⟩ := c2 p hp
    exact .inr ⟨_, d, (hS p hp).1, g2, g1⟩
  · have hn : ∀ p ∈ m.sections, ¬ (p.1 = mf ∧ p.2.mt = mt) := fun p hp e => hex ⟨p, hp, e⟩
    refine .inl ⟨?_, c3 mf mt h00 hn⟩
    rcases hval mf mt with ⟨_, g⟩ | ⟨ls, v, g1, _⟩
    · exact g
    · rw [t3 mf mt h00 hn] at g1
      cases g1

/-! ## cases -/

namespace ShippedEx
open FunEx CF CycleExample ReparseEx

def hasHeadB (p : Prog) (s : RSt) : Bool := headed p || ctlNames.all fun n => (dGet (.var n) s.cur).isSome

theorem hasHeadB_ok {p : Prog} {s : RSt} (h : hasHeadB p s = true) : HasHead p s := by
  unfold hasHeadB at h
  rw [Bool.or_eq_true, List.all_eq_true] at h
  exact h.imp_right fun h n hn e => by have := h n hn; rw [e] at this; cases this

/-- the conditions of `SharedSec` or `SharedHead` on the lines `ls` of a section with the lines `own` in the file `T` -/
def sharedB (x : PCtx) (T ls own : List Str) (k : Ctrl) (p : Prog) (more : RSt → Bool) : Bool :=
  match writeSend x.wo false k with
  | .ok [z] => (match readSection ⟨ls ++ [z], x.split.fields, x.po, x.fuel⟩ false p with
    | .ok s => aheadB ⟨ls ++ [z], x.split.fields, x.po, x.fuel⟩ s.recs p { cur := initWork [] } && hasHeadB p s && more s &&
      T.tails.all fun L => !own.isPrefixOf L || fitB ⟨L, x.split.fields, x.po, x.fuel⟩ k (writeOut p) { cur := initWork [] }
    | _ => false)
  | _ => false

theorem sharedB_ok {x : PCtx} {T ls own : List Str} {k : Ctrl} {p : Prog} {more : RSt → Bool} (h : sharedB x T ls own k p more = true) {z : Str} {s : RSt}
    (hr : ReadPy x k p ls z s) : Foreseen ⟨ls ++ [z], x.split.fields, x.po, x.fuel⟩ s.recs p { cur := initWork [] } ∧ HasHead p s ∧ more s = true ∧
      ∀ rest, own ++ rest <:+ T → Fit ⟨own ++ rest, x.split.fields, x.po, x.fuel⟩ k (writeOut p) { cur := initWork [] } := by
  unfold sharedB at h
  rw [hr.1] at h
  dsimp only at h
  rw [hr.2] at h
  simp only [Bool.and_eq_true, List.all_eq_true] at h
  obtain ⟨⟨⟨h1, h2⟩, h3⟩, h4⟩ := h
  refine ⟨aheadB_ok h1, hasHeadB_ok h2, h3, fun rest hT => fitB_ok ?_⟩
  have := h4 _ ((List.mem_tails _ _).2 hT)
  rw [List.isPrefixOf_iff_prefix.2 (List.prefix_append _ _)] at this
  simpa using this

def end96 (k : String) : Str := line ["0.0", "0.0", "0", "0", "0", "0"] k

def mat96 : TMat := ⟨125, [⟨1, [⟨451, lines451.dropLast, end96 " 125 1  099999"⟩], end96 " 125 0  0    0"⟩,
  ⟨3, [⟨1, lines3.dropLast, end96 " 125 3  099999"⟩], end96 " 125 0  0    0"⟩], end96 "   0 0  0    0"⟩

/-- a tape with MF1/MT451 and MF3/MT1 -/
def tape96 : Tape := ⟨textLine " Some tape" "   1 0  0    0", [mat96], end96 "  -1 0  0    0", []⟩

theorem mat96_wf : mat96.WF (theReader {}) := by
  have key : ∀ {mf mt : Int} {data : List Str}, mf ≠ 0 → mt ≠ 0 → (∀ l ∈ data, strip l ≠ [] ∧ readCtrl 11 l = .ok ⟨125, mf, mt⟩) →
      ∀ l ∈ data, (theReader {}).IsData 125 mf mt l :=
    fun h1 h2 h l hl => ⟨(h l hl).1, theReader_ctrl.2 (h l hl).2, by decide, h1, h2⟩
  refine ⟨by decide, ?_, isEnd_of (by decide +kernel) (by decide +kernel) (by decide +kernel)⟩
  intro f hf
  simp only [mat96, List.mem_cons, List.not_mem_nil, or_false] at hf
  rcases hf with rfl | rfl
  · refine ⟨by decide, fun c hc => ?_, isEnd_of (by decide +kernel) (by decide +kernel) (by decide +kernel)⟩
    rw [List.mem_singleton.1 hc]
    exact ⟨by decide, key (by decide) (by decide) (by decide +kernel), isEnd_of (by decide +kernel) (by decide +kernel) (by decide +kernel)⟩
  · refine ⟨by decide, fun c hc => ?_, isEnd_of (by decide +kernel) (by decide +kernel) (by decide +kernel)⟩
    rw [List.mem_singleton.1 hc]
    exact ⟨by decide, key (by decide) (by decide) (by decide +kernel), isEnd_of (by decide +kernel) (by decide +kernel) (by decide +kernel)⟩

theorem tape96_wf : tape96.WF (theReader {}) :=
  ⟨⟨by show strip _ ≠ []; decide +kernel, 1, theReader_ctrl.2 (by decide +kernel)⟩, by intro m hm; rw [List.mem_singleton.1 hm]; exact mat96_wf,
    isEnd_of (by decide +kernel) (by decide +kernel) (by decide +kernel), by intro l hl; cases hl⟩

theorem head96 : ∀ n, readCtrl 11 tape96.tpid = .ok ⟨n, 0, 0⟩ → SharedHead ctx95 tape96.lines n tape96.tpid := by
  intro n hn
  have h1 : readCtrl 11 tape96.tpid = .ok ⟨1, 0, 0⟩ := by decide +kernel
  rw [h1] at hn
  cases hn
  have h : sharedB ctx95 tape96.lines [tape96.tpid] [tape96.tpid] ⟨1, 0, 0⟩ Shipped.mf0_mt0_tapehead
      (fun s => decide (s.ofs = 1) && s.recs.all fun q => decide (q.kind ≠ .send)) = true := by decide +kernel
  refine ⟨Shipped.mf0_mt0_tapehead, rfl, by simp [Shipped.compared], by decide +kernel, fun z s hr => ?_⟩
  obtain ⟨g1, g2, g3, g4⟩ := sharedB_ok h hr
  simp only [Bool.and_eq_true, decide_eq_true_eq, List.all_eq_true] at g3
  exact ⟨g1, g2, g3.1, g3.2, g4⟩

theorem secs96 : ∀ p ∈ mat96.sections, SharedSec ctx95 tape96.lines mat96.mat p.1 p.2 := by
  intro p hp
  unfold TMat.sections mat96 at hp
  simp only [List.flatMap_cons, List.flatMap_nil, List.map_cons, List.map_nil, List.append_nil, List.cons_append, List.nil_append, List.mem_cons,
    List.not_mem_nil, or_false] at hp
  have key : ∀ {mf : Int} {c : TSec} {p : Prog}, responsible ctx95.trees mf c.mt = some p → p ∈ Shipped.compared → endsSend p = true →
      sharedB ctx95 tape96.lines c.data c.lines ⟨125, mf, c.mt⟩ p (fun _ => true) = true → SharedSec ctx95 tape96.lines 125 mf c := by
    intro mf c p h1 h2 h3 h4
    refine ⟨p, h1, h2, h3, fun z s hr => ?_⟩
    obtain ⟨g1, g2, -, g4⟩ := sharedB_ok h4 hr
    exact ⟨g1, g2, g4⟩
  rcases hp with rfl | rfl
  · exact key (p := Shipped.mf1_mt451) rfl (by simp [Shipped.compared]) (by decide +kernel) (by decide +kernel)
  · exact key (p := Shipped.mf3) rfl (by simp [Shipped.compared]) (by decide +kernel) (by decide +kernel)

def isOkR {α : Type} : CRes α → Bool
  | .ok _ => true
  | _ => false

def parsedB (r : PObj × Res (Dict Int (Dict Int (SecVal DDic)))) (mf mt : Int) (at_ : List Key) (v : Rat) : Bool :=
  match r with
  | (_, .ok res) => (match valOf res mf mt with | some (.data d) => numAt (valAt (.dic d) at_) == some v | _ => false)
  | _ => false

end ShippedEx

open ShippedEx FunEx CF in
/-- the tape is read by both parsers -/
example : ∃ ob res out d d', parse ctx95 ctx95.fresh { lines := tape96.lines } = (ob, .ok res) ∧
    masterParse (ctx95.reader none none { ctrl := ⟨0, 0, 0⟩ }) tape96.lines = .ok out ∧
    valOf res 3 1 = some (.data d) ∧ secVal out 3 1 = some (.data d') ∧ SameAt (.dic d) (.dic d') ∧ numAt (valAt (.dic d) [.var "QI"]) = some (-2500000) := by
  have h1 : parsedB (parse ctx95 ctx95.fresh { lines := tape96.lines }) 3 1 [.var "QI"] (-2500000) = true := by decide +kernel
  have h2 : isOkR (masterParse (ctx95.reader none none { ctrl := ⟨0, 0, 0⟩ }) tape96.lines) = true := by decide +kernel
  unfold parsedB at h1
  split at h1
  swap
  · cases h1
  rename_i ob res hpy
  cases hcpp : masterParse (ctx95.reader none none { ctrl := ⟨0, 0, 0⟩ }) tape96.lines with
  | throw => rw [hcpp] at h2; cases h2
  | undef => rw [hcpp] at h2; cases h2
  | ok out =>
    split at h1
    swap
    · cases h1
    rename_i d hd
    rcases C96_partial ctx95 { lines := [] } { ctrl := ⟨0, 0, 0⟩ } rfl rfl rfl rfl rfl rfl rfl ⟨rfl, rfl, rfl, rfl⟩ rfl (by decide) rfl tape96 mat96 tape96_wf rfl rfl
      (by decide +kernel) (by decide +kernel) (by decide) head96 secs96 _ res hpy out hcpp 3 1 with ⟨g, _⟩ | ⟨e, e', g1, g2, g3⟩
    · rw [g] at hd; cases hd
    · rw [g1] at hd
      cases hd
      exact ⟨ob, res, out, _, e', hpy, rfl, g1, g2, g3, by simpa using h1⟩

end Verif
