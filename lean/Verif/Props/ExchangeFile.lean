import Verif.Model.CppFile
import Verif.Lemmas.ExchangeFile

/-! Property C95: files written by the compiled parser and read by the interpreter. -/

namespace Verif
open Spec

/-! ## sections of a tape -/

/-- the first line of a tape -/
theorem tape_headSec {r : ROpts} {tpid : Str} {rest : List Str} {k : Ctrl} (hb : strip tpid ≠ []) (hk : readCtrl r.width tpid = .ok k) (h0 : k.mf = 0)
    (h1 : k.mt = 0) {d : MfDic} (h : splitSections { fields := r } (tpid :: rest) = .ok d) : secOf d 0 0 = some [tpid] := by
  rcases C22_head _ _ _ h 0 0 (Or.inl rfl) with hn | ⟨_, _, x, hx, hsec⟩
  · exfalso
    obtain ⟨pre, y, rest', c', st, e1, e2, e3, e4, e5, e6, e7⟩ := splitSections_ok h
    have hpre : pre = [] := by
      cases pre with
      | nil => rfl
      | cons z zs =>
        simp only [List.cons_append, List.cons.injEq] at e1
        exact absurd (e2 z (by simp)) (by rw [← e1.1]; exact hb)
    subst hpre
    simp only [List.nil_append, List.cons.injEq] at e1
    rw [← e1.1] at e4
    dsimp only at e4
    rw [hk] at e4
    cases e4
    rcases e7 with ⟨e8, _⟩ | ⟨_, _, e8⟩
    · exact e8.elim (absurd h0) (absurd h1)
    · have := splitLoop_dic_zero _ _ _ e8 0 0 (Or.inl rfl)
      rw [e5, hn, secOf_addLine] at this
      simp at this
  · rw [List.head?_cons] at hx
    cases hx
    exact hsec

/-- the sections of a tape of one material -/
theorem tape_secs {r : ROpts} {t : Tape} {m : TMat} (ht : t.mats = [m]) (htr : t.trail = []) (hwf : t.WF (theReader r)) {d : MfDic}
    (h : splitSections { fields := r } t.lines = .ok d) : secOf d 0 0 = some [t.tpid] ∧
    (∀ mf mt, mf ≠ 0 → mt ≠ 0 → secOf d mf mt =
      entry ((m.files.map (fun f => if f.mf = mf then (f.secs.map (fun s => if s.mt = mt then s.data else [])).flatten else [])).flatten)) ∧
    ∀ mf mt, (mf = 0 ∨ mt = 0) → ¬ (mf = 0 ∧ mt = 0) → secOf d mf mt = none := by
  obtain ⟨⟨hb, n, hc⟩, hm, hte, -⟩ := hwf
  obtain ⟨tpid, mats, tend, trail⟩ := t
  dsimp only at ht htr
  subst ht htr
  obtain ⟨_, hf, hme⟩ := hm m (by simp)
  have hk := theReader_ctrl.1 hc
  refine ⟨tape_headSec hb hk rfl rfl h, ?_, ?_⟩
  · intro mf mt hmf hmt
    rw [C22_sections _ _ _ h mf mt hmf hmt]
    congr 1
    have hlines : Tape.lines ⟨tpid, [m], tend, []⟩ = tpid :: ((m.files.map TFile.lines).flatten ++ [m.mend] ++ [tend]) := by
      simp [Tape.lines, TMat.lines]
    dsimp only
    rw [hlines, List.filter_cons_of_neg (by rw [carries_zero hk rfl]; simp), List.filter_append, List.filter_append,
      List.filter_cons_of_neg (by rw [carries_end hme]; simp), List.filter_cons_of_neg (by rw [carries_end hte]; simp), filter_files hf]
    simp
  · intro mf mt hz hn
    rcases C22_head _ _ _ h mf mt hz with h2 | ⟨h2, h2', _⟩
    · exact h2
    · exact absurd ⟨h2, h2'⟩ hn

/-! ## sections that can be exchanged -/

/-- The dictionary `d` of a section with the numbers `k` meets the conditions of `C94_cycle_partial` for the responsible recipe, one of the
shipped ones, and is written by both parsers. -/
def Exchangeable (x : PCtx) (a : PArgs) (fuel : Nat) (k : Ctrl) (d : DDic) : Prop :=
  ∃ p ls s w code defs v y, responsible x.trees k.mf k.mt = some p ∧ p ∈ Shipped.written ∧ shouldSkip k.mf k.mt a.excl a.incl = false ∧
    FitsCtrl k.mat k.mf k.mt ∧ readSection ⟨ls, x.split.fields, x.po, x.fuel⟩ false p = .ok s ∧ s.cur = d ∧
    Faithful ⟨ls, x.split.fields, x.po, x.fuel⟩ x.wo p k s ∧ CtrlAll k (numbered k.mf k.mt d) ∧
    Unshadowed (looked (writeOut p)) (numbered k.mf k.mt d) ∧ Positive (starts (writeOut p)) (numbered k.mf k.mt d) ∧
    writeSection x.fuel k.mf k.mt p d = .ok w ∧ (∀ q ∈ w.out, RecOk q) ∧ sectionLines x.fuel x.wo false k.mf k.mt p d = .ok y ∧
    compile 50 (writeOut p) = some (code, defs) ∧ writeFun fuel k.mf (ownMt x.trees k.mf k.mt) code defs d = .ok v

theorem ownMt_cases (trees : Dict Int RecipeEntry) (mf mt : Int) : ownMt trees mf mt = some mt ∨ ownMt trees mf mt = none := by
  unfold ownMt
  split
  · split
    · exact .inr rfl
    · cases dGet mt _ with
      | none => exact .inr rfl
      | some _ => exact .inl rfl
  · exact .inr rfl

theorem ctrlD_int {d : DDic} {n : Name} {i : Int} (h : dGet (.var n) d = some (.num (.int i))) {j : Int} (hj : ctrlD d n none = .ok j) : j = i := by
  unfold ctrlD at hj
  have : dictVal d [] ⟨n, []⟩ = .ok (.num (.int i)) := by
    unfold dictVal
    rw [show cIdxs [] [] = CRes.ok [] from rfl, cbind_ok, h]
    rfl
  dsimp only at hj
  rw [this, cbind_ok] at hj
  by_cases hr : intMin ≤ i ∧ i ≤ intMax
  · rw [show pyCast .int (.num (.int i)) = CRes.ok (.num (.int i)) by unfold pyCast castInt; simp only [if_pos hr]; rfl] at hj
    cases hj
    rfl
  · rw [show pyCast .int (.num (.int i)) = CRes.throw by unfold pyCast castInt; simp only [if_neg hr]; rfl] at hj
    cases hj

/-- what becomes of such a section -/
theorem exchangeable_sec {x : PCtx} {a : PArgs} {fuel : Nat} {k : Ctrl} {d : DDic} (ho : x.wo.width = 11) (hpn : x.wo.preferNoexp = false)
    (hcw : x.split.fields.width = 11) (hpre : x.split.fields.preserve = false) (hst : Strict x.po) (hfu : 0 < x.fuel) (h : Exchangeable x a fuel k d) :
    ∃ body tail f, (x.compiled none none fuel).fn k.mf k.mt = some f ∧ f d = some (body ++ tail) ∧ (x.compiled none none fuel).mat d = some k.mat ∧
      body ≠ [] ∧ (∀ l ∈ body, readCtrl 11 l = .ok k ∧ strip l ≠ []) ∧ (k.mf = 0 → (∃ l, body = [l]) ∧ tail = []) ∧
      (k.mf ≠ 0 → ∃ z, tail = [z] ∧ (theReader x.split.fields).IsEnd k.mat k.mf z) ∧
      ∀ lines, Made x { a with lines := lines } false k.mf k.mt body k (.data d) := by
  obtain ⟨p, ls, s, w, code, defs, v, ⟨y, k'⟩, h1, h2, h3, h4, h5, rfl, h6, h7, h8, h9, h10, h11, h12, h13, h14⟩ := h
  obtain ⟨_, _, hc, hb⟩ := C92_partial p h2
  rw [h13] at hc
  cases hc
  have has := hb x.fuel fuel hfu k.mf k.mt _ (ownMt_cases _ _ _) s.cur (C37_read _ false p s h5) k h7 h8 h9 w v h10 h14
  have h14' := h14
  unfold writeFun at h14'
  obtain ⟨n, m1, h14'⟩ := cbind_ok'.1 h14'
  obtain ⟨t, m2, h14'⟩ := cbind_ok'.1 h14'
  obtain ⟨c1, c2, c3⟩ := h6.ctrls [] s.cur .top h6.mat
  obtain rfl := ctrlD_int c1 m1
  have ht : t = k.mt := by
    rcases ownMt_cases x.trees k.mf k.mt with e | e
    · rw [e] at m2
      cases m2
      rfl
    · rw [e] at m2
      exact ctrlD_int c3 m2
  subst ht
  obtain ⟨snd, hsnd, -⟩ := writtenEnd (e := x.wo) (r := x.split.fields) (by omega) (by omega) false k.mat k.mf k.mt h4
    (writeSend x.wo false k) ⟨k.mat, k.mf, 0⟩ (by simp)
  obtain ⟨body, tail, g1, g2, g3, g4, g5, s2, g6, g7⟩ := section_compiled ho hpn hcw hpre hst h5 h6 h4 h10 h11 has h12 (cppFirst k.mf k.mt) hsnd
  refine ⟨body, tail, _, by unfold PCtx.compiled; dsimp only; rw [h1]; rfl, ?_, ?_, g2, g3, g4, ?_, ?_⟩
  · unfold funLines
    dsimp only
    rw [h13]
    dsimp only
    rw [m2, h14]
    exact g1
  · unfold PCtx.compiled
    dsimp only
    rw [m1]
  · intro hz
    obtain ⟨z, e1, e2⟩ := g5 hz
    exact ⟨z, e1, e2 _ hcw⟩
  · intro lines
    exact ⟨p, _, s2, h1, h3, hsnd, g6, g7.symm⟩

/-- **C95** (partial) Files of one material with sections as in `C94_cycle_partial`: the compiled parser writes the file, and the
interpreter reads from it the tape head and every section, with exactly the same dictionaries, and nothing else.
Missing: the conditions on the sections (`Exchangeable`), sections given as lines, several materials, tolerant options of the parser. -/
theorem C95_partial (x : PCtx) (a : PArgs) (fuel : Nat) (ha : a.nofail = false) (hsp : x.split = { fields := x.split.fields }) (ho : x.wo.width = 11)
    (hpn : x.wo.preferNoexp = false) (hcw : x.split.fields.width = 11) (hpre : x.split.fields.preserve = false) (hst : Strict x.po)
    (hig : x.po.ignoreAll = false) (hfu : 0 < x.fuel) (n : Int) (head : DDic) (hh : Exchangeable x a fuel ⟨n, 0, 0⟩ head) (mat : Int) (hm0 : mat ≠ 0)
    (secs : List (Int × List Int)) (hne : secs ≠ []) (hasc : (secs.map Prod.fst).Pairwise (· < ·)) (val : Int → Int → DDic)
    (hsec : ∀ q ∈ secs, q.1 ≠ 0 ∧ q.2 ≠ [] ∧ q.2.Pairwise (· < ·) ∧ ∀ mt ∈ q.2, mt ≠ 0 ∧ Exchangeable x a fuel ⟨mat, q.1, mt⟩ (val q.1 mt)) :
    ∃ out res, masterWrite (x.compiled none none fuel) ((0, 0, .data head) :: secs.flatMap fun q => q.2.map fun mt => (q.1, mt, .data (val q.1 mt))) = .ok out ∧
      parse x x.fresh { a with lines := out } = (x.fresh, .ok res) ∧ valOf res 0 0 = some (.data head) ∧
      (∀ q ∈ secs, ∀ mt ∈ q.2, valOf res q.1 mt = some (.data (val q.1 mt))) ∧
      ∀ mf mt, valOf res mf mt ≠ none → (mf = 0 ∧ mt = 0) ∨ ∃ q ∈ secs, q.1 = mf ∧ mt ∈ q.2 := by
  have key : ∀ mf mt, ∃ c : TSec, (∃ q ∈ secs, q.1 = mf ∧ mt ∈ q.2) → c.mt = mt ∧
      WritesSec (x.compiled none none fuel) x.split.fields mat mf c (.data (val mf mt)) ∧ (∀ l ∈ c.data, readCtrl 11 l = .ok ⟨mat, mf, mt⟩) ∧
      ∀ lines, Made x { a with lines := lines } false mf mt c.data ⟨mat, mf, mt⟩ (.data (val mf mt)) := by
    intro mf mt
    by_cases hq : ∃ q ∈ secs, q.1 = mf ∧ mt ∈ q.2
    · obtain ⟨q, hq1, rfl, hq2⟩ := hq
      obtain ⟨z1, z2, z3, z4⟩ := hsec q hq1
      obtain ⟨z5, z6⟩ := z4 mt hq2
      obtain ⟨body, tail, f, e1, e2, e3, e4, e5, -, e6, e7⟩ := exchangeable_sec ho hpn hcw hpre hst hfu z6
      obtain ⟨z, rfl, e8⟩ := e6 z1
      refine ⟨⟨mt, body, z⟩, fun _ => ⟨rfl, ⟨rfl, ⟨f, e1, ?_⟩, ?_, ⟨e4, ?_, e8⟩⟩, fun l hl => (e5 l hl).1, e7⟩⟩
      · dsimp only
        rw [e2]
        rfl
      · unfold matOf
        dsimp only
        rw [e3]
        rfl
      · intro l hl
        obtain ⟨e9, e10⟩ := e5 l hl
        exact ⟨e10, theReader_ctrl.2 (by rw [hcw]; exact e9), hm0, z1, z5⟩
    · exact ⟨⟨0, [], []⟩, fun h => absurd h hq⟩
  choose sec hs using key
  obtain ⟨body, tail, f, e1, e2, e3, e4, e5, e6, -, e7⟩ := exchangeable_sec ho hpn hcw hpre hst hfu hh
  obtain ⟨⟨tpid, rfl⟩, rfl⟩ := e6 rfl
  obtain ⟨e8, e9⟩ := e5 tpid (by simp)
  have hmat : FitsCtrl mat 0 0 := by
    obtain ⟨q, hq⟩ := List.exists_mem_of_ne_nil _ hne
    obtain ⟨_, z2, _, z4⟩ := hsec q hq
    obtain ⟨mt, hmt⟩ := List.exists_mem_of_ne_nil _ z2
    obtain ⟨_, _, _, _, _, _, _, _, _, _, _, g, _⟩ := (z4 mt hmt).2
    unfold FitsCtrl at g ⊢
    dsimp only at g
    omega
  have hfiles : ∀ p ∈ secs.map (fun q => (q.1, q.2.map (sec q.1))), p.1 ≠ 0 ∧ p.2 ≠ [] ∧
      ∀ c ∈ p.2, WritesSec (x.compiled none none fuel) x.split.fields mat p.1 c (.data (val p.1 c.mt)) := by
    intro p hp
    obtain ⟨q, hq, rfl⟩ := List.mem_map.1 hp
    obtain ⟨z1, z2, -, -⟩ := hsec q hq
    refine ⟨z1, by simpa using z2, fun c hc => ?_⟩
    obtain ⟨mt, hmt, rfl⟩ := List.mem_map.1 hc
    obtain ⟨g1, g2, -⟩ := hs q.1 mt ⟨q, hq, rfl, hmt⟩
    dsimp only
    rw [g1]
    exact g2
  obtain ⟨fend, mend, tend, w1, wf, -, d2, hd2⟩ := C81_partial (x.compiled none none fuel) x.split.fields hcw mat hmat tpid (.data head)
    ⟨e9, n, theReader_ctrl.2 (by rw [hcw]; exact e8)⟩ rfl ⟨f, e1, by dsimp only; rw [e2]; rfl⟩ ⟨n, by unfold matOf; dsimp only; rw [e3]; rfl⟩
    (secs.map fun q => (q.1, q.2.map (sec q.1))) (by simpa using hne) (by rw [List.map_map]; exact hasc) (fun mf c => .data (val mf c.mt)) hfiles
  have hin : (secs.map (fun q => (q.1, q.2.map (sec q.1)))).flatMap (fun p => p.2.map fun c => ((p.1, c.mt, .data (val p.1 c.mt)) : Int × Int × SecVal DDic)) =
      secs.flatMap fun q => q.2.map fun mt => (q.1, mt, .data (val q.1 mt)) := by
    rw [List.flatMap_map]
    unfold List.flatMap
    congr 1
    apply List.map_congr_left
    intro q hq
    dsimp only
    rw [List.map_map]
    apply List.map_congr_left
    intro mt hmt
    obtain ⟨g1, -⟩ := hs q.1 mt ⟨q, hq, rfl, hmt⟩
    dsimp only [Function.comp]
    rw [g1]
  rw [hin] at w1
  obtain ⟨t1, t2, t3⟩ := tape_secs rfl rfl wf hd2
  generalize Tape.lines _ = out at w1 hd2
  rw [← hsp] at hd2
  have hnd2 := splitSections_nodup hd2
  -- the sections of the file
  have hA : ∀ q ∈ secs, ∀ mt ∈ q.2, secOf d2 q.1 mt = some (sec q.1 mt).data := by
    intro q hq mt hmt
    obtain ⟨z1, z2, z3, z4⟩ := hsec q hq
    obtain ⟨-, g2, -⟩ := hs q.1 mt ⟨q, hq, rfl, hmt⟩
    rw [t2 q.1 mt z1 (z4 mt hmt).1]
    dsimp only
    have hnd : DNodup (secs.map fun q => (q.1, q.2.map (sec q.1))) := by
      unfold DNodup dKeys
      rw [List.map_map]
      exact hasc.imp (fun h => ne_of_lt h)
    rw [List.map_map]
    have e1 := flatten_ite (fun l : List TSec => (l.map (fun s => if s.mt = mt then s.data else [])).flatten) q.1 _ hnd
    have e2 : dGet q.1 (secs.map fun q => (q.1, q.2.map (sec q.1))) = some (q.2.map (sec q.1)) := dGet_of_mem hnd (List.mem_map.2 ⟨q, hq, rfl⟩)
    rw [e2] at e1
    have hnd3 : DNodup (q.2.map fun t => (t, (sec q.1 t).data)) := by
      unfold DNodup dKeys
      rw [List.map_map]
      have : (Prod.fst ∘ fun t => (t, (sec q.1 t).data)) = id := rfl
      rw [this, List.map_id]
      exact z3.imp (fun h => ne_of_lt h)
    have e3 := flatten_ite (fun l : List Str => l) mt _ hnd3
    have e4 : dGet mt (q.2.map fun t => (t, (sec q.1 t).data)) = some (sec q.1 mt).data := dGet_of_mem hnd3 (List.mem_map.2 ⟨mt, hmt, rfl⟩)
    rw [e4, List.map_map] at e3
    have e5 : (q.2.map (sec q.1)).map (fun s => if s.mt = mt then s.data else []) =
        q.2.map ((fun p : Int × List Str => if p.1 = mt then p.2 else []) ∘ fun t => (t, (sec q.1 t).data)) := by
      rw [List.map_map]
      apply List.map_congr_left
      intro t ht
      obtain ⟨g1, -⟩ := hs q.1 t ⟨q, hq, rfl, ht⟩
      dsimp only [Function.comp]
      rw [g1]
    simp only [Option.map_some, Option.getD_some] at e1 e3
    rw [e5, e3] at e1
    have e6 : (fun f : TFile => if f.mf = q.1 then (f.secs.map (fun s => if s.mt = mt then s.data else [])).flatten else []) ∘
        (fun p : Int × List TSec => (⟨p.1, p.2, fend⟩ : TFile)) =
        fun p => if p.1 = q.1 then (p.2.map (fun s => if s.mt = mt then s.data else [])).flatten else [] := rfl
    rw [e6, e1]
    unfold entry
    rw [if_neg g2.wf.1]
  have hB : ∀ mf mt, secOf d2 mf mt ≠ none → (mf = 0 ∧ mt = 0) ∨ ∃ q ∈ secs, q.1 = mf ∧ mt ∈ q.2 := by
    intro mf mt hn
    by_cases h0 : mf = 0 ∧ mt = 0
    · exact .inl h0
    by_cases hz : mf = 0 ∨ mt = 0
    · exact absurd (t3 mf mt hz h0) hn
    push Not at hz
    rw [t2 mf mt hz.1 hz.2] at hn
    right
    unfold entry at hn
    split at hn
    · exact absurd rfl hn
    · rename_i hl
      obtain ⟨l, hl⟩ := List.exists_mem_of_ne_nil _ hl
      simp only [List.mem_flatten, List.mem_map] at hl
      obtain ⟨_, ⟨_, ⟨_, ⟨q, hq, rfl⟩, rfl⟩, rfl⟩, hl⟩ := hl
      dsimp only at hl
      split at hl
      · rename_i hmf
        simp only [List.mem_flatten, List.mem_map] at hl
        obtain ⟨_, ⟨_, ⟨t, ht, rfl⟩, rfl⟩, hl⟩ := hl
        split at hl
        · rename_i hmt
          rw [(hs q.1 t ⟨q, hq, rfl, ht⟩).1] at hmt
          exact ⟨q, hq, hmf, by rw [← hmt]; exact ht⟩
        · cases hl
      · cases hl
  -- what is made of them
  have hmade : ∀ mf mt ls2, secOf d2 mf mt = some ls2 → ∃ v2, parseSec x { a with lines := out } x.fresh mf mt ls2 = (x.fresh, .ok v2) ∧
      ((mf = 0 ∧ mt = 0 ∧ v2 = .data head) ∨ ((∃ q ∈ secs, q.1 = mf ∧ mt ∈ q.2) ∧ v2 = .data (val mf mt))) := by
    intro mf mt ls2 hs2
    have fin : ∀ (k : Ctrl) v2, (lineAt ls2 0 >>= readCtrl x.split.fields.width) = .ok k → Made x { a with lines := out } false mf mt ls2 k v2 →
        parseSec x { a with lines := out } x.fresh mf mt ls2 = (x.fresh, .ok v2) := by
      intro k v2 g3 g4
      rw [← hig] at g4
      obtain ⟨o2, g6⟩ := made_parseSec (o := x.fresh) g3 g4
      have := parseSec_keep_ok (a := { a with lines := out }) ha g6
      subst this
      exact g6
    rcases hB mf mt (by rw [hs2]; simp) with ⟨rfl, rfl⟩ | ⟨q, hq, rfl, hmt⟩
    · rw [t1] at hs2
      cases hs2
      exact ⟨_, fin _ _ (by rw [hcw]; exact e8) (e7 out), .inl ⟨rfl, rfl, rfl⟩⟩
    · rw [hA q hq mt hmt] at hs2
      cases hs2
      obtain ⟨-, g2, g3, g4⟩ := hs q.1 mt ⟨q, hq, rfl, hmt⟩
      refine ⟨_, fin ⟨mat, q.1, mt⟩ _ ?_ (g4 out), .inr ⟨⟨q, hq, rfl, hmt⟩, rfl⟩⟩
      rw [hcw]
      cases hdt : (sec q.1 mt).data with
      | nil => exact absurd hdt g2.wf.1
      | cons l ls => exact g3 l (by rw [hdt]; simp)
  obtain ⟨res, hr⟩ : ∃ res, parseMfs x { a with lines := out } x.fresh d2 = (x.fresh, .ok res) := by
    apply parseMfs_run
    rintro ⟨mf, m⟩ hq ⟨mt, ls2⟩ hs2
    have g1 := dGet_of_mem hnd2.1 hq
    have g2 := dGet_of_mem (hnd2.2 mf m g1) hs2
    obtain ⟨v2, g, -⟩ := hmade mf mt ls2 (by unfold secOf; rw [g1]; exact g2)
    exact ⟨v2, g⟩
  have hval := parse_val (a := { a with lines := out }) ha hr
  refine ⟨out, res, w1, ?_, ?_, ?_, ?_⟩
  · unfold parse
    dsimp only
    rw [hd2]
    exact hr
  · rcases hval 0 0 with ⟨g1, _⟩ | ⟨ls2, v', g1, g2, g3⟩
    · rw [t1] at g1; cases g1
    · obtain ⟨v2, g4, ⟨-, -, rfl⟩ | ⟨⟨q, hq, g5, -⟩, -⟩⟩ := hmade 0 0 ls2 g1
      · rw [g4] at g3; cases g3; exact g2
      · exact absurd g5 (hsec q hq).1
  · intro q hq mt hmt
    rcases hval q.1 mt with ⟨g1, _⟩ | ⟨ls2, v', g1, g2, g3⟩
    · rw [hA q hq mt hmt] at g1; cases g1
    · obtain ⟨v2, g4, ⟨g5, -, -⟩ | ⟨-, rfl⟩⟩ := hmade q.1 mt ls2 g1
      · exact absurd g5 (hsec q hq).1
      · rw [g4] at g3; cases g3; exact g2
  · intro mf mt hn
    rcases hval mf mt with ⟨_, g1⟩ | ⟨ls2, v', g1, g2, g3⟩
    · exact absurd g1 hn
    · exact hB mf mt (by rw [g1]; simp)

namespace ShippedEx
open FunEx CF CycleExample ReparseEx

/-- shipped recipes for the tape head, MF1/MT451 and MF3, strict options -/
def ctx95 : PCtx :=
  { trees := [(0, .byMt [(0, Shipped.mf0_mt0_tapehead)]), (1, .byMt [(451, Shipped.mf1_mt451)]), (3, .tree Shipped.mf3)]
    po := { fuzzy := false, ignoreZero := false, ignoreVarspec := false }
    wo := { strictDatatypes := false } }

/-- the dictionary of a section -/
def dict95 (p : Prog) (lines : List Str) : DDic :=
  match readSection ⟨lines, ctx95.split.fields, ctx95.po, ctx95.fuel⟩ false p with
  | .ok s => s.cur
  | _ => []

/-- the conditions of `Exchangeable` -/
def exchangeableB (p : Prog) (lines : List Str) (k : Ctrl) : Bool :=
  wfB p && decide (k.mat ≤ 9999 ∧ -999 ≤ k.mat ∧ k.mf ≤ 99 ∧ -9 ≤ k.mf ∧ k.mt ≤ 999 ∧ -99 ≤ k.mt) &&
  match compile 50 (writeOut p), readSection ⟨lines, ctx95.split.fields, ctx95.po, ctx95.fuel⟩ false p with
  | some (code, defs), .ok s => faithfulB ⟨lines, ctx95.split.fields, ctx95.po, ctx95.fuel⟩ ctx95.wo p k s && ctrlAllB k (numbered k.mf k.mt s.cur) &&
    unshadowedB (looked (writeOut p)) (numbered k.mf k.mt s.cur) && positiveB (starts (writeOut p)) (numbered k.mf k.mt s.cur) &&
    (match writeSection ctx95.fuel k.mf k.mt p s.cur, writeFun 100 k.mf (ownMt ctx95.trees k.mf k.mt) code defs s.cur,
        sectionLines ctx95.fuel ctx95.wo false k.mf k.mt p s.cur with
    | .ok w, .ok _, .ok _ => w.out.all recB
    | _, _, _ => false)
  | _, _ => false

theorem exchangeableB_ok {p : Prog} {lines : List Str} {k : Ctrl} (hr : responsible ctx95.trees k.mf k.mt = some p) (hp : p ∈ Shipped.written)
    (h : exchangeableB p lines k = true) (ls : List Str) : Exchangeable ctx95 { lines := ls } 100 k (dict95 p lines) := by
  unfold exchangeableB at h
  simp only [Bool.and_eq_true, decide_eq_true_eq] at h
  obtain ⟨⟨hwf, hfit⟩, h⟩ := h
  split at h
  swap
  · cases h
  rename_i code defs s hc hs
  simp only [Bool.and_eq_true] at h
  obtain ⟨⟨⟨⟨hf, hC⟩, hU⟩, hP⟩, h⟩ := h
  split at h
  swap
  · cases h
  rename_i w v y hw hv hy
  rw [List.all_eq_true] at h
  have hd : dict95 p lines = s.cur := by unfold dict95; rw [hs]
  rw [hd]
  exact ⟨p, lines, s, w, code, defs, v, y, hr, hp, rfl, by unfold FitsCtrl; omega, hs, rfl, faithfulB_ok (wfB_ok hwf) hf, ctrlAllB_ok hC, unshadowedB_ok hU,
    positiveB_ok hP, hw, fun q hq => recB_ok (h q hq), hy, hc, hv⟩

def head95 : List Str := [textLine " Some tape" "   1 0  0    0"]

def val95 (mf _mt : Int) : DDic := if mf = 1 then dict95 Shipped.mf1_mt451 lines451 else dict95 Shipped.mf3 lines3

end ShippedEx

open ShippedEx FunEx CF in
/-- a file with the tape head, MF1/MT451 and MF3/MT1 -/
example : ∃ out res, masterWrite (ctx95.compiled none none 100)
      [(0, 0, .data (dict95 Shipped.mf0_mt0_tapehead head95)), (1, 451, .data (val95 1 451)), (3, 1, .data (val95 3 1))] = .ok out ∧
    parse ctx95 ctx95.fresh { lines := out } = (ctx95.fresh, .ok res) ∧
    valOf res 0 0 = some (.data (dict95 Shipped.mf0_mt0_tapehead head95)) ∧ valOf res 1 451 = some (.data (dict95 Shipped.mf1_mt451 lines451)) ∧
    valOf res 3 1 = some (.data (dict95 Shipped.mf3 lines3)) ∧ numAt (valAt (.dic (dict95 Shipped.mf3 lines3)) [.var "QI"]) = some (-2500000) := by
  obtain ⟨out, res, h1, h2, h3, h4, -⟩ := C95_partial ctx95 { lines := [] } 100 rfl rfl rfl rfl rfl rfl ⟨rfl, rfl, rfl, rfl⟩ rfl (by decide) 1 _
    (exchangeableB_ok (p := Shipped.mf0_mt0_tapehead) (lines := head95) rfl (by simp [Shipped.written]) (by decide +kernel) []) 125 (by decide)
    [(1, [451]), (3, [1])] (by simp) (by decide) val95 (by
      intro q hq
      simp only [List.mem_cons, List.not_mem_nil, or_false] at hq
      rcases hq with rfl | rfl
      · refine ⟨by decide, by simp, by simp, fun mt hmt => ?_⟩
        simp only [List.mem_singleton] at hmt
        subst hmt
        exact ⟨by decide, exchangeableB_ok (p := Shipped.mf1_mt451) (lines := lines451) rfl (by simp [Shipped.written]) (by decide +kernel) []⟩
      · refine ⟨by decide, by simp, by simp, fun mt hmt => ?_⟩
        simp only [List.mem_singleton] at hmt
        subst hmt
        exact ⟨by decide, exchangeableB_ok (p := Shipped.mf3) (lines := lines3) rfl (by simp [Shipped.written]) (by decide +kernel) []⟩)
  exact ⟨out, res, h1, h2, h3, h4 (1, [451]) (by simp) 451 (by simp), h4 (3, [1]) (by simp) 1 (by simp), by decide +kernel⟩

end Verif
