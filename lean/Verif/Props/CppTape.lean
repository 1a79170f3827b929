import Verif.Model.CppTape
import Verif.Props.CppVec
import Verif.Props.Sections

/-! Properties C79-C81: the master functions of the compiled parser. -/

namespace Verif
open Spec

/-! ## lines -/

/-- a line with all control numbers, without underscores and other white space than blanks -/
def FullLine (l : Str) : Prop := 75 ≤ l.length ∧ '_' ∉ l ∧ ∀ c ∈ l, isWs c = true → c = ' '

theorem FullLine.plain {l : Str} (h : FullLine l) : PlainLine l := ⟨by have := h.1; omega, h.2⟩

theorem slice_sub {l : Str} {i j : Nat} : ∀ c ∈ slice l i j, c ∈ l :=
  fun _ hc => List.mem_of_mem_take (List.mem_of_mem_drop hc)

/-- the three numbers of a line as the compiled parser sees them -/
def Sees (l : Str) (mat mf mt : Int) : Prop := cppMat l = .ok mat ∧ cppMf l = .ok mf ∧ cppMt l = .ok mt

theorem readCtrl_nums {l : Str} {c : Ctrl} (h : readCtrl 11 l = .ok c) : readCtrlNum (slice l 66 70) = .ok c.mat ∧
    readCtrlNum (slice l 70 72) = .ok c.mf ∧ readCtrlNum (slice l 72 75) = .ok c.mt := by
  unfold readCtrl at h
  simp only [bind, Except.bind, Nat.reduceMul, Nat.reduceAdd] at h
  repeat (split at h; · cases h)
  rename_i _ h1 _ _ h2 _ _ h3
  cases h
  exact ⟨h1, h2, h3⟩

theorem sees_of_ctrl {l : Str} (hl : FullLine l) {c : Ctrl} (h : readCtrl 11 l = .ok c) : Sees l c.mat c.mf c.mt := by
  obtain ⟨h1, h2, h3⟩ := readCtrl_nums h
  have key : ∀ i n v, i + n ≤ 75 → n ≤ 9 → readCtrlNum (slice l i (i + n)) = .ok v → cppCustomInt l i n = .ok v := by
    intro i n v hi hn hv
    unfold cppCustomInt
    rw [cppBytes_ok (by have := hl.1; omega), cbind_ok]
    exact ctrlNum_agree _ (fun c hc => hl.2.2 c (slice_sub c hc)) (fun hc => hl.2.1 (slice_sub _ hc)) v
      (Nat.le_trans slice_len hn) hv
  exact ⟨key 66 4 _ (by omega) (by omega) h1, key 70 2 _ (by omega) (by omega) h2, key 72 3 _ (by omega) (by omega) h3⟩

/-- `std::stoi` reads the number if there is one -/
theorem stoi_agree {f : Str} (hws : ∀ c ∈ f, isWs c = true → c = ' ') (hu : '_' ∉ f) {n : Int} (hb : strip f ≠ [])
    (h : readCtrlNum f = .ok n) : stoi f = .ok n := by
  obtain ⟨p, q, h1, h2, h3⟩ := strip_decomp f
  have hp := blanks_of_ws hws (l := p) (fun c hc => by rw [h1]; simp [hc]) h2
  have hq := blanks_of_ws hws (l := q) (fun c hc => by rw [h1]; simp [hc]) h3
  unfold readCtrlNum at h
  simp only [ne_eq, hb, not_false_eq_true, if_true] at h
  cases hpi : pyInt (strip f) with
  | none => rw [hpi] at h; cases h
  | some m =>
    rw [hpi] at h
    cases h
    have hu' : '_' ∉ strip f := fun hc => hu (by rw [h1]; simp [hc])
    obtain ⟨_, a2, a3⟩ := atoi_text' hpi (strip_strip f) hu' p.length q.length
    rw [← hp, ← hq, ← h1] at a2 a3
    unfold stoi
    simp only [a2, if_neg a3]

/-- the columns of MF and MT are not blank -/
def Shown (l : Str) : Prop := strip (slice l 70 72) ≠ [] ∧ strip (slice l 72 75) ≠ []

theorem chopCr_full {l : Str} (h : FullLine l) : chopCr l = l := by
  unfold chopCr
  rw [if_neg]
  intro e
  have : '\r' ∈ l := List.mem_of_mem_getLast? e
  have := h.2.2 _ this (by decide)
  revert this; decide

theorem substr_slice {l : Str} {i n : Nat} (h : i ≤ l.length) : substr l i n = .ok (slice l i (i + n)) := by
  unfold substr slice
  rw [if_pos h, List.drop_take, Nat.add_sub_cancel_left]

theorem stoi_line {l : Str} (hl : FullLine l) (hs : Shown l) {c : Ctrl} (h : readCtrl 11 l = .ok c) :
    (substr (chopCr l) 70 2 >>= stoi) = .ok c.mf ∧ (substr (chopCr l) 72 3 >>= stoi) = .ok c.mt := by
  obtain ⟨h1, h2, h3⟩ := readCtrl_nums h
  rw [chopCr_full hl, substr_slice (by have := hl.1; omega), substr_slice (by have := hl.1; omega), cbind_ok, cbind_ok]
  exact ⟨stoi_agree (fun c hc => hl.2.2 c (slice_sub c hc)) (fun hc => hl.2.1 (slice_sub _ hc)) hs.1 h2,
    stoi_agree (fun c hc => hl.2.2 c (slice_sub c hc)) (fun hc => hl.2.1 (slice_sub _ hc)) hs.2 h3⟩

/-- a number other than zero is visible -/
theorem shown_of_ne {f : Str} {n : Int} (h : readCtrlNum f = .ok n) (hn : n ≠ 0) : strip f ≠ [] := by
  intro e
  unfold readCtrlNum at h
  rw [e] at h
  cases h
  exact hn rfl

/-- a line of zeros is recognised as an end record -/
theorem fend_of_zero {δ : Type} {x : CTape δ} {o : ROpts} (ho : o.width = 11) (hacc : x.acc = o.acceptSpaces) {l : Str}
    (hl : FullLine l) {mat mf : Int} (hc : readCtrl 11 l = .ok ⟨mat, mf, 0⟩) (hz : (theReader o).zero l) :
    cppIsFend x l mat = .ok (decide (mf = 0)) := by
  obtain ⟨y, n, h, a1, a2, a3, a4, a5, a6⟩ := hz
  unfold readCont at h
  rw [ho] at h
  simp only [bind, Except.bind, lineAt, List.getElem?_cons_zero] at h
  repeat (split at h; · cases h)
  rename_i c1 e1 _ c2 e2 _ n1 e3 _ n2 e4 _ n3 e5 _ n4 e6 _ ct e7
  cases h
  dsimp only at a1 a2 a3 a4 a5 a6
  cases a3; cases a4; cases a5; cases a6
  have f1 := plainLine_float ho hl.plain (i := 0) (by omega) e1
  have f2 := plainLine_float ho hl.plain (i := 1) (by omega) e2
  have key : ∀ i < 6, intField 11 l i = .ok 0 → cppInt l i = .ok 0 := by
    intro i hi hv
    unfold intField at hv
    unfold cppInt
    rw [cppBytes_ok (by have := hl.1; omega), cbind_ok]
    refine C77_partial _ (fun c hc => hl.2.2 c (slice_sub c hc)) (fun hc => hl.2.1 (slice_sub _ hc)) 0 (by decide) ?_
    have e : slice l (11 * i) (11 * i + 11) = slice l (i * 11) ((i + 1) * 11) := by congr 1 <;> omega
    rw [e]; exact hv
  obtain ⟨s1, s2, s3⟩ := sees_of_ctrl hl hc
  unfold cppIsFend
  rw [s1, cbind_ok, if_neg (by simp), s2, cbind_ok, s3, cbind_ok, hacc, f1, cbind_ok, f2, cbind_ok,
    key 2 (by omega) e3, cbind_ok, key 3 (by omega) e4, cbind_ok, key 4 (by omega) e5, cbind_ok, key 5 (by omega) e6, cbind_ok]
  simp [a1, a2]

/-! ## C79: sections -/

/-- value of a section in the dictionary of the compiled parser -/
def secVal {δ : Type} (d : Dict Int (Dict Int (SecVal δ))) (mf mt : Int) : Option (SecVal δ) := (dGet mf d).bind (dGet mt)

theorem secVal_put {δ : Type} (mf mt : Int) (v : SecVal δ) (d : Dict Int (Dict Int (SecVal δ))) (a b : Int) :
    secVal (putSec mf mt v d) a b = if a = mf ∧ b = mt then some v else secVal d a b := by
  unfold secVal putSec
  rw [dGet_dSet]
  by_cases h1 : mf = a
  · subst h1
    rw [if_pos rfl, Option.bind_some, dGet_dSet]
    by_cases h2 : mt = b
    · subst h2; simp
    · rw [if_neg h2, if_neg (fun h => h2 h.2.symm)]
      cases dGet mf d <;> rfl
  · rw [if_neg h1, if_neg (fun h => h1 h.1.symm)]

/-- the sections of a material with their MF numbers -/
def Spec.TMat.sections (m : TMat) : List (Int × TSec) := m.files.flatMap (fun f => f.secs.map (fun s => (f.mf, s)))

/-- what the compiled parser makes of a section: it has a recipe, and either the generated function reads the section with
its SEND record as `d`, whatever follows, or the section is not selected, control records are not validated and the numbers
of the SEND record are not blank -/
def Handled {δ : Type} (x : CTape δ) (mf : Int) (s : TSec) (v : SecVal δ) : Prop :=
  ∃ f, x.fn mf s.mt = some f ∧
    ((x.should mf s.mt = some true ∧ ∃ d, v = .data d ∧ ∀ rest, f (s.lines ++ rest) = .ok (d, rest)) ∨
     (x.should mf s.mt = some false ∧ x.validate = false ∧ Shown s.send ∧ v = .verb s.data))

/-- the same for the tape head -/
def HandledTpid {δ : Type} (x : CTape δ) (l : Str) (v : SecVal δ) : Prop :=
  ∃ f, x.fn 0 0 = some f ∧
    ((x.should 0 0 = some true ∧ ∃ d, v = .data d ∧ ∀ rest, f (l :: rest) = .ok (d, rest)) ∨
     (x.should 0 0 = some false ∧ x.validate = false ∧ Shown l ∧ v = .verb [l]))

/-- the lines of a section, read verbatim up to the first line with other numbers -/
theorem verbLoop_data {δ : Type} {x : CTape δ} (hv : x.validate = false) {c : Ctrl} {c' : Ctrl} {l : Str} (rest : List Str)
    (hl : FullLine l) (hs : Shown l) (hc : readCtrl 11 l = .ok c') (hne : c'.mf ≠ c.mf ∨ c'.mt ≠ c.mt) :
    ∀ data : List Str, (∀ k ∈ data, FullLine k ∧ Shown k ∧ ∃ a, readCtrl 11 k = .ok ⟨a, c.mf, c.mt⟩) →
    verbLoop x c (data ++ l :: rest) = .ok (data, c'.mf, c'.mt, l :: rest) := by
  have hrd : ∀ a b, cppReadLine x.validate c (a :: b) = .ok (a, b) := fun a b => readLine_ok (by rw [hv]; intro h; cases h)
  have hempty : ∀ {k : Str}, FullLine k → k ≠ [] := by rintro _ h rfl; exact absurd h.1 (by decide)
  have hstoi : ∀ {k : Str} {n : Nat} {m : Nat} {v : Int} {β : Type} (g : Int → CRes β), (substr (chopCr k) n m >>= stoi) = .ok v →
      (substr (chopCr k) n m >>= fun a => stoi a >>= g) = g v := by
    intro k n m v β g h
    cases hsub : substr (chopCr k) n m with
    | ok a => rw [hsub, cbind_ok] at h; rw [cbind_ok, h, cbind_ok]
    | throw => rw [hsub, cbind_throw] at h; cases h
    | undef => rw [hsub, cbind_undef] at h; cases h
  intro data
  induction data with
  | nil =>
    intro _
    obtain ⟨s1, s2⟩ := stoi_line hl hs hc
    rw [List.nil_append, verbLoop, hrd, cbind_ok, if_neg (hempty hl), hstoi _ s1, hstoi _ s2, if_pos hne]
  | cons k data ih =>
    intro h
    obtain ⟨k1, k2, a, k3⟩ := h k (by simp)
    obtain ⟨s1, s2⟩ := stoi_line k1 k2 k3
    rw [List.cons_append, verbLoop, hrd, cbind_ok, if_neg (hempty k1), hstoi _ s1, hstoi _ s2, if_neg (by simp),
      ih (fun k hk => h k (by simp [hk])), cbind_ok, chopCr_full k1]

/-- passes through the loop -/
inductive Reach {δ : Type} (x : CTape δ) (start : List Str) : CSt δ → List Str → CSt δ → List Str → Prop where
  | refl (s : CSt δ) (ls : List Str) : Reach x start s ls s ls
  | step {s s' s'' : CSt δ} {l : Str} {ls r r' : List Str} (h : masterStep x start s l ls = .ok (s', r)) (hlen : r.length ≤ ls.length)
      (h' : Reach x start s' r s'' r') : Reach x start s (l :: ls) s'' r'

theorem Reach.trans {δ : Type} {x : CTape δ} {start : List Str} {s s' s'' : CSt δ} {ls ls' ls'' : List Str}
    (h : Reach x start s ls s' ls') (h' : Reach x start s' ls' s'' ls'') : Reach x start s ls s'' ls'' := by
  induction h with
  | refl => exact h'
  | step a b _ ih => exact .step a b (ih h')

theorem Reach.loop {δ : Type} {x : CTape δ} {start : List Str} {s s' : CSt δ} {ls ls' : List Str}
    (h : Reach x start s ls s' ls') (he : ls' = []) : ∀ fuel, ls.length < fuel → masterLoop x start fuel s ls = .ok s'.out := by
  induction h with
  | refl s ls =>
    subst he
    intro fuel hf
    cases fuel with
    | zero => omega
    | succ n => rfl
  | step a b _ ih =>
    intro fuel hf
    cases fuel with
    | zero => omega
    | succ n =>
      rw [masterLoop, a, cbind_ok]
      exact ih he n (by simp only [List.length_cons] at hf; omega)

/-- the state between two sections -/
structure Between {δ : Type} (s : CSt δ) : Prop where
  first : s.first = false
  found : s.found = true
  mend : s.mend = false
  tend : s.tend = false
  sec : s.sec = true
  last : s.fend = true → s.lastMf = 0

theorem checkEnds_between {δ : Type} {x : CTape δ} {s : CSt δ} (h : Between s) {mf : Int} (hm : mf ≠ 0) : checkEnds x s mf = true := by
  unfold checkEnds
  rw [h.mend, h.tend, h.sec, h.found]
  cases hf : s.fend with
  | false => simp
  | true => simp [h.last hf, hm]

/-- one section -/
theorem reach_sec {δ : Type} {x : CTape δ} {o : ROpts} (ho : o.width = 11) {start : List Str} {mat mf : Int} {c : TSec} {v : SecVal δ}
    (hwf : c.WF (theReader o) mat mf) (hfull : ∀ l ∈ c.lines, FullLine l) (hh : Handled x mf c v) {s : CSt δ} (hs : Between s)
    (rest : List Str) : ∃ s', Reach x start s (c.lines ++ rest) s' rest ∧ Between s' ∧ s'.fend = false ∧ s'.out = putSec mf c.mt v s.out := by
  obtain ⟨hne, hdata, hend⟩ := hwf
  obtain ⟨l, ls, hls⟩ : ∃ l ls, c.data = l :: ls := by
    cases hd : c.data with
    | nil => exact absurd hd hne
    | cons l ls => exact ⟨l, ls, rfl⟩
  obtain ⟨_, hc, hm1, hm2, hm3⟩ := hdata l (by rw [hls]; simp)
  rw [theReader_ctrl, ho] at hc
  have hlf : FullLine l := hfull l (by unfold TSec.lines; rw [hls]; simp)
  obtain ⟨q1, q2, q3⟩ := sees_of_ctrl hlf hc
  dsimp only at q1 q2 q3
  obtain ⟨f, hf, hcase⟩ := hh
  have hlines : c.lines ++ rest = l :: (ls ++ c.send :: rest) := by unfold TSec.lines; rw [hls]; simp
  have hsm : s.first = false := hs.first
  let s1 : CSt δ := { s with fend := false, sec := true, first := false, lastMf := mf, out := putSec mf c.mt v s.out }
  refine ⟨s1, ?_, ⟨rfl, hs.found, hs.mend, hs.tend, rfl, fun h => (by cases h)⟩, rfl, rfl⟩
  rw [hlines]
  refine .step (s' := s1) (r := rest) ?_ (by simp; omega) (.refl _ _)
  unfold masterStep
  rw [q1, cbind_ok, q2, cbind_ok, q3, cbind_ok, if_neg (fun h => hm2 h.1), hf]
  dsimp only
  have hn : ¬ (mf = 0 ∧ c.mt = 0) := fun h => hm2 h.1
  have hce : ¬ checkEnds x s mf = false := by rw [checkEnds_between hs hm2]; simp
  simp only [if_neg hn, if_neg hce, if_pos hm3]
  rcases hcase with ⟨hsh, d, hvd, hfd⟩ | ⟨hsh, hval, hshown, hvd⟩
  · rw [hsh]
    dsimp only
    rw [← hlines, hfd rest, cbind_ok, cbind_ok, ← hvd]
  · rw [hsh]
    dsimp only
    obtain ⟨_, hcs, _⟩ := hend
    rw [theReader_ctrl, ho] at hcs
    have hloop := verbLoop_data (x := x) hval (c := ⟨mat, mf, c.mt⟩) rest (hfull c.send (by unfold TSec.lines; simp)) hshown hcs
      (.inr (by dsimp only; exact fun h => hm3 h.symm)) c.data (fun k hk => by
        obtain ⟨_, hck, _⟩ := hdata k hk
        rw [theReader_ctrl, ho] at hck
        obtain ⟨_, n2, n3⟩ := readCtrl_nums hck
        exact ⟨hfull k (by unfold TSec.lines; simp [hk]), ⟨shown_of_ne n2 hm2, shown_of_ne n3 hm3⟩, mat, hck⟩)
    have hl2 : l :: (ls ++ c.send :: rest) = c.data ++ c.send :: rest := by rw [hls]; rfl
    unfold readVerb
    rw [hl2, hloop, cbind_ok]
    dsimp only
    rw [if_neg (by simp), cbind_ok, cbind_ok, ← hvd]
    rfl

theorem cppBlank_false {l : Str} (h : strip l ≠ []) : ¬ cppBlank l = true := by
  intro hb
  unfold cppBlank at hb
  rw [List.all_eq_true] at hb
  apply h
  unfold strip lstrip
  have : ∀ c ∈ l, isWs c = true := fun c hc => by have := hb c hc; simp only [beq_iff_eq] at this; subst this; decide
  rw [List.dropWhile_eq_nil_iff.2 this]
  rfl

/-- an end record in the loop -/
theorem masterStep_end {δ : Type} {x : CTape δ} {o : ROpts} (ho : o.width = 11) (hacc : x.acc = o.acceptSpaces) {start : List Str}
    {l : Str} (hl : FullLine l) {mat : Int} (hend : (theReader o).IsEnd mat 0 l) {s : CSt δ} (hf : s.first = false)
    (rest : List Str) :
    (s.mend = false → s.fend = false → masterStep x start s l rest = .ok ({ s with fend := true, lastMf := 0, first := false }, rest)) ∧
    (s.mend = false → s.fend = true → mat = 0 →
      masterStep x start s l rest = .ok ({ s with mend := true, lastMf := 0, first := false }, rest)) ∧
    (s.mend = true → mat = -1 →
      masterStep x start s l rest = .ok ({ s with mend := false, tend := true, lastMf := 0, first := false }, rest)) := by
  obtain ⟨hb, hc, hz⟩ := hend
  rw [theReader_ctrl, ho] at hc
  obtain ⟨q1, q2, q3⟩ := sees_of_ctrl hl hc
  have hfend := fend_of_zero (x := x) ho hacc hl hc hz
  simp only [decide_true] at hfend
  have hstart : masterStep x start s l rest = (do
      let (s, r) ← ((do
        let isT ← (if s.mend then cppIsEnd x l (-1) else .ok false)
        if isT then .ok ({ s with mend := false, tend := true }, rest)
        else do
          let isM ← (if s.fend then cppIsEnd x l 0 else .ok false)
          if isM then .ok ({ s with mend := true }, rest)
          else do
            let isF ← cppIsFend x l mat
            if isF then .ok ({ s with fend := true }, rest) else .throw) : CRes (CSt δ × List Str))
      .ok ({ s with lastMf := 0, first := false }, r)) := by
    unfold masterStep
    rw [q1, cbind_ok, q2, cbind_ok, q3, cbind_ok, if_pos ⟨rfl, rfl, hf⟩]
    dsimp only
    rw [if_neg (by simp), if_neg (cppBlank_false hb)]
  have hisEnd : ∀ n, mat = n → cppIsEnd x l n = .ok true := by
    rintro n rfl
    unfold cppIsEnd
    rw [q1, cbind_ok, hfend, cbind_ok]
    simp
  rw [hstart]
  refine ⟨fun h1 h2 => ?_, fun h1 h2 h3 => ?_, fun h1 h2 => ?_⟩
  · simp only [h1, h2, Bool.false_eq_true, if_false, cbind_ok, hfend, if_true]
  · simp only [h1, h2, Bool.false_eq_true, if_false, cbind_ok, if_true, hisEnd 0 h3]
  · simp only [h1, if_true, hisEnd (-1) h2, cbind_ok]

/-- the sections of one file -/
theorem reach_secs {δ : Type} {x : CTape δ} {o : ROpts} (ho : o.width = 11) {start : List Str} {mat mf : Int} {val : Int → TSec → SecVal δ}
    (rest : List Str) : ∀ (secs : List TSec), (∀ c ∈ secs, c.WF (theReader o) mat mf ∧ (∀ l ∈ c.lines, FullLine l) ∧ Handled x mf c (val mf c)) →
    ∀ {s : CSt δ}, Between s → (secs = [] → s.fend = false) →
    ∃ s', Reach x start s ((secs.map TSec.lines).flatten ++ rest) s' rest ∧ Between s' ∧ s'.fend = false ∧
      s'.out = secs.foldl (fun d c => putSec mf c.mt (val mf c) d) s.out := by
  intro secs
  induction secs with
  | nil => intro _ s hs hf; exact ⟨s, .refl _ _, hs, hf rfl, rfl⟩
  | cons c secs ih =>
    intro h s hs _
    obtain ⟨h1, h2, h3⟩ := h c (by simp)
    obtain ⟨s1, r1, b1, f1, e1⟩ := reach_sec ho (start := start) h1 h2 h3 hs ((secs.map TSec.lines).flatten ++ rest)
    obtain ⟨s2, r2, b2, f2, e2⟩ := ih (fun c hc => h c (by simp [hc])) b1 (fun _ => f1)
    refine ⟨s2, ?_, b2, f2, ?_⟩
    · have : ((c :: secs).map TSec.lines).flatten ++ rest = c.lines ++ ((secs.map TSec.lines).flatten ++ rest) := by
        simp
      rw [this]
      exact r1.trans r2
    · rw [e2, e1]; rfl

/-- one file -/
theorem reach_file {δ : Type} {x : CTape δ} {o : ROpts} (ho : o.width = 11) (hacc : x.acc = o.acceptSpaces) {start : List Str} {mat : Int}
    {val : Int → TSec → SecVal δ} {f : TFile} (hwf : f.WF (theReader o) mat) (hfull : ∀ l ∈ f.lines, FullLine l)
    (hh : ∀ c ∈ f.secs, Handled x f.mf c (val f.mf c)) {s : CSt δ} (hs : Between s) (rest : List Str) :
    ∃ s', Reach x start s (f.lines ++ rest) s' rest ∧ Between s' ∧ s'.fend = true ∧
      s'.out = f.secs.foldl (fun d c => putSec f.mf c.mt (val f.mf c) d) s.out := by
  obtain ⟨h1, h2, h3⟩ := hwf
  obtain ⟨s1, r1, b1, f1, e1⟩ := reach_secs (start := start) (val := val) ho (f.fend :: rest) f.secs (fun c hc => ⟨h2 c hc, fun l hl =>
    hfull l (by unfold TFile.lines; simp only [List.mem_append, List.mem_flatten, List.mem_map]; exact .inl ⟨_, ⟨c, hc, rfl⟩, hl⟩),
    hh c hc⟩) hs (fun h => absurd h h1)
  have hst := (masterStep_end (start := start) ho hacc (hfull f.fend (by unfold TFile.lines; simp)) h3 b1.first rest).1 b1.mend f1
  refine ⟨{ s1 with fend := true, lastMf := 0, first := false }, ?_, ⟨rfl, b1.found, b1.mend, b1.tend, b1.sec, fun _ => rfl⟩, rfl, e1⟩
  have : f.lines ++ rest = (f.secs.map TSec.lines).flatten ++ (f.fend :: rest) := by unfold TFile.lines; simp
  rw [this]
  exact r1.trans (.step hst (Nat.le_refl _) (.refl _ _))

theorem reach_files {δ : Type} {x : CTape δ} {o : ROpts} (ho : o.width = 11) (hacc : x.acc = o.acceptSpaces) {start : List Str} {mat : Int}
    {val : Int → TSec → SecVal δ} (rest : List Str) : ∀ (files : List TFile), (∀ f ∈ files, f.WF (theReader o) mat ∧ (∀ l ∈ f.lines, FullLine l) ∧
      ∀ c ∈ f.secs, Handled x f.mf c (val f.mf c)) → ∀ {s : CSt δ}, Between s → (files = [] → s.fend = true) →
    ∃ s', Reach x start s ((files.map TFile.lines).flatten ++ rest) s' rest ∧ Between s' ∧ s'.fend = true ∧
      s'.out = (files.flatMap (fun f => f.secs.map (fun s => (f.mf, s)))).foldl (fun d p => putSec p.1 p.2.mt (val p.1 p.2) d) s.out := by
  intro files
  induction files with
  | nil => intro _ s hs hf; exact ⟨s, .refl _ _, hs, hf rfl, rfl⟩
  | cons f files ih =>
    intro h s hs _
    obtain ⟨h1, h2, h3⟩ := h f (by simp)
    obtain ⟨s1, r1, b1, f1, e1⟩ := reach_file ho hacc (start := start) h1 h2 h3 hs ((files.map TFile.lines).flatten ++ rest)
    obtain ⟨s2, r2, b2, f2, e2⟩ := ih (fun c hc => h c (by simp [hc])) b1 (fun _ => f1)
    refine ⟨s2, ?_, b2, f2, ?_⟩
    · have : ((f :: files).map TFile.lines).flatten ++ rest = f.lines ++ ((files.map TFile.lines).flatten ++ rest) := by
        simp
      rw [this]
      exact r1.trans r2
    · rw [e2, e1, List.flatMap_cons, List.foldl_append, List.foldl_map]

theorem secVal_fold {δ : Type} {val : Int → TSec → SecVal δ} : ∀ (l : List (Int × TSec)) (d : Dict Int (Dict Int (SecVal δ))),
    l.Pairwise (fun p q => ¬ (p.1 = q.1 ∧ p.2.mt = q.2.mt)) → ∀ (a b : Int) (v : SecVal δ),
    secVal (l.foldl (fun d p => putSec p.1 p.2.mt (val p.1 p.2) d) d) a b = some v ↔
      (∃ p ∈ l, p.1 = a ∧ p.2.mt = b ∧ val p.1 p.2 = v) ∨ ((∀ p ∈ l, ¬ (p.1 = a ∧ p.2.mt = b)) ∧ secVal d a b = some v) := by
  intro l
  induction l with
  | nil => intro d _ a b v; simp
  | cons p l ih =>
    intro d hp a b v
    obtain ⟨hp1, hp2⟩ := List.pairwise_cons.1 hp
    rw [List.foldl_cons, ih _ hp2, secVal_put]
    by_cases h : a = p.1 ∧ b = p.2.mt
    · rw [if_pos h]
      obtain ⟨rfl, rfl⟩ := h
      constructor
      · rintro (⟨q, hq, h1, h2, h3⟩ | ⟨_, h2⟩)
        · exact .inl ⟨q, by simp [hq], h1, h2, h3⟩
        · cases h2; exact .inl ⟨p, by simp, rfl, rfl, rfl⟩
      · rintro (⟨q, hq, h1, h2, h3⟩ | ⟨h1, _⟩)
        · rcases List.mem_cons.1 hq with rfl | hq
          · exact .inr ⟨fun q hq e => hp1 q hq ⟨e.1.symm, e.2.symm⟩, by rw [h3]⟩
          · exact absurd ⟨h1.symm, h2.symm⟩ (hp1 q hq)
        · exact absurd ⟨rfl, rfl⟩ (h1 p (by simp))
    · rw [if_neg h]
      constructor
      · rintro (⟨q, hq, h1⟩ | ⟨h1, h2⟩)
        · exact .inl ⟨q, by simp [hq], h1⟩
        · refine .inr ⟨fun q hq => ?_, h2⟩
          rcases List.mem_cons.1 hq with rfl | hq
          · exact fun e => h ⟨e.1.symm, e.2.symm⟩
          · exact h1 q hq
      · rintro (⟨q, hq, h1, h2, h3⟩ | ⟨h1, h2⟩)
        · rcases List.mem_cons.1 hq with rfl | hq
          · exact absurd ⟨h1.symm, h2.symm⟩ h
          · exact .inl ⟨q, hq, h1, h2, h3⟩
        · exact .inr ⟨fun q hq => h1 q (by simp [hq]), h2⟩

/-- the tape head and the files of the first material -/
theorem reach_mat {δ : Type} {x : CTape δ} {o : ROpts} (ho : o.width = 11) (hacc : x.acc = o.acceptSpaces) {tpid : Str} {m : TMat}
    (hb : ∃ mat, readCtrl 11 tpid = .ok ⟨mat, 0, 0⟩) (hwf : m.files ≠ [] ∧ ∀ f ∈ m.files, f.WF (theReader o) m.mat)
    (htf : FullLine tpid) (hfull : ∀ f ∈ m.files, ∀ l ∈ f.lines, FullLine l)
    {v0 : SecVal δ} (h0 : HandledTpid x tpid v0) {val : Int → TSec → SecVal δ}
    (hval : ∀ p ∈ m.sections, Handled x p.1 p.2 (val p.1 p.2)) (start rest : List Str) :
    ∃ s, Reach x start {} (tpid :: ((m.files.map TFile.lines).flatten ++ rest)) s rest ∧ Between s ∧ s.fend = true ∧
      s.out = m.sections.foldl (fun d p => putSec p.1 p.2.mt (val p.1 p.2) d) (putSec 0 0 v0 []) := by
  obtain ⟨mat, hc⟩ := hb
  obtain ⟨hmf, hfiles⟩ := hwf
  obtain ⟨q1, q2, q3⟩ := sees_of_ctrl htf hc
  dsimp only at q1 q2 q3
  obtain ⟨tail, htail⟩ : ∃ tail, (m.files.map TFile.lines).flatten ++ rest = tail := ⟨_, rfl⟩
  -- the first line of the first section
  obtain ⟨l2, tl2, hl2, hl2f, hl2d⟩ : ∃ l2 tl2, tail = l2 :: tl2 ∧ FullLine l2 ∧ ∃ a b c, b ≠ 0 ∧ c ≠ 0 ∧ readCtrl 11 l2 = .ok ⟨a, b, c⟩ := by
    cases hfs : m.files with
    | nil => exact absurd hfs hmf
    | cons f fs =>
      obtain ⟨g1, g2, _⟩ := hfiles f (by rw [hfs]; simp)
      cases hss : f.secs with
      | nil => exact absurd hss g1
      | cons c cs =>
        obtain ⟨k1, k2, _⟩ := g2 c (by rw [hss]; simp)
        cases hds : c.data with
        | nil => exact absurd hds k1
        | cons l ls =>
          obtain ⟨_, j2, _, j4, j5⟩ := k2 l (by rw [hds]; simp)
          rw [theReader_ctrl, ho] at j2
          have : ∃ tl2, tail = l :: tl2 := by
            rw [← htail, hfs, List.map_cons, TFile.lines, hss, List.map_cons, TSec.lines, hds]
            simp only [List.cons_append, List.flatten_cons, List.append_assoc]
            exact ⟨_, rfl⟩
          obtain ⟨tl2, h⟩ := this
          refine ⟨l, tl2, h, hfull f (by rw [hfs]; simp) l ?_, _, _, _, j4, j5, j2⟩
          rw [TFile.lines, hss, List.map_cons, TSec.lines, hds]
          simp
  -- the tape head
  let s1 : CSt δ := { found := true, sec := true, first := false, lastMf := 0, out := putSec 0 0 v0 [] }
  have hstep : masterStep x start {} tpid tail = .ok (s1, tail) := by
    unfold masterStep
    rw [q1, cbind_ok, q2, cbind_ok, q3, cbind_ok, if_neg (by simp)]
    obtain ⟨f, hf, hcase⟩ := h0
    rw [hf]
    have hce : ¬ checkEnds x ({ found := true } : CSt δ) 0 = false := by unfold checkEnds; simp
    simp only [and_self, if_true, if_neg hce]
    rcases hcase with ⟨hsh, d, hvd, hfd⟩ | ⟨hsh, hv, hshown, hvd⟩
    · rw [hsh]
      dsimp only
      rw [hfd tail, cbind_ok, cbind_ok, ← hvd]
    · rw [hsh]
      dsimp only
      obtain ⟨a, b, c, hb', hc', hl2c⟩ := hl2d
      obtain ⟨_, n2, n3⟩ := readCtrl_nums hl2c
      have hloop := verbLoop_data (x := x) hv (c := ⟨mat, 0, 0⟩) tl2 hl2f
        ⟨shown_of_ne n2 hb', shown_of_ne n3 hc'⟩ hl2c (.inl hb') [tpid] (fun k hk => by
          rw [List.mem_singleton.1 hk]; exact ⟨htf, hshown, mat, hc⟩)
      unfold readVerb
      rw [hl2]
      rw [List.singleton_append] at hloop
      rw [hloop, cbind_ok]
      dsimp only
      simp only [ne_eq, not_true_eq_false, if_false, Bool.true_eq_false, false_and, if_true, List.cons_ne_nil, cbind_ok, ← hvd]
      rfl
  have hb1 : Between s1 := ⟨rfl, rfl, rfl, rfl, rfl, fun h => (by cases h)⟩
  obtain ⟨s2, r2, b2, f2, e2⟩ := reach_files (x := x) (val := val) (start := start) ho hacc rest m.files
    (fun f hf => ⟨hfiles f hf, hfull f hf, fun c hc => hval (f.mf, c) (by
      unfold TMat.sections; simp only [List.mem_flatMap, List.mem_map]; exact ⟨f, hf, c, hc, rfl⟩)⟩) hb1 (fun h => absurd h hmf)
  refine ⟨s2, .step (by rw [htail]; exact hstep) (Nat.le_refl _) r2, b2, f2, e2⟩

/-- **C79** (partial) For every file of one material with the structure of a tape, the compiled parser returns exactly the
tape head and the sections of the file: sections that are not selected with all their lines, the others as the generated
functions read them.
Missing: sections without recipe (`C79_fails`), sections not selected when control records are validated
(`C79_validate_fails`) or when the SEND record leaves the columns of MF and MT blank; lines that are shorter or have
underscores or other white space; several materials and blank lines at the end (`C80_blank_fails`, `C80_materials_fails`). -/
theorem C79_partial {δ : Type} (x : CTape δ) (o : ROpts) (ho : o.width = 11) (hacc : x.acc = o.acceptSpaces) (t : Tape) (m : TMat)
    (hwf : t.WF (theReader o)) (hm : t.mats = [m]) (htr : t.trail = []) (hfull : ∀ l ∈ t.lines, FullLine l)
    (v0 : SecVal δ) (h0 : HandledTpid x t.tpid v0) (val : Int → TSec → SecVal δ)
    (hval : ∀ p ∈ m.sections, Handled x p.1 p.2 (val p.1 p.2))
    (hdist : m.sections.Pairwise (fun p q => ¬ (p.1 = q.1 ∧ p.2.mt = q.2.mt))) :
    ∃ out, masterParse x t.lines = .ok out ∧ ∀ mf mt v, secVal out mf mt = some v ↔
      (mf = 0 ∧ mt = 0 ∧ v = v0) ∨ ∃ p ∈ m.sections, p.1 = mf ∧ p.2.mt = mt ∧ val p.1 p.2 = v := by
  obtain ⟨⟨hb, mat, hc⟩, hmats, hte, _⟩ := hwf
  obtain ⟨hmf, hfiles, hmend⟩ := hmats m (by rw [hm]; simp)
  rw [theReader_ctrl, ho] at hc
  have hlines : t.lines = t.tpid :: ((m.files.map TFile.lines).flatten ++ [m.mend, t.tend]) := by
    unfold Tape.lines TMat.lines; rw [hm, htr]; simp
  have hmemf : ∀ f ∈ m.files, ∀ l ∈ f.lines, l ∈ t.lines := by
    intro f hf l hl
    rw [hlines]
    simp only [List.mem_cons, List.mem_append, List.mem_flatten, List.mem_map]
    exact .inr (.inl ⟨_, ⟨f, hf, rfl⟩, hl⟩)
  obtain ⟨s2, r2, b2, f2, e2⟩ := reach_mat (x := x) (val := val) ho hacc ⟨mat, hc⟩ ⟨hmf, hfiles⟩ (hfull _ (by rw [hlines]; simp))
    (fun f hf l hl => hfull l (hmemf f hf l hl)) h0 hval t.lines [m.mend, t.tend]
  have hst3 := (masterStep_end (x := x) (start := t.lines) ho hacc (hfull m.mend (by rw [hlines]; simp)) hmend b2.first [t.tend]).2.1
    b2.mend f2 rfl
  have hst4 := (masterStep_end (x := x) (start := t.lines) (s := { s2 with mend := true, lastMf := 0, first := false }) ho hacc
    (hfull t.tend (by rw [hlines]; simp)) hte rfl []).2.2 rfl rfl
  have hreach := r2.trans (.step hst3 (Nat.le_refl _) (.step hst4 (Nat.le_refl _) (.refl _ _)))
  rw [← hlines] at hreach
  refine ⟨s2.out, hreach.loop rfl _ (by omega), fun mf mt v => ?_⟩
  have hsec : ∀ p ∈ m.sections, p.1 ≠ 0 := by
    intro p hp
    unfold TMat.sections at hp
    simp only [List.mem_flatMap, List.mem_map] at hp
    obtain ⟨f, hf, c, hc, rfl⟩ := hp
    obtain ⟨_, g2, _⟩ := hfiles f hf
    obtain ⟨k1, k2, _⟩ := g2 c hc
    cases hds : c.data with
    | nil => exact absurd hds k1
    | cons l ls => exact (k2 l (by rw [hds]; simp)).2.2.2.1
  rw [e2, secVal_fold (val := val) m.sections _ hdist mf mt v]
  have h1 : secVal (putSec 0 0 v0 []) mf mt = some v ↔ mf = 0 ∧ mt = 0 ∧ v = v0 := by
    rw [secVal_put]
    by_cases h : mf = 0 ∧ mt = 0
    · rw [if_pos h]; simp [h.1, h.2, eq_comm]
    · rw [if_neg h]
      constructor
      · intro h'; cases h'
      · rintro ⟨a, b, _⟩; exact absurd ⟨a, b⟩ h
  rw [h1]
  constructor
  · rintro (h | ⟨_, h⟩)
    · exact .inr h
    · exact .inl h
  · rintro (h | h)
    · exact .inr ⟨fun p hp e => hsec p hp (e.1.trans h.1), h⟩
    · exact .inl h

/-- **C79** A section without recipe loses its first line: whatever the section, the lines stored are those behind the first. -/
theorem C79_norecipe_fails {δ : Type} (x : CTape δ) (o : ROpts) (ho : o.width = 11) (hv : x.validate = false) (start : List Str)
    (mat mf : Int) (c : TSec) (hwf : c.WF (theReader o) mat mf) (hfull : ∀ l ∈ c.lines, FullLine l) (hs : Shown c.send)
    (hfn : x.fn mf c.mt = none) (s : CSt δ) (hf : s.first = false) (rest : List Str) (l : Str) (ls : List Str) (hd : c.data = l :: ls) :
    masterStep x start s l (ls ++ c.send :: rest) = .ok ({ s with lastMf := mf, first := false, out := putSec mf c.mt (.verb ls) s.out }, rest) := by
  obtain ⟨hne, hdata, hend⟩ := hwf
  obtain ⟨_, hc, hm1, hm2, hm3⟩ := hdata l (by rw [hd]; simp)
  rw [theReader_ctrl, ho] at hc
  have hlf : FullLine l := hfull l (by unfold TSec.lines; rw [hd]; simp)
  obtain ⟨q1, q2, q3⟩ := sees_of_ctrl hlf hc
  dsimp only at q1 q2 q3
  obtain ⟨_, hcs, _⟩ := hend
  rw [theReader_ctrl, ho] at hcs
  have hloop := verbLoop_data (x := x) hv (c := ⟨mat, mf, c.mt⟩) rest (hfull c.send (by unfold TSec.lines; simp)) hs hcs
    (.inr (by dsimp only; exact fun h => hm3 h.symm)) ls (fun k hk => by
      obtain ⟨_, hck, _⟩ := hdata k (by rw [hd]; simp [hk])
      rw [theReader_ctrl, ho] at hck
      obtain ⟨_, n2, n3⟩ := readCtrl_nums hck
      exact ⟨hfull k (by unfold TSec.lines; rw [hd]; simp [hk]), ⟨shown_of_ne n2 hm2, shown_of_ne n3 hm3⟩, mat, hck⟩)
  unfold masterStep
  rw [q1, cbind_ok, q2, cbind_ok, q3, cbind_ok, if_neg (fun h => hm2 h.1), hfn]
  dsimp only
  rw [if_pos ⟨hm2, hm3⟩]
  unfold readVerb
  rw [hloop, cbind_ok]
  dsimp only
  rw [hf]
  simp only [ne_eq, not_true_eq_false, or_self, and_false, if_false, Bool.false_eq_true, cbind_ok, List.tail_cons]

/-- **C79** With `validate_control_records`, no section can be read verbatim: the SEND record does not carry the number MT
of the section. -/
theorem C79_validate_fails {δ : Type} (x : CTape δ) (o : ROpts) (ho : o.width = 11) (hv : x.validate = true) (start : List Str)
    (mat mf : Int) (c : TSec) (hwf : c.WF (theReader o) mat mf) (hfull : ∀ l ∈ c.lines, FullLine l) (first : Bool) (rest : List Str) :
    readVerb x ⟨mat, mf, c.mt⟩ start first (c.lines ++ rest) = .throw := by
  obtain ⟨hne, hdata, hend⟩ := hwf
  obtain ⟨_, hcs, _⟩ := hend
  rw [theReader_ctrl, ho] at hcs
  obtain ⟨q1, q2, q3⟩ := sees_of_ctrl (hfull c.send (by unfold TSec.lines; simp)) hcs
  dsimp only at q1 q2 q3
  have hm3 : c.mt ≠ 0 := by
    cases hd : c.data with
    | nil => exact absurd hd hne
    | cons l ls => exact (hdata l (by rw [hd]; simp)).2.2.2.2
  have hbase : verbLoop x ⟨mat, mf, c.mt⟩ (c.send :: rest) = .throw := by
    rw [verbLoop]
    unfold cppReadLine nextLine
    rw [hv]
    simp only [if_true]
    rw [q1, cbind_ok, q2, cbind_ok, q3, cbind_ok, if_pos (.inr (.inr fun h => hm3 h.symm)), cbind_throw]
  have hgen : ∀ data : List Str, (∀ l ∈ data, l ∈ c.data) → verbLoop x ⟨mat, mf, c.mt⟩ (data ++ c.send :: rest) = .throw := by
    intro data
    induction data with
    | nil => intro _; exact hbase
    | cons l ls ih =>
      intro h
      obtain ⟨_, hc, hm1, hm2, hm3⟩ := hdata l (h l (by simp))
      rw [theReader_ctrl, ho] at hc
      have hlf : FullLine l := hfull l (by unfold TSec.lines; simp [h l (by simp)])
      obtain ⟨_, n2, n3⟩ := readCtrl_nums hc
      obtain ⟨s1, s2⟩ := stoi_line hlf ⟨shown_of_ne n2 hm2, shown_of_ne n3 hm3⟩ hc
      have hst : ∀ {n m : Nat} {v : Int} {β : Type} (g : Int → CRes β), (substr (chopCr l) n m >>= stoi) = .ok v →
          (substr (chopCr l) n m >>= fun a => stoi a >>= g) = g v := by
        intro n m v β g h
        cases hsub : substr (chopCr l) n m with
        | ok a => rw [hsub, cbind_ok] at h; rw [cbind_ok, h, cbind_ok]
        | throw => rw [hsub, cbind_throw] at h; cases h
        | undef => rw [hsub, cbind_undef] at h; cases h
      rw [List.cons_append, verbLoop, readLine_ok (fun _ => sees_of_ctrl hlf hc), cbind_ok, if_neg (by rintro rfl; exact absurd hlf.1 (by decide)),
        hst _ s1, hst _ s2, if_neg (by simp), ih (fun k hk => h k (by simp [hk])), cbind_throw]
  unfold readVerb
  have : c.lines ++ rest = c.data ++ c.send :: rest := by unfold TSec.lines; simp
  rw [this, hgen c.data (fun _ h => h), cbind_throw]

/-! ## C80: structure of the file -/

/-- **C80** (partial) What is enforced, unless `ignore_send_records` or `ignore_missing_tpid` is set: sections with a recipe are
refused behind a MEND or TEND record, and if no tape head was read.
Missing: everything else, see `C80_truncated_fails`, `C80_materials_fails`, `C80_blank_fails`, `C80_fails`. -/
theorem C80_partial {δ : Type} (x : CTape δ) (start : List Str) (s : CSt δ) (l : Str) (ls : List Str) (mat mf mt : Int) (hl : Sees l mat mf mt)
    (hm : mf ≠ 0) (f : List Str → CRes (δ × List Str)) (hf : x.fn mf mt = some f)
    (h : (x.ignoreSend = false ∧ (s.mend = true ∨ s.tend = true)) ∨ (x.ignoreTpid = false ∧ s.found = false)) :
    masterStep x start s l ls = .throw := by
  obtain ⟨q1, q2, q3⟩ := hl
  unfold masterStep
  rw [q1, cbind_ok, q2, cbind_ok, q3, cbind_ok, if_neg (fun h => hm h.1), hf]
  have hn : ¬ (mf = 0 ∧ mt = 0) := fun h => hm h.1
  have hce : checkEnds x s mf = false := by
    unfold checkEnds
    rcases h with ⟨h1, h2 | h2⟩ | ⟨h1, h2⟩
    · rw [h1, h2]; simp
    · rw [h1, h2]; simp
    · rw [h1, h2]; simp
  simp only [if_neg hn, hce, if_true, cbind_throw]

/-- **C80** A file with a recipe for its first section and without tape head is refused. -/
theorem C80_tpid_partial {δ : Type} (x : CTape δ) (l : Str) (ls : List Str) (mat mf mt : Int) (hl : Sees l mat mf mt) (hm : mf ≠ 0)
    (f : List Str → CRes (δ × List Str)) (hf : x.fn mf mt = some f) (h : x.ignoreTpid = false) : masterParse x (l :: ls) = .throw := by
  unfold masterParse
  rw [masterLoop, C80_partial x (l :: ls) {} l ls mat mf mt hl hm f hf (.inr ⟨h, rfl⟩), cbind_throw]

/-- **C80** A file that ends behind the files of its material, without MEND and TEND records, is read without complaint. -/
theorem C80_truncated_fails {δ : Type} (x : CTape δ) (o : ROpts) (ho : o.width = 11) (hacc : x.acc = o.acceptSpaces) (tpid : Str) (m : TMat)
    (hb : ∃ mat, readCtrl 11 tpid = .ok ⟨mat, 0, 0⟩) (hwf : m.files ≠ [] ∧ ∀ f ∈ m.files, f.WF (theReader o) m.mat)
    (htf : FullLine tpid) (hfull : ∀ f ∈ m.files, ∀ l ∈ f.lines, FullLine l)
    (v0 : SecVal δ) (h0 : HandledTpid x tpid v0) (val : Int → TSec → SecVal δ)
    (hval : ∀ p ∈ m.sections, Handled x p.1 p.2 (val p.1 p.2)) :
    ∃ out, masterParse x (tpid :: (m.files.map TFile.lines).flatten) = .ok out := by
  obtain ⟨s, r, _⟩ := reach_mat (x := x) (val := val) ho hacc hb hwf htf hfull h0 hval (tpid :: (m.files.map TFile.lines).flatten) []
  rw [List.append_nil] at r
  exact ⟨s.out, r.loop rfl _ (by omega)⟩

theorem Reach.throw {δ : Type} {x : CTape δ} {start : List Str} {s s' : CSt δ} {ls : List Str} {l : Str} {rest ls' : List Str} {e : CRes (CSt δ × List Str)}
    (h : Reach x start s ls s' ls') (he : ls' = l :: rest) (hst : masterStep x start s' l rest = e) (hne : ∀ p, e ≠ .ok p) :
    ∀ fuel, ls.length < fuel → masterLoop x start fuel s ls = e.bind (fun _ => .throw) := by
  induction h with
  | refl s ls =>
    subst he
    intro fuel hf
    cases fuel with
    | zero => omega
    | succ n =>
      rw [masterLoop, hst]
      cases e with
      | ok p => exact absurd rfl (hne p)
      | throw => rfl
      | undef => rfl
  | step a b _ ih =>
    intro fuel hf
    cases fuel with
    | zero => omega
    | succ n =>
      rw [masterLoop, a, cbind_ok]
      exact ih he hst n (by simp only [List.length_cons] at hf; omega)

/-- **C80** A tape with several materials, which the Python parser accepts, is refused as soon as the second material begins with a section
that has a recipe. -/
theorem C80_materials_fails {δ : Type} (x : CTape δ) (hign : x.ignoreSend = false) (o : ROpts) (ho : o.width = 11) (hacc : x.acc = o.acceptSpaces) (t : Tape)
    (m m' : TMat) (ms : List TMat) (hwf : t.WF (theReader o)) (hm : t.mats = m :: m' :: ms) (hfull : ∀ l ∈ t.lines, FullLine l)
    (v0 : SecVal δ) (h0 : HandledTpid x t.tpid v0) (val : Int → TSec → SecVal δ)
    (hval : ∀ p ∈ m.sections, Handled x p.1 p.2 (val p.1 p.2)) (hval' : ∀ p ∈ m'.sections, ∃ f, x.fn p.1 p.2.mt = some f) :
    masterParse x t.lines = .throw := by
  obtain ⟨⟨hb, mat, hc⟩, hmats, hte, _⟩ := hwf
  obtain ⟨hmf, hfiles, hmend⟩ := hmats m (by rw [hm]; simp)
  obtain ⟨hmf', hfiles', hmend'⟩ := hmats m' (by rw [hm]; simp)
  rw [theReader_ctrl, ho] at hc
  obtain ⟨rest, hrest⟩ : ∃ rest, (m'.lines ++ (ms.map TMat.lines).flatten ++ t.tend :: t.trail) = rest := ⟨_, rfl⟩
  have hlines : t.lines = t.tpid :: ((m.files.map TFile.lines).flatten ++ m.mend :: rest) := by
    unfold Tape.lines; rw [hm, ← hrest, List.map_cons, List.map_cons, TMat.lines]; simp
  have hmemf : ∀ f ∈ m.files, ∀ l ∈ f.lines, l ∈ t.lines := by
    intro f hf l hl
    rw [hlines]
    simp only [List.mem_cons, List.mem_append, List.mem_flatten, List.mem_map]
    exact .inr (.inl ⟨_, ⟨f, hf, rfl⟩, hl⟩)
  -- the first line of the second material
  obtain ⟨l2, tl2, hl2, a, b, c, hb', hc', f, hf⟩ : ∃ l2 tl2, rest = l2 :: tl2 ∧ ∃ a b c, b ≠ 0 ∧ readCtrl 11 l2 = .ok ⟨a, b, c⟩ ∧ ∃ f, x.fn b c = some f := by
    cases hfs : m'.files with
    | nil => exact absurd hfs hmf'
    | cons f fs =>
      obtain ⟨g1, g2, _⟩ := hfiles' f (by rw [hfs]; simp)
      cases hss : f.secs with
      | nil => exact absurd hss g1
      | cons c cs =>
        obtain ⟨k1, k2, _⟩ := g2 c (by rw [hss]; simp)
        cases hds : c.data with
        | nil => exact absurd hds k1
        | cons l ls =>
          obtain ⟨_, j2, _, j4, j5⟩ := k2 l (by rw [hds]; simp)
          rw [theReader_ctrl, ho] at j2
          have : ∃ tl2, rest = l :: tl2 := by
            rw [← hrest, TMat.lines, hfs, List.map_cons, TFile.lines, hss, List.map_cons, TSec.lines, hds]
            simp only [List.cons_append, List.flatten_cons, List.append_assoc]
            exact ⟨_, rfl⟩
          obtain ⟨tl2, h⟩ := this
          obtain ⟨g, hg⟩ := hval' (f.mf, c) (by unfold TMat.sections; rw [hfs]; simp [hss])
          exact ⟨l, tl2, h, _, _, _, j4, j2, g, hg⟩
  obtain ⟨s2, r2, b2, f2, e2⟩ := reach_mat (x := x) (val := val) ho hacc ⟨mat, hc⟩ ⟨hmf, hfiles⟩ (hfull _ (by rw [hlines]; simp))
    (fun f hf l hl => hfull l (hmemf f hf l hl)) h0 hval t.lines (m.mend :: rest)
  have hst3 := (masterStep_end (x := x) (start := t.lines) ho hacc (hfull m.mend (by rw [hlines]; simp)) hmend b2.first rest).2.1
    b2.mend f2 rfl
  have hreach := r2.trans (.step hst3 (Nat.le_refl _) (.refl _ _))
  rw [← hlines] at hreach
  have hst4 := C80_partial x t.lines { s2 with mend := true, lastMf := 0, first := false } l2 tl2 a b c
    (sees_of_ctrl (hfull l2 (by rw [hlines, hl2]; simp)) hc') hb' f hf (.inl ⟨hign, .inl rfl⟩)
  exact hreach.throw hl2 hst4 (by intro p h; cases h) _ (by omega)

/-- **C80** Blank lines behind the TEND record, which the Python parser accepts, are refused by default. -/
theorem C80_blank_fails {δ : Type} (x : CTape δ) (hign : x.ignoreBlank = false) (o : ROpts) (ho : o.width = 11) (hacc : x.acc = o.acceptSpaces) (t : Tape)
    (m : TMat) (l : Str) (ls : List Str) (hwf : t.WF (theReader o)) (hm : t.mats = [m]) (htr : t.trail = l :: ls) (hfull : ∀ l ∈ t.lines, FullLine l)
    (v0 : SecVal δ) (h0 : HandledTpid x t.tpid v0) (val : Int → TSec → SecVal δ)
    (hval : ∀ p ∈ m.sections, Handled x p.1 p.2 (val p.1 p.2)) : masterParse x t.lines = .throw := by
  obtain ⟨⟨hb, mat, hc⟩, hmats, hte, htrail⟩ := hwf
  obtain ⟨hmf, hfiles, hmend⟩ := hmats m (by rw [hm]; simp)
  rw [theReader_ctrl, ho] at hc
  have hlines : t.lines = t.tpid :: ((m.files.map TFile.lines).flatten ++ m.mend :: t.tend :: l :: ls) := by
    unfold Tape.lines TMat.lines; rw [hm, htr]; simp
  have hmemf : ∀ f ∈ m.files, ∀ l ∈ f.lines, l ∈ t.lines := by
    intro f hf l hl
    rw [hlines]
    simp only [List.mem_cons, List.mem_append, List.mem_flatten, List.mem_map]
    exact .inr (.inl ⟨_, ⟨f, hf, rfl⟩, hl⟩)
  obtain ⟨s2, r2, b2, f2, e2⟩ := reach_mat (x := x) (val := val) ho hacc ⟨mat, hc⟩ ⟨hmf, hfiles⟩ (hfull _ (by rw [hlines]; simp))
    (fun f hf l hl => hfull l (hmemf f hf l hl)) h0 hval t.lines (m.mend :: t.tend :: l :: ls)
  have hst3 := (masterStep_end (x := x) (start := t.lines) ho hacc (hfull m.mend (by rw [hlines]; simp)) hmend b2.first (t.tend :: l :: ls)).2.1
    b2.mend f2 rfl
  have hst4 := (masterStep_end (x := x) (start := t.lines) (s := { s2 with mend := true, lastMf := 0, first := false }) ho hacc
    (hfull t.tend (by rw [hlines]; simp)) hte rfl (l :: ls)).2.2 rfl rfl
  have hreach := r2.trans (.step hst3 (Nat.le_refl _) (.step hst4 (Nat.le_refl _) (.refl _ _)))
  rw [← hlines] at hreach
  have hlf := hfull l (by rw [hlines]; simp)
  have hall : ∀ c ∈ l, c = ' ' := by
    have hbl : strip l = [] := htrail l (by rw [htr]; simp)
    obtain ⟨p, q, h1, h2, h3⟩ := strip_decomp l
    rw [hbl, List.append_nil] at h1
    intro c hc
    refine hlf.2.2 c hc ?_
    rw [h1, List.mem_append] at hc
    exact hc.elim (h2 c) (h3 c)
  have hnum : ∀ i n, i + n ≤ 75 → cppCustomInt l i n = .ok 0 := by
    intro i n hi
    unfold cppCustomInt
    rw [cppBytes_ok (by have := hlf.1; omega), cbind_ok]
    unfold cppIntOf
    rw [if_pos (List.all_eq_true.2 fun c hc => by rw [hall c (slice_sub c hc)]; rfl)]
  have hcb : cppBlank l = true := List.all_eq_true.2 fun c hc => by rw [hall c hc]; rfl
  have hst5 : ∀ s : CSt δ, s.first = false → masterStep x t.lines s l ls = .throw := by
    intro s hs
    have q1 : cppMat l = .ok 0 := hnum 66 4 (by omega)
    have q2 : cppMf l = .ok 0 := hnum 70 2 (by omega)
    have q3 : cppMt l = .ok 0 := hnum 72 3 (by omega)
    unfold masterStep
    rw [q1, cbind_ok, q2, cbind_ok, q3, cbind_ok, if_pos ⟨rfl, rfl, hs⟩]
    dsimp only
    rw [if_neg (by simp), if_pos hcb, hign, if_neg (by simp), cbind_throw]
  exact hreach.throw rfl (hst5 _ rfl) (by intro p h; cases h) _ (by omega)

/-! ### concrete files -/

theorem isEnd_of {o : ROpts} {l : Str} {mat mf : Int} (h1 : strip l ≠ []) (h2 : readCtrl o.width l = .ok ⟨mat, mf, 0⟩)
    (h3 : (readSend o [l] 0).toBool = true) : (theReader o).IsEnd mat mf l := by
  refine ⟨h1, theReader_ctrl.2 h2, ?_⟩
  cases h : readSend o [l] 0 with
  | ok p => exact ((readSend_iff o l _ h2).1 ⟨p, h⟩).1
  | error e => rw [h] at h3; cases h3

theorem isData_of {o : ROpts} {l : Str} {mat mf mt : Int} (h1 : strip l ≠ []) (h2 : readCtrl o.width l = .ok ⟨mat, mf, mt⟩)
    (h3 : mat ≠ 0 ∧ mf ≠ 0 ∧ mt ≠ 0) : (theReader o).IsData mat mf mt l := ⟨h1, theReader_ctrl.2 h2, h3⟩

/-- MF1/MT451 with two lines, MF3/MT1 and MF3/MT2 with one line each -/
def exMat : TMat :=
  ⟨125, [⟨1, [⟨451, [exLine "a" 125 1 451, exLine "b" 125 1 451], exLine "" 125 1 0⟩], exLine "" 125 0 0⟩,
    ⟨3, [⟨1, [exLine "c" 125 3 1], exLine "" 125 3 0⟩, ⟨2, [exLine "d" 125 3 2], exLine "" 125 3 0⟩], exLine "" 125 0 0⟩], exLine "" 0 0 0⟩

def exT : Tape := ⟨exLine "tape" 1 0 0, [exMat], exLine "" (-1) 0 0, []⟩

theorem exT_lines : exT.lines = exTape := by decide +kernel

theorem exMat_wf : exMat.WF (theReader {}) := by
  refine ⟨by decide, ?_, isEnd_of (by decide +kernel) (by decide +kernel) (by decide +kernel)⟩
  intro f hf
  simp only [exMat, List.mem_cons, List.not_mem_nil, or_false] at hf
  rcases hf with rfl | rfl
  · refine ⟨by decide, ?_, isEnd_of (by decide +kernel) (by decide +kernel) (by decide +kernel)⟩
    intro c hc
    simp only [List.mem_cons, List.not_mem_nil, or_false] at hc
    subst hc
    refine ⟨by simp, ?_, isEnd_of (by decide +kernel) (by decide +kernel) (by decide +kernel)⟩
    intro l hl
    simp only [List.mem_cons, List.not_mem_nil, or_false] at hl
    rcases hl with rfl | rfl
    · exact isData_of (by decide +kernel) (by decide +kernel) (by decide)
    · exact isData_of (by decide +kernel) (by decide +kernel) (by decide)
  · refine ⟨by decide, ?_, isEnd_of (by decide +kernel) (by decide +kernel) (by decide +kernel)⟩
    intro c hc
    simp only [List.mem_cons, List.not_mem_nil, or_false] at hc
    rcases hc with rfl | rfl
    · refine ⟨by simp, ?_, isEnd_of (by decide +kernel) (by decide +kernel) (by decide +kernel)⟩
      intro l hl
      rw [List.mem_singleton.1 hl]
      exact isData_of (by decide +kernel) (by decide +kernel) (by decide)
    · refine ⟨by simp, ?_, isEnd_of (by decide +kernel) (by decide +kernel) (by decide +kernel)⟩
      intro l hl
      rw [List.mem_singleton.1 hl]
      exact isData_of (by decide +kernel) (by decide +kernel) (by decide)

theorem exT_wf : exT.WF (theReader {}) :=
  ⟨⟨by show strip _ ≠ []; decide +kernel, 1, theReader_ctrl.2 (by decide +kernel)⟩, by intro m hm; rw [List.mem_singleton.1 hm]; exact exMat_wf,
    isEnd_of (by decide +kernel) (by decide +kernel) (by decide +kernel), by intro l hl; cases hl⟩

instance (l : Str) : Decidable (FullLine l) := by unfold FullLine; infer_instance
instance (l : Str) : Decidable (Shown l) := by unfold Shown; infer_instance

/-- a module with recipes for the tape head, MF1 and MF3; the recipe of MF1 takes three lines; sections of MF3 are not selected -/
def exMod : CTape Str where
  should mf _ := some (decide (mf ≠ 3))
  fn mf _ :=
    if mf = 0 then some fun ls => .ok (ls.headD [], ls.tail)
    else if mf = 1 then some fun ls => .ok (ls.headD [], ls.drop 3)
    else if mf = 3 then some fun _ => .throw
    else none

def exVal (mf : Int) (c : TSec) : SecVal Str := if mf = 1 then .data (c.data.headD []) else .verb c.data

theorem exHandledTpid : HandledTpid exMod exT.tpid (.data exT.tpid) :=
  ⟨_, rfl, .inl ⟨by decide, _, rfl, fun _ => rfl⟩⟩

theorem exHandled : ∀ p ∈ exMat.sections, Handled exMod p.1 p.2 (exVal p.1 p.2) := by
  intro p hp
  simp only [exMat, TMat.sections, List.flatMap_cons, List.flatMap_nil, List.map_cons, List.map_nil, List.append_nil, List.mem_cons,
    List.mem_append, List.not_mem_nil, or_false] at hp
  rcases hp with rfl | rfl | rfl
  · exact ⟨_, rfl, .inl ⟨by decide, _, rfl, fun _ => rfl⟩⟩
  · exact ⟨_, rfl, .inr ⟨by decide, rfl, by decide +kernel, rfl⟩⟩
  · exact ⟨_, rfl, .inr ⟨by decide, rfl, by decide +kernel, rfl⟩⟩

theorem exT_full : ∀ l ∈ exT.lines, FullLine l := by rw [exT_lines]; decide +kernel

/-- hypotheses of `C79_partial` are met by this tape -/
example : ∃ out, masterParse exMod exTape = .ok out ∧ secVal out 1 451 = some (.data (exLine "a" 125 1 451)) ∧
    secVal out 3 2 = some (.verb [exLine "d" 125 3 2]) ∧ secVal out 3 102 = none := by
  obtain ⟨out, h1, h2⟩ := C79_partial exMod {} rfl rfl exT exMat exT_wf rfl rfl exT_full _ exHandledTpid exVal exHandled (by decide)
  rw [exT_lines] at h1
  refine ⟨out, h1, (h2 _ _ _).2 (.inr ⟨(1, ⟨451, [exLine "a" 125 1 451, exLine "b" 125 1 451], exLine "" 125 1 0⟩), by simp [exMat, TMat.sections], rfl, rfl, rfl⟩),
    (h2 _ _ _).2 (.inr ⟨(3, ⟨2, [exLine "d" 125 3 2], exLine "" 125 3 0⟩), by simp [exMat, TMat.sections], rfl, rfl, rfl⟩), ?_⟩
  cases h : secVal out 3 102 with
  | none => rfl
  | some v =>
    rcases (h2 _ _ _).1 h with ⟨a, _⟩ | ⟨p, hp, e1, e2, _⟩
    · cases a
    · exfalso
      have : ∀ p ∈ exMat.sections, p.1 = 3 → p.2.mt ≠ 102 := by decide
      exact this p hp e1 e2

def verbAre (r : CRes (Dict Int (Dict Int (SecVal Str)))) (mf mt : Int) (ls : List Str) : Bool :=
  match r with
  | .ok d => (match secVal d mf mt with | some (.verb l) => decide (l = ls) | _ => false)
  | _ => false

def throws {α : Type} (r : CRes α) : Bool := match r with | .throw => true | _ => false

def undefined {α : Type} (r : CRes α) : Bool := match r with | .undef => true | _ => false

/-- a file with one section MF `mf`, MT `mt` -/
def exFile (mf mt : Int) (body : List String) : List Str :=
  [exLine "tape" 1 0 0] ++ body.map (exLine · 125 mf mt) ++ [exLine "" 125 mf 0, exLine "" 125 0 0, exLine "" 0 0 0, exLine "" (-1) 0 0]

/-- **C79 fails**: a section without recipe, which the Python parser returns with all its lines, is returned without the first one by
the compiled parser (code_generator_parsing.py:375-393: the line was consumed by `std::getline`). -/
theorem C79_fails : ¬ ∀ (x : CTape Str) (lines : List Str) (d : MfDic) (mf mt : Int) (ls : List Str), x.fn mf mt = none → HandledTpid x (lines.headD []) (.data (lines.headD [])) →
    (∀ l ∈ lines, FullLine l) → splitSections {} lines = .ok d → secOf d mf mt = some ls → verbAre (masterParse x lines) mf mt ls = true := by
  intro h
  have hs : resIs (splitSections {} (exFile 4 2 ["a", "b"])) [((4, 2), some [exLine "a" 125 4 2, exLine "b" 125 4 2])] = true := by decide +kernel
  cases hd : splitSections {} (exFile 4 2 ["a", "b"]) with
  | error e => rw [hd] at hs; cases hs
  | ok d =>
    rw [hd] at hs
    have h1 := h exMod (exFile 4 2 ["a", "b"]) d 4 2 [exLine "a" 125 4 2, exLine "b" 125 4 2] rfl
      ⟨_, rfl, .inl ⟨by decide, _, rfl, fun _ => rfl⟩⟩ (by decide +kernel) hd (by simpa [resIs] using hs)
    have h2 : verbAre (masterParse exMod (exFile 4 2 ["a", "b"])) 4 2 [exLine "a" 125 4 2, exLine "b" 125 4 2] = false := by decide +kernel
    rw [h1] at h2
    cases h2

/-- the lines behind the first are returned -/
example : verbAre (masterParse exMod (exFile 4 2 ["a", "b"])) 4 2 [exLine "b" 125 4 2] = true := by decide +kernel

/-- hypotheses of `C80_truncated_fails` are met: the tape without its last two lines is read -/
example : ∃ out, masterParse exMod (exT.tpid :: (exMat.files.map TFile.lines).flatten) = .ok out :=
  C80_truncated_fails exMod {} rfl rfl exT.tpid exMat ⟨1, by decide +kernel⟩ ⟨exMat_wf.1, exMat_wf.2.1⟩ (exT_full _ (by simp [Tape.lines]))
    (fun f hf l hl => exT_full l (by
      unfold Tape.lines TMat.lines exT
      simp only [List.map_cons, List.map_nil, List.flatten_cons, List.flatten_nil, List.append_nil, List.mem_cons, List.mem_append, List.mem_flatten, List.mem_map]
      exact .inr (.inl (.inl ⟨_, ⟨f, hf, rfl⟩, hl⟩)))) _ exHandledTpid exVal exHandled

/-- hypotheses of `C80_materials_fails`: the material twice -/
example : masterParse exMod (Tape.lines { exT with mats := [exMat, exMat] }) = .throw :=
  C80_materials_fails exMod rfl {} rfl rfl { exT with mats := [exMat, exMat] } exMat exMat []
    ⟨exT_wf.1, by intro m hm; simp only [List.mem_cons, List.not_mem_nil, or_false, or_self] at hm; subst hm; exact exMat_wf, exT_wf.2.2⟩ rfl
    (by intro l hl; refine exT_full l ?_; revert hl; unfold Tape.lines exT; simp only [List.map_cons, List.map_nil, List.flatten_cons,
      List.flatten_nil, List.append_nil, List.mem_cons, List.mem_append]; tauto)
    _ exHandledTpid exVal exHandled (fun p hp => by obtain ⟨f, hf, _⟩ := exHandled p hp; exact ⟨f, hf⟩)

/-- hypotheses of `C80_blank_fails`: a line of blanks behind the TEND record -/
example : masterParse exMod (Tape.lines { exT with trail := [ljust [] 80] }) = .throw :=
  C80_blank_fails exMod rfl {} rfl rfl { exT with trail := [ljust [] 80] } exMat _ _
    ⟨exT_wf.1, exT_wf.2.1, exT_wf.2.2.1, by intro l hl; rw [List.mem_singleton.1 hl]; show strip _ = []; decide +kernel⟩ rfl rfl
    (by intro l hl
        have : l ∈ exT.lines ∨ l = ljust [] 80 := by
          revert hl; unfold Tape.lines exT; simp only [List.mem_cons, List.mem_append, List.not_mem_nil, or_false]; tauto
        rcases this with h | rfl
        · exact exT_full l h
        · decide +kernel)
    _ exHandledTpid exVal exHandled

/-- the module without recipe for MF3/MT1 -/
def exMod' : CTape Str := { exMod with fn := fun mf mt => if mf = 3 ∧ mt = 1 then none else exMod.fn mf mt }

/-- **C80 fails**: the compiled parser does not accept the files the Python parser accepts.  A file without MEND and TEND records is accepted; a
tape whose file MF3 begins with a section without recipe is refused if there is a section with recipe in the same file; an empty line
behind the TEND record is accessed behind its end. -/
theorem C80_fails :
    (¬ ∀ (x : CTape Str) (lines : List Str), throws (masterParse x lines) = false → undefined (masterParse x lines) = false →
      ∃ d, splitSections {} lines = .ok d) ∧
    (¬ ∀ (x : CTape Str) (lines : List Str) (d : MfDic), splitSections {} lines = .ok d → (∀ mf mt ls, secOf d mf mt = some ls →
      ∀ f, x.fn mf mt = some f → x.should mf mt = some false ∨ ∀ l r, l ∈ ls → ∃ v, f (l :: r) = .ok v) → throws (masterParse x lines) = false) ∧
    (¬ ∀ (x : CTape Str) (lines : List Str) (d : MfDic), splitSections {} lines = .ok d → undefined (masterParse x lines) = false) := by
  refine ⟨fun h => ?_, fun h => ?_, fun h => ?_⟩
  · obtain ⟨d, hd⟩ := h exMod (exTape.take 10) (by decide +kernel) (by decide +kernel)
    have : (splitSections {} (exTape.take 10)).toBool = false := by decide +kernel
    rw [hd] at this
    cases this
  · have h1 : (splitSections {} exTape).toBool = true := by decide +kernel
    cases hd : splitSections {} exTape with
    | error e => rw [hd] at h1; cases h1
    | ok d =>
      have h2 := h exMod' exTape d hd (by
        intro mf mt ls _ f hf
        unfold exMod' exMod at hf
        dsimp only at hf
        split at hf
        · cases hf
        · split at hf
          · cases hf; exact .inr fun l r _ => ⟨_, rfl⟩
          · split at hf
            · cases hf; exact .inr fun l r _ => ⟨_, rfl⟩
            · split at hf
              · rename_i h3; subst h3; exact .inl rfl
              · cases hf)
      have h3 : throws (masterParse exMod' exTape) = true := by decide +kernel
      rw [h2] at h3
      cases h3
  · have h1 : (splitSections {} (exTape ++ [[]])).toBool = true := by decide +kernel
    cases hd : splitSections {} (exTape ++ [[]]) with
    | error e => rw [hd] at h1; cases h1
    | ok d =>
      have h2 := h exMod _ d hd
      have h3 : undefined (masterParse exMod (exTape ++ [[]])) = true := by decide +kernel
      rw [h2] at h3
      cases h3

/-- hypotheses of `C79_validate_fails` and `C80_tpid_partial` -/
example : readVerb { exMod with validate := true } ⟨125, 3, 2⟩ [] false (TSec.lines ⟨2, [exLine "d" 125 3 2], exLine "" 125 3 0⟩ ++ []) = .throw :=
  C79_validate_fails _ {} rfl rfl [] 125 3 _ ((exMat_wf.2.1 ⟨3, _, _⟩ (.tail _ (.head _))).2.1 ⟨2, _, _⟩ (.tail _ (.head _))) (by decide +kernel) false []

example : masterParse exMod (exTape.drop 1) = .throw :=
  C80_tpid_partial exMod _ _ 125 1 451 (sees_of_ctrl (c := ⟨125, 1, 451⟩) (by decide +kernel) (by decide +kernel)) (by decide) _ rfl rfl

end Verif
