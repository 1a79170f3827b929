import Verif.Model.CliStatus
import Verif.Props.Parse

/-! C99: how the commands of `endf-cli` end. -/

namespace Verif

open Spec

/-- the file exists and a new parser object reads it, with this result -/
def ReadsAs (x : PCtx) (k : Disk) (f : Str) (r : Dict Int (Dict Int (SecVal DDic))) : Prop :=
  ∃ ls, k.read f = some ls ∧ (parse x x.fresh { lines := ls }).2 = .ok r

theorem parsefile_fresh {x : PCtx} {k : Disk} {f : Str} {r : Dict Int (Dict Int (SecVal DDic))} :
    (parsefile x k x.fresh f).2 = .ok r ↔ ReadsAs x k f r := by
  unfold parsefile ReadsAs
  cases k.read f with
  | none => simp
  | some ls => simp

theorem parsefile_keep_ok {x : PCtx} {k : Disk} {o o' : PObj} {f : Str} {r : Dict Int (Dict Int (SecVal DDic))}
    (h : parsefile x k o f = (o', .ok r)) : o' = o := by
  unfold parsefile at h
  split at h
  · cases h
  · exact parse_keep_ok rfl h

theorem validateLoop_names (x : PCtx) (k : Disk) : ∀ (fs : List Str) (o : PObj), (validateLoop x k o fs).map Prod.fst = fs
  | [], _ => rfl
  | f :: fs, o => by
    rw [validateLoop]
    split <;> simp [validateLoop_names x k fs]

theorem validateLoop_any (x : PCtx) (k : Disk) : ∀ fs : List Str,
    (validateLoop x k x.fresh fs).any (fun p => !p.2) = false ↔ ∀ f ∈ fs, ∃ r, ReadsAs x k f r
  | [] => by simp [validateLoop]
  | f :: fs => by
    rw [validateLoop]
    split
    · rename_i o' e h
      simp only [List.any_cons, Bool.not_false, Bool.true_or, Bool.true_eq_false, List.mem_cons, forall_eq_or_imp, false_iff, not_and]
      rintro ⟨r, hr⟩
      rw [← parsefile_fresh, h] at hr
      cases hr
    · rename_i o' r h
      have ho := parsefile_keep_ok h
      rw [ho]
      simp only [List.any_cons, Bool.not_true, Bool.false_or, List.mem_cons, forall_eq_or_imp, validateLoop_any x k fs]
      refine ⟨fun g => ⟨⟨r, parsefile_fresh.1 (by rw [h])⟩, g⟩, fun g => g.2⟩

/-- **C99** `endf-cli validate` (partial) ends with status 0 exactly if every file that the patterns match can be parsed by itself, with status 1
otherwise, for all recipes, also though one parser object reads all files: an object is changed only by a failure.  The summary has a line for
each of these files.  Missing: names without a file, see `C99_missing_fails`, and the verdicts in the summary, see `C99_summary_partial`. -/
theorem C99_validate_partial (x : PCtx) (k : Disk) (pats : List Str) :
    ((validateCmd x k pats).2.status = 0 ↔ ∀ p ∈ pats, ∀ f ∈ k.glob p, ∃ r, ReadsAs x k f r) ∧
    ((validateCmd x k pats).2.status = 0 ∨ (validateCmd x k pats).2.status = 1) ∧
    (validateCmd x k pats).1.map Prod.fst = pats.flatMap k.glob := by
  refine ⟨?_, ?_, validateLoop_names x k _ _⟩
  · have h := validateLoop_any x k (globAll k pats)
    unfold validateCmd Ending.status
    dsimp only
    cases hb : (validateLoop x k x.fresh (globAll k pats)).any (fun p => !p.2) with
    | false =>
      simp only [Bool.false_eq_true, if_false, true_iff]
      intro p hp f hf
      exact h.1 hb f (List.mem_flatMap.2 ⟨p, hp, hf⟩)
    | true =>
      simp only [if_true, one_ne_zero, false_iff]
      intro g
      rw [hb] at h
      refine Bool.noConfusion (h.2 fun f hf => ?_)
      obtain ⟨p, hp, hq⟩ := List.mem_flatMap.1 hf
      exact g p hp f hq
  · unfold validateCmd Ending.status
    dsimp only
    split
    · exact .inr rfl
    · exact .inl rfl

theorem validateLoop_verdict {x : PCtx} (hx : ∀ mf mt p, Selected x.trees mf mt p → NoLook p) (k : Disk) : ∀ (fs : List Str) (f : Str) (b : Bool),
    (f, b) ∈ validateLoop x k x.fresh fs → (b = true ↔ ∃ r, ReadsAs x k f r)
  | [], _, _, h => by simp [validateLoop] at h
  | g :: fs, f, b, h => by
    have keep : (parsefile x k x.fresh g).1 = x.fresh := by
      unfold parsefile
      split
      · rfl
      · exact parse_keep hx _ _
    rw [validateLoop] at h
    split at h
    · rename_i o' e hp
      rw [hp] at keep
      dsimp only at keep
      rw [keep] at h
      rcases List.mem_cons.1 h with h | h
      · cases h
        simp only [Bool.false_eq_true, false_iff]
        rintro ⟨r, hr⟩
        rw [← parsefile_fresh, hp] at hr
        cases hr
      · exact validateLoop_verdict hx k fs f b h
    · rename_i o' r hp
      rw [hp] at keep
      dsimp only at keep
      rw [keep] at h
      rcases List.mem_cons.1 h with h | h
      · cases h
        exact ⟨fun _ => ⟨r, parsefile_fresh.1 (by rw [hp])⟩, fun _ => rfl⟩
      · exact validateLoop_verdict hx k fs f b h

/-- **C99** The summary of `validate` (partial): for recipes without lookahead it says `ok` exactly for the files that can be parsed.
With lookahead see `C99_summary_fails`. -/
theorem C99_summary_partial (x : PCtx) (hx : ∀ mf mt p, Selected x.trees mf mt p → NoLook p) (k : Disk) (pats : List Str) (f : Str) (b : Bool)
    (h : (f, b) ∈ (validateCmd x k pats).1) : b = true ↔ ∃ r, ReadsAs x k f r :=
  validateLoop_verdict hx k _ f b h

/-- **C99 fails** for names without a file: `validate` of a file that does not exist ends with status 0, and its summary does not mention
the file. -/
theorem C99_missing_fails (x : PCtx) (k : Disk) (name : Str) (hglob : k.glob name = if (k.read name).isSome then [name] else [])
    (hn : k.read name = none) :
    (validateCmd x k [name]).2.status = 0 ∧ (validateCmd x k [name]).1 = [] ∧ ¬ ∃ r, ReadsAs x k name r := by
  have hg : globAll k [name] = [] := by simp [globAll, hglob, hn]
  refine ⟨?_, ?_, ?_⟩
  · simp [validateCmd, hg, validateLoop, Ending.status]
  · simp [validateCmd, hg, validateLoop]
  · rintro ⟨r, ls, h, _⟩
    rw [hn] at h
    cases h

theorem matchLoop_ok {x : PCtx} {k : Disk} {eval : Dict Int (Dict Int (SecVal DDic)) → Res Unit} : ∀ {fs l : List Str},
    matchLoop x k eval x.fresh fs = .ok (l, false) ↔ l = fs ∧ ∀ f ∈ fs, ∃ r, ReadsAs x k f r ∧ eval r = .ok ()
  | [], l => by
    simp only [matchLoop, List.not_mem_nil, false_imp_iff, implies_true, and_true]
    constructor
    · intro h; cases h; rfl
    · intro h; rw [h]
  | f :: fs, l => by
    rw [matchLoop]
    split
    · rename_i o' e h
      constructor
      · intro g
        cases hm : matchLoop x k eval o' fs with
        | error e => rw [hm] at g; cases g
        | ok q => rw [hm] at g; cases g
      · rintro ⟨_, g⟩
        obtain ⟨r, hr, _⟩ := g f (by simp)
        rw [← parsefile_fresh, h] at hr
        cases hr
    · rename_i o' r h
      have ho := parsefile_keep_ok h
      have hr : ReadsAs x k f r := parsefile_fresh.1 (by rw [h])
      rw [ho]
      cases he : eval r with
      | error e =>
        constructor
        · intro g; cases g
        · rintro ⟨_, g⟩
          obtain ⟨r', hr', he'⟩ := g f (by simp)
          rw [← parsefile_fresh, h] at hr'
          cases hr'
          rw [he] at he'
          cases he'
      | ok u =>
        cases hm : matchLoop x k eval x.fresh fs with
        | error e =>
          constructor
          · intro g; cases g
          · rintro ⟨_, g⟩
            have := (matchLoop_ok (x := x) (k := k) (eval := eval) (fs := fs) (l := fs)).2 ⟨rfl, fun f hf => g f (by simp [hf])⟩
            rw [hm] at this
            cases this
        | ok q =>
          obtain ⟨l', b⟩ := q
          constructor
          · intro g
            cases g
            obtain ⟨rfl, g⟩ := matchLoop_ok.1 hm
            refine ⟨rfl, fun f' hf' => ?_⟩
            rcases List.mem_cons.1 hf' with rfl | hf'
            · exact ⟨r, hr, he⟩
            · exact g f' hf'
          · rintro ⟨rfl, g⟩
            have := (matchLoop_ok (x := x) (k := k) (eval := eval) (fs := fs) (l := fs)).2 ⟨rfl, fun f hf => g f (by simp [hf])⟩
            rw [hm] at this
            cases this
            rfl

/-- **C99** `endf-cli match` ends with status 0 exactly if all files that the patterns match can be parsed by themselves and the query can be
evaluated for each of the results; then all of them have been searched.  The status does not tell whether anything matches. -/
theorem C99_match (x : PCtx) (k : Disk) (eval : Dict Int (Dict Int (SecVal DDic)) → Res Unit) (pats : List Str) :
    ((matchCmd x k eval pats).2.status = 0 ↔ ∀ p ∈ pats, ∀ f ∈ k.glob p, ∃ r, ReadsAs x k f r ∧ eval r = .ok ()) ∧
    ((matchCmd x k eval pats).2.status = 0 → (matchCmd x k eval pats).1 = pats.flatMap k.glob) := by
  have key : (matchCmd x k eval pats).2.status = 0 ↔ ∃ l, matchLoop x k eval x.fresh (globAll k pats) = .ok (l, false) := by
    unfold matchCmd Ending.status
    cases hm : matchLoop x k eval x.fresh (globAll k pats) with
    | error e => simp
    | ok q =>
      obtain ⟨l, b⟩ := q
      cases b <;> simp
  refine ⟨key.trans ⟨?_, ?_⟩, ?_⟩
  · rintro ⟨l, hl⟩ p hp f hf
    exact (matchLoop_ok.1 hl).2 f (List.mem_flatMap.2 ⟨p, hp, hf⟩)
  · intro g
    refine ⟨_, matchLoop_ok.2 ⟨rfl, fun f hf => ?_⟩⟩
    obtain ⟨p, hp, hq⟩ := List.mem_flatMap.1 hf
    exact g p hp f hq
  · intro h
    obtain ⟨l, hl⟩ := key.1 h
    unfold matchCmd
    rw [hl]
    exact (matchLoop_ok.1 hl).1

/-- **C99 fails** for `update-directory` and `show`: whatever the file, also after the work has been done, the status is 1. -/
theorem C99_done_fails (x : PCtx) (k : Disk) (file : Str) (mf : Int) (mt : Option Int) :
    (updateDirCmd x k file).2.status = 1 ∧ (showCmd x k mf mt file).2.status = 1 := by
  constructor
  · unfold updateDirCmd
    repeat' split
    all_goals rfl
  · unfold showCmd
    repeat' split
    all_goals rfl

namespace StatusEx
open Example

/-- a file that can be read, two that can't, and a missing one -/
def disk : Disk where
  glob n := if n = "*".toList then ["bad".toList, "odd".toList, "good".toList] else if n ∈ ["bad".toList, "odd".toList, "good".toList] then [n] else []
  read n :=
    if n = "good".toList then some (tapeOf [goodHead])
    else if n = "odd".toList then some (tapeOf [badHead])
    else if n = "bad".toList then some (tapeOf [nonsense])
    else none

/-- the verdicts and the status -/
def verdicts (x : PCtx) (pats : List Str) : List Bool × Int := ((validateCmd x disk pats).1.map Prod.snd, (validateCmd x disk pats).2.status)

/-- both outcomes occur -/
example : verdicts (objCtx memRecipe) ["good".toList, "good".toList] = ([true, true], 0) := by decide +kernel
example : verdicts (objCtx memRecipe) ["good".toList, "odd".toList] = ([true, false], 1) := by decide +kernel
/-- a missing file -/
example : verdicts (objCtx memRecipe) ["good".toList, "gone".toList] = ([true], 0) := by decide +kernel
example : disk.glob "gone".toList = (if (disk.read "gone".toList).isSome then ["gone".toList] else []) ∧ disk.read "gone".toList = none := by
  decide +kernel

/-- **C99 fails** for the summary with a recipe with lookahead: `validate bad odd` says that `odd` is ok although it can't be parsed, because
the failure for `bad` leaves the parser object in a state without checks. -/
theorem C99_summary_fails :
    (verdicts (objCtx memRecipe) ["bad".toList, "odd".toList] = ([false, true], 1)) ∧
    verdicts (objCtx memRecipe) ["odd".toList] = ([false], 1) := by decide +kernel

/-- `match` with a query that can be evaluated -/
example : (matchCmd (objCtx memRecipe) disk (fun _ => .ok ()) ["good".toList]).2.status = 0 ∧
    (matchCmd (objCtx memRecipe) disk (fun _ => .ok ()) ["*".toList]).2.status = 1 := by decide +kernel

/-- `show` does its work, and yet the status is 1 -/
example : (showCmd (objCtx memRecipe) disk 3 (some 1) "good".toList).1.isSome = true ∧
    (showCmd (objCtx memRecipe) disk 3 (some 1) "good".toList).2.status = 1 := by decide +kernel

end StatusEx

end Verif
