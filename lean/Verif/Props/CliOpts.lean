import Verif.Model.CliOpts

/-! Property C101: options of the parser given on the command line. -/

namespace Verif

/-- the options without value -/
def Spec.flagNames : List String :=
  ["ignore_number_mismatch", "ignore_zero_mismatch", "fuzzy_matching", "ignore_varspec_mismatch", "accept_spaces", "ignore_blank_lines",
   "ignore_send_records", "ignore_missing_tpid", "print_cache_info", "preserve_value_strings"]

/-- what `--n` or `--n text` asks for -/
def Spec.Asks (n : String) (t : Option Str) (v : CVal) : Prop :=
  (n ∈ flagNames ∧ t = none ∧ v = .bool true) ∨ ((n = "endf_format" ∨ n = "array_type") ∧ ∃ s, t = some s ∧ v = .txt s) ∨
    (n = "loglevel" ∧ ∃ s i, t = some s ∧ pyInt s = some i ∧ v = .num i)

/-- the option is given, the last time with this text -/
def Spec.Given (given : List (String × Option Str)) (n : String) (t : Option Str) : Prop :=
  ∃ pre post, given = pre ++ (n, t) :: post ∧ ∀ q ∈ post, q.1 ≠ n

open Spec

theorem last_given {n : String} : ∀ given : List (String × Option Str), (∃ q ∈ given, q.1 = n) → ∃ t, Given given n t := by
  intro given
  induction given with
  | nil => rintro ⟨q, hq, _⟩; cases hq
  | cons g given ih =>
    rintro ⟨q, hq, e⟩
    by_cases hin : ∃ q ∈ given, q.1 = n
    · obtain ⟨t, pre, post, hg, hp⟩ := ih hin
      exact ⟨t, g :: pre, post, by rw [hg]; rfl, hp⟩
    · rcases List.mem_cons.1 hq with rfl | hq
      · exact ⟨q.2, [], given, by rw [← e]; rfl, fun q' hq' e' => hin ⟨q', hq', e'⟩⟩
      · exact absurd ⟨q, hq, e⟩ hin

theorem parserArgs_names : (parserArgs.map ArgRow.name).Nodup := by decide

theorem findArg {n : String} {a : ArgRow} (h : (parserArgs.find? fun a => a.name == n) = some a) : a ∈ parserArgs ∧ a.name = n :=
  ⟨List.mem_of_find?_eq_some h, by simpa using List.find?_some h⟩

theorem flagRows : ∀ a ∈ parserArgs, (a.knd = .flag ↔ a.name ∈ flagNames) ∧ (a.knd = .txt ↔ a.name = "endf_format" ∨ a.name = "array_type") ∧
    (a.knd = .num ↔ a.name = "loglevel") := by decide

theorem flagNames_rows : ∀ n ∈ flagNames ++ ["endf_format", "array_type", "loglevel"], (parserArgs.find? fun a => a.name == n).isSome = true := by decide

theorem asks_iff (n : String) (t : Option Str) (v : CVal) :
    Asks n t v ↔ ∃ a, (parserArgs.find? fun a => a.name == n) = some a ∧ a.read t = some v := by
  constructor
  · intro h
    have hn : n ∈ flagNames ++ ["endf_format", "array_type", "loglevel"] := by
      rcases h with ⟨h, _⟩ | ⟨h | h, _⟩ | ⟨h, _⟩ <;> simp [h]
    obtain ⟨a, ha⟩ := Option.isSome_iff_exists.1 (flagNames_rows n hn)
    obtain ⟨hm, rfl⟩ := findArg ha
    obtain ⟨k1, k2, k3⟩ := flagRows a hm
    refine ⟨a, ha, ?_⟩
    unfold ArgRow.read
    rcases h with ⟨h, rfl, rfl⟩ | ⟨h, s, rfl, rfl⟩ | ⟨h, s, i, rfl, hi, rfl⟩
    · dsimp only; rw [k1.2 h]
    · dsimp only; rw [k2.2 h]
    · dsimp only; rw [k3.2 h]; dsimp only; rw [hi]; rfl
  · rintro ⟨a, ha, hv⟩
    obtain ⟨hm, rfl⟩ := findArg ha
    obtain ⟨k1, k2, k3⟩ := flagRows a hm
    unfold ArgRow.read at hv
    cases t with
    | none =>
      dsimp only at hv
      split at hv
      · rename_i hk; cases hv; exact .inl ⟨k1.1 hk, rfl, rfl⟩
      · cases hv
    | some s =>
      dsimp only at hv
      split at hv
      · cases hv
      · rename_i hk; cases hv; exact .inr (.inl ⟨k2.1 hk, s, rfl, rfl⟩)
      · rename_i hk
        obtain ⟨i, hi, rfl⟩ := Option.map_eq_some_iff.1 hv
        exact .inr (.inr ⟨k3.1 hk, s, i, rfl, hi, rfl⟩)

theorem readArgs_cons {n : String} {t : Option Str} {rest : List (String × Option Str)} {d r : CArgs} :
    readArgs ((n, t) :: rest) d = some r ↔ ∃ v, Asks n t v ∧ readArgs rest (fun m => if m = n then some v else d m) = some r := by
  rw [readArgs]
  simp only [bind, Option.bind_eq_some_iff, asks_iff]
  constructor
  · rintro ⟨a, h1, v, h2, h3⟩; exact ⟨v, ⟨a, h1, h2⟩, h3⟩
  · rintro ⟨v, ⟨a, h1, h2⟩, h3⟩; exact ⟨a, h1, v, h2, h3⟩

theorem readArgs_other {n : String} : ∀ (given : List (String × Option Str)) (d r : CArgs), readArgs given d = some r → (∀ q ∈ given, q.1 ≠ n) → r n = d n := by
  intro given
  induction given with
  | nil => intro d r h _; cases h; rfl
  | cons q given ih =>
    intro d r h hn
    obtain ⟨m, t⟩ := q
    obtain ⟨v, _, h2⟩ := readArgs_cons.1 h
    rw [ih _ r h2 (fun q hq => hn q (by simp [hq]))]
    exact if_neg (fun e => hn (m, t) (by simp) e.symm)

theorem readArgs_given {n : String} {t : Option Str} {post : List (String × Option Str)} (hp : ∀ q ∈ post, q.1 ≠ n) :
    ∀ (pre : List (String × Option Str)) (d r : CArgs), readArgs (pre ++ (n, t) :: post) d = some r → ∃ v, Asks n t v ∧ r n = some v := by
  intro pre
  induction pre with
  | nil =>
    intro d r h
    obtain ⟨v, h1, h2⟩ := readArgs_cons.1 h
    refine ⟨v, h1, ?_⟩
    rw [readArgs_other post _ r h2 hp]
    exact if_pos rfl
  | cons q pre ih =>
    intro d r h
    obtain ⟨m, u⟩ := q
    obtain ⟨v, _, h2⟩ := readArgs_cons.1 h
    exact ih _ r h2

theorem readArgs_ok : ∀ (given : List (String × Option Str)) (d : CArgs), (∃ r, readArgs given d = some r) ↔ ∀ q ∈ given, ∃ v, Asks q.1 q.2 v := by
  intro given
  induction given with
  | nil => intro d; simp [readArgs]
  | cons q given ih =>
    intro d
    obtain ⟨m, t⟩ := q
    simp only [readArgs_cons, List.mem_cons, forall_eq_or_imp]
    constructor
    · rintro ⟨r, v, h1, h2⟩; exact ⟨⟨v, h1⟩, (ih _).1 ⟨r, h2⟩⟩
    · rintro ⟨⟨v, h1⟩, h2⟩
      obtain ⟨r, hr⟩ := (ih fun m' => if m' = m then some v else d m').2 h2
      exact ⟨r, v, h1, hr⟩

/-! ## the arguments of the constructor -/

theorem dGet_mapArgs (a : CArgs) (c : Bool) (n : String) :
    dGet n (mapArgs a c) = (parserArgs.find? fun r => r.name == n).bind fun r => if !c || r.cpp then a n else none := by
  unfold mapArgs
  have key : ∀ L : List ArgRow, (L.map ArgRow.name).Nodup →
      dGet n (L.filterMap fun r => if !c || r.cpp then (a r.name).map fun v => (r.name, v) else none) =
        (L.find? fun r => r.name == n).bind fun r => if !c || r.cpp then a n else none := by
    intro L
    induction L with
    | nil => intro _; rfl
    | cons r L ih =>
      intro hn
      rw [List.map_cons, List.nodup_cons] at hn
      have hrest := ih hn.2
      by_cases hr : r.name = n
      · have hnone : (L.find? fun r => r.name == n) = none := by
          rw [List.find?_eq_none]
          intro q hq e
          exact hn.1 (List.mem_map.2 ⟨q, hq, by rw [hr]; simpa using e⟩)
        rw [hnone] at hrest
        rw [List.find?_cons_of_pos (by simpa using hr), Option.bind_some, List.filterMap_cons]
        by_cases hc : (!c || r.cpp) = true
        · rw [if_pos hc, if_pos hc, hr]
          cases hv : a n with
          | none => exact hrest
          | some v => simp [dGet]
        · rw [if_neg hc, if_neg hc]
          exact hrest
      · rw [List.find?_cons_of_neg (by simpa using hr), ← hrest, List.filterMap_cons]
        by_cases hc : (!c || r.cpp) = true
        · rw [if_pos hc]
          cases hv : a r.name with
          | none => rfl
          | some v =>
            simp only [Option.map_some]
            rw [dGet, if_neg hr]
        · rw [if_neg hc]
  exact key _ parserArgs_names

theorem construct_ok {fine : PSel → Bool} {k : PKnd} {kw : Dict String CVal} {p : PSel} (h : construct fine k kw = some p) :
    p.knd = k ∧ (∀ q ∈ kw, dHas q.1 k.sig = true) ∧ ∀ n, p.opts n = (dGet n k.sig).map fun d => (dGet n kw).getD d := by
  unfold construct at h
  split at h
  · rename_i hk
    dsimp only at h
    split at h
    · cases h
      exact ⟨rfl, by simpa using hk, fun _ => rfl⟩
    · cases h
  · cases h

/-- the arguments of a command and those that it sets itself -/
def bothArgs (args over : CArgs) : CArgs := fun n => match over n with
  | some v => some v
  | none => args n

theorem getEndfParser_ok {fine : PSel → Bool} {noCpp allowCpp : Bool} {args over : CArgs} {p : PSel}
    (h : getEndfParser fine noCpp allowCpp args over = some p) :
    construct fine p.knd (mapArgs (bothArgs args over) (decide (p.knd = .cpp))) = some p ∧ (p.knd = .cpp → noCpp = false ∧ allowCpp = true) := by
  unfold getEndfParser at h
  dsimp only at h
  split at h
  · have := (construct_ok h).1
    rw [this]
    exact ⟨h, fun e => by cases e⟩
  · rename_i hc
    split at h
    · rename_i q hq
      cases h
      have := (construct_ok hq).1
      rw [this]
      refine ⟨hq, fun _ => ?_⟩
      cases noCpp <;> cases allowCpp <;> simp_all
    · have := (construct_ok h).1
      rw [this]
      exact ⟨h, fun e => by cases e⟩

theorem cppRows : ∀ r ∈ parserArgs, dHas r.name cppSig = true → r.cpp = true := by decide

/-- the value of an argument of the constructor -/
theorem opts_eq {fine : PSel → Bool} {noCpp allowCpp : Bool} {args over : CArgs} {p : PSel} (h : getEndfParser fine noCpp allowCpp args over = some p)
    (n : String) : p.opts n = (dGet n p.knd.sig).map fun d =>
      ((if (parserArgs.find? fun r => r.name == n).isSome then bothArgs args over n else none).getD d) := by
  obtain ⟨h1, _⟩ := getEndfParser_ok h
  rw [(construct_ok h1).2.2 n]
  cases hs : dGet n p.knd.sig with
  | none => rfl
  | some d =>
    rw [Option.map_some, Option.map_some, dGet_mapArgs]
    cases hf : parserArgs.find? fun r => r.name == n with
    | none => rfl
    | some r =>
      obtain ⟨hm, rfl⟩ := findArg hf
      have : (!decide (p.knd = .cpp) || r.cpp) = true := by
        cases hk : p.knd with
        | py => rfl
        | cpp =>
          rw [hk] at hs
          simp only [Bool.or_eq_true]
          exact .inr (cppRows r hm (by unfold dHas; rw [show dGet r.name cppSig = some d from hs]; rfl))
      rw [Option.bind_some, if_pos this]
      rfl

theorem asks_row {n : String} {t : Option Str} {v : CVal} (h : Asks n t v) : (parserArgs.find? fun r => r.name == n).isSome = true := by
  obtain ⟨a, ha, _⟩ := (asks_iff n t v).1 h
  rw [ha]; rfl

theorem dflt_none {n : String} (h1 : n ≠ "print_cache_info") (h2 : n ≠ "preserve_value_strings") : dfltArgs n = none := by
  unfold dfltArgs
  cases hf : parserArgs.find? fun r => r.name == n with
  | none => rfl
  | some r =>
    obtain ⟨hm, rfl⟩ := findArg hf
    have : ∀ r ∈ parserArgs, r.name ≠ "print_cache_info" → r.name ≠ "preserve_value_strings" → r.dflt = none := by decide
    exact this r hm h1 h2

theorem cli_both {args : CArgs} (n : String) : bothArgs args (fun _ => none) n = args n := rfl

/-! ## C101 -/

/-- **C101** (partial) Whatever options are given to a command other than `replace`, each option that the parser used has is set to what was
asked for the last time it was given, and every other argument of the constructor has its documented default, except `print_cache_info`, which
is off.
Missing: options given that the parser used does not have are ignored without notice, see `C101_ignored_fails`. -/
theorem C101_partial (fine : PSel → Bool) (noCpp allowCpp : Bool) (given : List (String × Option Str)) (p : PSel)
    (h : cliParser fine noCpp allowCpp given = some p) :
    (∀ n t, Given given n t → ∃ v, Asks n t v ∧ (dHas n p.knd.sig = true → p.opts n = some v)) ∧
    (∀ n, (∀ q ∈ given, q.1 ≠ n) → n ≠ "print_cache_info" → p.opts n = dGet n p.knd.sig) ∧
    ((∀ q ∈ given, q.1 ≠ "print_cache_info") → p.knd = .py → p.opts "print_cache_info" = some (.bool false)) := by
  unfold cliParser at h
  obtain ⟨args, ha, hg⟩ := Option.bind_eq_some_iff.1 h
  replace h := hg
  clear hg
  refine ⟨?_, ?_, ?_⟩
  · rintro n t ⟨pre, post, rfl, hpost⟩
    obtain ⟨v, hv, hr⟩ := readArgs_given hpost pre dfltArgs args ha
    refine ⟨v, hv, fun hs => ?_⟩
    obtain ⟨d, hd⟩ := Option.isSome_iff_exists.1 (show (dGet n p.knd.sig).isSome = true from hs)
    rw [opts_eq h, hd, asks_row hv, if_pos rfl, cli_both, hr]
    rfl
  · intro n hn hne
    have hr := readArgs_other given dfltArgs args ha hn
    rw [opts_eq h, cli_both, hr]
    by_cases hp : n = "preserve_value_strings"
    · subst hp
      cases p.knd <;> decide
    · rw [dflt_none hne hp]
      cases dGet n p.knd.sig with
      | none => rfl
      | some d => simp
  · intro hn hk
    have hr := readArgs_other given dfltArgs args ha hn
    rw [opts_eq h, cli_both, hr, hk]
    decide

/-- **C101** A parser is found exactly for options that mean something, provided that a constructor does not fail for other reasons. -/
theorem C101_found (noCpp allowCpp : Bool) (given : List (String × Option Str)) :
    (∃ p, cliParser (fun _ => true) noCpp allowCpp given = some p) ↔ ∀ q ∈ given, ∃ v, Asks q.1 q.2 v := by
  rw [← readArgs_ok given dfltArgs]
  have hpy : ∀ a : CArgs, ∃ p, construct (fun _ => true) .py (mapArgs a false) = some p := by
    intro a
    unfold construct
    rw [if_pos]
    · exact ⟨_, rfl⟩
    · rw [List.all_eq_true]
      intro q hq
      unfold mapArgs at hq
      obtain ⟨r, hr, e⟩ := List.mem_filterMap.1 hq
      have : ∀ r ∈ parserArgs, dHas r.name pySig = true := by decide
      rw [if_pos (by simp), Option.map_eq_some_iff] at e
      obtain ⟨v, _, rfl⟩ := e
      exact this r hr
  unfold cliParser
  constructor
  · rintro ⟨p, h⟩
    obtain ⟨args, ha, _⟩ := Option.bind_eq_some_iff.1 h
    exact ⟨args, ha⟩
  · rintro ⟨args, ha⟩
    rw [ha]
    show ∃ p, getEndfParser (fun _ => true) noCpp allowCpp args (fun _ => none) = some p
    unfold getEndfParser
    dsimp only
    split
    · exact hpy _
    · split
      · exact ⟨_, rfl⟩
      · exact hpy _

/-- **C101** Which parser is used: the compiled one unless `--no-cpp` is given or the command does not allow it; but giving
`--fuzzy_matching`, which is on by default, also switches to the Python parser. -/
theorem C101_choice (fine : PSel → Bool) (hf : ∀ q, q.knd = .cpp → fine q = true) (noCpp allowCpp : Bool) (given : List (String × Option Str)) (p : PSel)
    (h : cliParser fine noCpp allowCpp given = some p) :
    p.knd = .cpp ↔ noCpp = false ∧ allowCpp = true ∧ ∀ q ∈ given, q.1 ≠ "fuzzy_matching" := by
  unfold cliParser at h
  obtain ⟨args, ha, hg⟩ := Option.bind_eq_some_iff.1 h
  replace h := hg
  clear hg
  obtain ⟨h1, h2⟩ := getEndfParser_ok h
  constructor
  · intro hk
    refine ⟨(h2 hk).1, (h2 hk).2, fun q hq e => ?_⟩
    obtain ⟨t, pre, post, hg, hpost⟩ := last_given given ⟨q, hq, e⟩
    rw [hg] at ha
    obtain ⟨v, _, hr⟩ := readArgs_given hpost pre dfltArgs args ha
    rw [hk] at h1
    have hm : ("fuzzy_matching", v) ∈ mapArgs (bothArgs args fun _ => none) (decide (PKnd.cpp = .cpp)) := by
      apply dGet_mem
      rw [dGet_mapArgs, cli_both, hr]
      rfl
    have := (construct_ok h1).2.1 _ hm
    dsimp only at this
    exact absurd this (by decide)
  · rintro ⟨rfl, rfl, hn⟩
    have hr := readArgs_other given dfltArgs args ha hn
    unfold getEndfParser at h
    dsimp only at h
    rw [if_neg (by decide)] at h
    split at h
    · rename_i q hq
      cases h
      exact (construct_ok hq).1
    · rename_i hq
      exfalso
      unfold construct at hq
      rw [if_pos] at hq
      · dsimp only at hq
        rw [if_pos (hf _ rfl)] at hq
        cases hq
      · rw [List.all_eq_true]
        intro q hq'
        unfold mapArgs at hq'
        obtain ⟨r, hr', e⟩ := List.mem_filterMap.1 hq'
        split at e
        · rename_i hc
          obtain ⟨v, hv, rfl⟩ := Option.map_eq_some_iff.1 e
          have key : ∀ r ∈ parserArgs, r.cpp = true → r.name ≠ "fuzzy_matching" → dHas r.name cppSig = true := by decide
          refine key r hr' (by simpa using hc) (fun e' => ?_)
          dsimp only at hv
          rw [e', hr, dflt_none (by decide) (by decide)] at hv
          cases hv
        · cases e

/-- **C101 fails** for options that the compiled parser does not have: they are accepted and ignored. -/
theorem C101_ignored_fails : ¬ ∀ (fine : PSel → Bool) (given : List (String × Option Str)) (p : PSel), cliParser fine false true given = some p →
    ∀ n t, Given given n t → ∃ v, Asks n t v ∧ p.opts n = some v := by
  intro h
  obtain ⟨p, hp⟩ := (C101_found false true [("loglevel", some "10".toList)]).2 (by
    intro q hq
    rw [List.mem_singleton.1 hq]
    exact ⟨.num 10, .inr (.inr ⟨rfl, _, 10, rfl, by decide +kernel, rfl⟩)⟩)
  have hk := (C101_choice (fun _ => true) (fun _ _ => rfl) false true _ p hp).2 ⟨rfl, rfl, by decide⟩
  obtain ⟨v, _, hv⟩ := h _ _ p hp "loglevel" _ ⟨[], [], rfl, by simp⟩
  unfold cliParser at hp
  obtain ⟨args, _, hp⟩ := Option.bind_eq_some_iff.1 hp
  rw [opts_eq hp, hk] at hv
  revert hv
  simp [PKnd.sig, cppSig, dGet]

/-- **C101** Options that are on by default can't be switched off: whatever is given, mismatches of zeros and of variables are ignored and
spaces in numbers accepted. -/
theorem C101_always_on (fine : PSel → Bool) (noCpp allowCpp : Bool) (given : List (String × Option Str)) (p : PSel)
    (h : cliParser fine noCpp allowCpp given = some p) (n : String)
    (hn : n = "ignore_zero_mismatch" ∨ n = "ignore_varspec_mismatch" ∨ n = "accept_spaces") : p.opts n = some (.bool true) := by
  obtain ⟨h1, h2, _⟩ := C101_partial fine noCpp allowCpp given p h
  have hsig : dGet n p.knd.sig = some (.bool true) := by
    rcases hn with rfl | rfl | rfl <;> cases p.knd <;> decide
  have hflag : n ≠ "print_cache_info" ∧ n ≠ "endf_format" ∧ n ≠ "array_type" ∧ n ≠ "loglevel" := by
    rcases hn with rfl | rfl | rfl <;> decide
  by_cases hin : ∃ q ∈ given, q.1 = n
  · obtain ⟨t, ht⟩ := last_given given hin
    obtain ⟨v, hv, ho⟩ := h1 n t ht
    rw [ho (by unfold dHas; rw [hsig]; rfl)]
    rcases hv with ⟨_, _, rfl⟩ | ⟨e, _⟩ | ⟨e, _⟩
    · rfl
    · rcases e with e | e
      · exact absurd e hflag.2.1
      · exact absurd e hflag.2.2.1
    · exact absurd e hflag.2.2.2
  · rw [h2 n (fun q hq e => hin ⟨q, hq, e⟩) hflag.1]
    exact hsig

/-- **C101** `replace`: the end records and the tape head are never checked, zeros are checked unless `--ignore_zero_mismatch` is given,
texts of numbers are kept for a replacement inside a section; all other options as for the other commands. -/
theorem C101_replace (fine : PSel → Bool) (noCpp deep : Bool) (given : List (String × Option Str)) (p : PSel)
    (h : replaceParser fine noCpp deep given = some p) :
    p.opts "ignore_send_records" = some (.bool true) ∧ p.opts "ignore_missing_tpid" = some (.bool true) ∧
    ((∀ q ∈ given, q.1 ≠ "ignore_zero_mismatch") → p.opts "ignore_zero_mismatch" = some (.bool false)) ∧
    (deep = true → p.opts "preserve_value_strings" = some (.bool true)) ∧
    ∀ n t, Given given n t → n ≠ "ignore_send_records" → n ≠ "ignore_missing_tpid" → ¬ (n = "preserve_value_strings" ∧ deep = true) →
      ∃ v, Asks n t v ∧ (dHas n p.knd.sig = true → p.opts n = some v) := by
  unfold replaceParser at h
  obtain ⟨args, ha, hg⟩ := Option.bind_eq_some_iff.1 h
  replace h := hg
  clear hg
  refine ⟨?_, ?_, ?_, ?_, ?_⟩
  · rw [opts_eq h]; cases p.knd <;> rfl
  · rw [opts_eq h]; cases p.knd <;> rfl
  · intro hn
    have hr := readArgs_other given dfltArgs args ha hn
    rw [dflt_none (by decide) (by decide)] at hr
    have : bothArgs args (replaceOver args deep) "ignore_zero_mismatch" = some (.bool false) := by
      unfold bothArgs replaceOver
      rw [if_pos rfl, hr]
      rfl
    rw [opts_eq h, this]; cases p.knd <;> rfl
  · intro hd
    have : bothArgs args (replaceOver args deep) "preserve_value_strings" = some (.bool true) := by
      subst hd; rfl
    rw [opts_eq h, this]; cases p.knd <;> rfl
  · rintro n t ⟨pre, post, rfl, hpost⟩ h1 h2 h3
    obtain ⟨v, hv, hr⟩ := readArgs_given hpost pre dfltArgs args ha
    refine ⟨v, hv, fun hs => ?_⟩
    obtain ⟨d, hd⟩ := Option.isSome_iff_exists.1 (show (dGet n p.knd.sig).isSome = true from hs)
    have : bothArgs args (replaceOver args deep) n = some v := by
      unfold bothArgs replaceOver
      by_cases hz : n = "ignore_zero_mismatch"
      · rw [if_pos hz, hr]; rfl
      · rw [if_neg hz, if_neg (by simp [h1, h2]), if_neg h3]
        exact hr
    rw [opts_eq h, hd, asks_row hv, if_pos rfl, this]
    rfl

/-! ### concrete options -/

namespace CliOptsEx

/-- `--ignore_blank_lines --array_type list --array_type dict --loglevel 10` -/
def given : List (String × Option Str) :=
  [("ignore_blank_lines", none), ("array_type", some "list".toList), ("loglevel", some "10".toList), ("array_type", some "dict".toList)]

def optIs (r : Option PSel) (k : PKnd) (n : String) (v : Option CVal) : Bool :=
  match r with
  | some p => decide (p.knd = k ∧ p.opts n = v)
  | none => false

end CliOptsEx

open CliOptsEx

/-- with these options there is a parser, of either kind, and the last text counts -/
example : optIs (cliParser (fun _ => true) false true given) .cpp "ignore_blank_lines" (some (.bool true)) = true ∧
    optIs (cliParser (fun _ => true) false true given) .cpp "array_type" (some (.txt "dict".toList)) = true ∧
    optIs (cliParser (fun _ => true) false true given) .cpp "loglevel" none = true ∧
    optIs (cliParser (fun _ => true) true true given) .py "loglevel" (some (.num 10)) = true ∧
    optIs (cliParser (fun _ => true) false true (("fuzzy_matching", none) :: given)) .py "loglevel" (some (.num 10)) = true ∧
    optIs (replaceParser (fun _ => true) false true given) .cpp "preserve_value_strings" (some (.bool true)) = true ∧
    optIs (replaceParser (fun _ => true) false false given) .cpp "ignore_zero_mismatch" (some (.bool false)) = true := by decide +kernel

/-- these options are given -/
example : Given given "array_type" (some "dict".toList) ∧ ∀ q ∈ given, ∃ v, Asks q.1 q.2 v := by
  refine ⟨⟨given.take 3, [], by decide, by simp⟩, (C101_found true true given).1 ?_⟩
  have : (cliParser (fun _ => true) true true given).isSome = true := by decide +kernel
  exact Option.isSome_iff_exists.1 this

end Verif
