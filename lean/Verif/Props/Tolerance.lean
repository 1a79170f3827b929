import Verif.Lemmas.Wider
import Verif.Props.CppFun

/-! C84, C85: options that tolerate deviations. -/

namespace Verif
open Spec

/-- for each section that is read, the recipe may be read with the wider options, or there is a TypeError -/
theorem parse_wider_type {x : PCtx} {po : POpts} {P : Prog → Prop} {ty : Prop}
    (hP : ∀ (c : RCtx) (p : Prog) (s : RSt), c.po = x.po → P p → readSection c false p = .ok s →
      readSection { c with po := po } false p = .ok s ∨ (ty ∧ ∃ s', readSection { c with po := po } false p = .err .typeError s'))
    (hx : ∀ mf mt p, Selected x.trees mf mt p → P p) {a : PArgs} (ha : a.nofail = false) {o o' : PObj} (ho : o.ignoreAll = false)
    {r : Dict Int (Dict Int (SecVal DDic))} (h : parse x o a = (o', .ok r)) :
    parse { x with po := po } o a = (o', .ok r) ∨ (ty ∧ ∃ o'', parse { x with po := po } o a = (o'', .error .typeError)) := by
  have hsec : ∀ (mf mt : Int) (ls : List Str) (o o' : PObj) (v : SecVal DDic), o.ignoreAll = false → parseSec x a o mf mt ls = (o', .ok v) →
      (parseSec { x with po := po } a o mf mt ls = (o', .ok v) ∨
        (ty ∧ ∃ o'', parseSec { x with po := po } a o mf mt ls = (o'', .error .typeError))) ∧ o'.ignoreAll = false := by
    intro mf mt ls o o' v ho h
    unfold parseSec at h ⊢
    try dsimp only
    split at h
    · cases h
    · rename_i ctrl hctrl
      try rw [hctrl]
      try dsimp only
      split at h
      · rename_i hr
        cases h
        try rw [hr]
        exact ⟨.inl rfl, ho⟩
      · rename_i p hr
        try rw [hr]
        try dsimp only
        split at h
        · rename_i hs
          cases h
          rw [if_pos hs]
          exact ⟨.inl rfl, ho⟩
        · rename_i hs
          rw [if_neg hs]
          split at h
          · cases h
          · rename_i send hsend
            try rw [hsend]
            try dsimp only at h ⊢
            rw [ho] at h ⊢
            split at h
            · rename_i s hs1
              cases h
              refine ⟨?_, ?_⟩
              · rcases hP ⟨_, _, x.po, _⟩ p s rfl (hx mf mt p ((C57_selected _ _ _ _).1 hr)) hs1 with hq | ⟨ht, s', hq⟩
                · rw [hq]; exact .inl rfl
                · right
                  rw [hq, ha]
                  exact ⟨ht, ⟨s'.ignoreAll⟩, by simp⟩
              unfold readSection at hs1
              simp only [Out.andThen_ok, Out.lift_ok] at hs1
              obtain ⟨s1, h1, cur, _, h2⟩ := hs1
              cases h2
              exact (readProg_frame h1).ign
            · rw [ha] at h
              simp at h
  have hmts : ∀ (mf : Int) (d : Dict Int (List Str)) (o o' : PObj) (v : Dict Int (SecVal DDic)), o.ignoreAll = false →
      parseMts x a mf o d = (o', .ok v) → (parseMts { x with po := po } a mf o d = (o', .ok v) ∨
        (ty ∧ ∃ o'', parseMts { x with po := po } a mf o d = (o'', .error .typeError))) ∧ o'.ignoreAll = false := by
    intro mf d
    induction d with
    | nil =>
      intro o o' v ho h
      cases h
      exact ⟨.inl rfl, ho⟩
    | cons e rest ih =>
      obtain ⟨mt, ls⟩ := e
      intro o o' v ho h
      unfold parseMts at h ⊢
      cases hp : parseSec x a o mf mt ls with
      | mk o1 res =>
        rw [hp] at h
        cases res with
        | error e => cases h
        | ok v1 =>
          obtain ⟨g1, g2⟩ := hsec _ _ _ _ _ _ ho hp
          dsimp only at h
          cases hq : parseMts x a mf o1 rest with
          | mk o2 res =>
            rw [hq] at h
            cases res with
            | error e => cases h
            | ok v2 =>
              obtain ⟨g3, g4⟩ := ih _ _ _ g2 hq
              cases h
              refine ⟨?_, g4⟩
              rcases g1 with g1 | ⟨ht, o'', g1⟩
              · rw [g1]
                dsimp only
                rcases g3 with g3 | ⟨ht, o'', g3⟩
                · rw [g3]; exact .inl rfl
                · rw [g3]; exact .inr ⟨ht, _, rfl⟩
              · rw [g1]; exact .inr ⟨ht, _, rfl⟩
  have hmfs : ∀ (d : MfDic) (o o' : PObj) (v : Dict Int (Dict Int (SecVal DDic))), o.ignoreAll = false →
      parseMfs x a o d = (o', .ok v) → parseMfs { x with po := po } a o d = (o', .ok v) ∨
        (ty ∧ ∃ o'', parseMfs { x with po := po } a o d = (o'', .error .typeError)) := by
    intro d
    induction d with
    | nil =>
      intro o o' v ho h
      exact .inl h
    | cons e rest ih =>
      obtain ⟨mf, ls⟩ := e
      intro o o' v ho h
      unfold parseMfs at h ⊢
      cases hp : parseMts x a mf o ls with
      | mk o1 res =>
        rw [hp] at h
        cases res with
        | error e => cases h
        | ok v1 =>
          obtain ⟨g1, g2⟩ := hmts _ _ _ _ _ ho hp
          dsimp only at h
          cases hq : parseMfs x a o1 rest with
          | mk o2 res =>
            rw [hq] at h
            cases res with
            | error e => cases h
            | ok v2 =>
              rcases g1 with g1 | ⟨ht, o'', g1⟩
              · rw [g1]
                dsimp only
                rcases ih _ _ _ g2 hq with g3 | ⟨ht, o'', g3⟩
                · rw [g3]; exact .inl h
                · rw [g3]; exact .inr ⟨ht, _, rfl⟩
              · rw [g1]; exact .inr ⟨ht, _, rfl⟩
  unfold parse at h ⊢
  dsimp only
  split at h
  · cases h
  · exact hmfs _ _ _ _ ho h

/-- for each section that is read, the recipe may be read with the wider options -/
theorem parse_wider {x : PCtx} {po : POpts} {P : Prog → Prop}
    (hP : ∀ (c : RCtx) (p : Prog) (s : RSt), c.po = x.po → P p → readSection c false p = .ok s →
      readSection { c with po := po } false p = .ok s)
    (hx : ∀ mf mt p, Selected x.trees mf mt p → P p) {a : PArgs} (ha : a.nofail = false) {o o' : PObj} (ho : o.ignoreAll = false)
    {r : Dict Int (Dict Int (SecVal DDic))} (h : parse x o a = (o', .ok r)) : parse { x with po := po } o a = (o', .ok r) :=
  (parse_wider_type (ty := False) (fun c p s h1 h2 h3 => .inl (hP c p s h1 h2 h3)) hx ha ho h).elim id fun h => h.1.elim

/-- C84: A file that is read without some of the options `ignore_zero_mismatch`, `ignore_number_mismatch` and
`ignore_varspec_mismatch` is read with them, with the same result. -/
theorem C84 (x : PCtx) (po : POpts) (hf : po.fuzzy = x.po.fuzzy) (hz : x.po.ignoreZero = true → po.ignoreZero = true)
    (hn : x.po.ignoreNumber = true → po.ignoreNumber = true) (hv : x.po.ignoreVarspec = true → po.ignoreVarspec = true)
    (a : PArgs) (ha : a.nofail = false) (o o' : PObj) (ho : o.ignoreAll = false) (r : Dict Int (Dict Int (SecVal DDic)))
    (h : parse x o a = (o', .ok r)) : parse { x with po := po } o a = (o', .ok r) := by
  refine parse_wider (P := fun _ => True) (fun c p s hc _ hs => ?_) (fun _ _ _ _ => trivial) ha ho h
  exact readSection_wider ⟨fun q => by rw [hf, ← hc]; exact q, fun q => hz (hc ▸ q), fun q => hn (hc ▸ q), fun q => hv (hc ▸ q)⟩ (.inl (by rw [hc, hf])) hs

/-- C85, for recipes without lookahead and without tolerance for fields marked by `?` in the first run: a file that is read with
exact comparison of numbers is read with `fuzzy_matching`, with the same result. -/
theorem C85_partial (x : PCtx) (po : POpts) (hz : x.po.ignoreZero = true → po.ignoreZero = true)
    (hn : x.po.ignoreNumber = false) (hv : x.po.ignoreVarspec = false) (hx : ∀ mf mt p, Selected x.trees mf mt p → NoLook p)
    (hfz : x.po.fuzzy = true → po.fuzzy = true)
    (a : PArgs) (ha : a.nofail = false) (o o' : PObj) (ho : o.ignoreAll = false) (r : Dict Int (Dict Int (SecVal DDic)))
    (h : parse x o a = (o', .ok r)) : parse { x with po := po } o a = (o', .ok r) := by
  refine parse_wider (P := NoLook) (fun c p s hc hp hs => ?_) hx ha ho h
  have e1 : c.po.ignoreNumber = false := by rw [hc, hn]
  have e2 : c.po.ignoreVarspec = false := by rw [hc, hv]
  exact readSection_wider ⟨fun q => hfz (hc ▸ q), fun q => hz (hc ▸ q), fun q => (by rw [e1] at q; cases q), fun q => (by rw [e2] at q; cases q)⟩ (.inr ⟨hp, e1, e2⟩) hs

/-- C85, for all recipes and all options of the first run: the result is the same, or there is a TypeError.  It comes from a list
that is compared with a text or a dictionary of the same length (`C85_fails`). -/
theorem C85_type_partial (x : PCtx) (po : POpts) (hfz : x.po.fuzzy = true → po.fuzzy = true) (hz : x.po.ignoreZero = true → po.ignoreZero = true)
    (hn : x.po.ignoreNumber = true → po.ignoreNumber = true) (hv : x.po.ignoreVarspec = true → po.ignoreVarspec = true)
    (a : PArgs) (ha : a.nofail = false) (o o' : PObj) (ho : o.ignoreAll = false) (r : Dict Int (Dict Int (SecVal DDic)))
    (h : parse x o a = (o', .ok r)) :
    parse { x with po := po } o a = (o', .ok r) ∨ ∃ o'', parse { x with po := po } o a = (o'', .error .typeError) := by
  refine (parse_wider_type (P := fun _ => True) (ty := True) (fun c p s hc _ hs => ?_) (fun _ _ _ _ => trivial) ha ho h).imp id And.right
  exact (readSection_wider_type ⟨fun q => hfz (hc ▸ q), fun q => hz (hc ▸ q), fun q => hn (hc ▸ q), fun q => hv (hc ▸ q)⟩ hs).imp id fun h => ⟨trivial, h⟩

/-! ## the compiled parser and the default options -/

/-- C83: under the conditions of `C83_partial`, the interpreter returns the dictionary of the compiled function also if it
tolerates deviations; with `fuzzy_matching` for recipes without lookahead. -/
theorem C83_options_partial (Γ : Kinds) (depth : Nat) (p : Prog) (code : Code) (defs : List VKey) (hcomp : compile depth p = some (code, defs))
    (hok : funOk Γ depth p code defs = true) (hwf : WF p)
    (c : RCtx) (cc : FunCtx) (hw : c.ro.width = 11) (hpres : c.ro.preserve = false) (hacc : cc.acc = c.ro.acceptSpaces) (hst : Strict c.po)
    (hpl : ∀ l ∈ c.lines, PlainLine l) (hbl : ∀ l ∈ c.lines, isBlankLine l = false)
    (mf : Int) (mt : Option Int) (k : Ctrl) (hk : FunCtrl c.lines mf mt k) (hfit : Fit c k p { cur := initWork [] })
    (s : RSt) (d : DDic) (hpy : readSection c false p = .ok s) (hhead : HasHead p s) (hcpp : runFun cc mf mt code defs c.lines = .ok d) (po : POpts)
    (hpo : po.fuzzy = false ∨ NoLook p) :
    ∃ s', readSection { c with po := po } false p = .ok s' ∧ SameAt (.dic s'.cur) (.dic d) := by
  refine ⟨s, readSection_wider ?_ (hpo.imp (fun h => by rw [hst.1, h]) fun h => ⟨h, hst.2.2.1, hst.2.2.2⟩) hpy,
    C83_partial Γ depth p code defs hcomp hok hwf c cc hw hpres hacc hst hpl hbl mf mt k hk hfit s d hpy hhead hcpp⟩
  obtain ⟨h1, h2, h3, h4⟩ := hst
  exact ⟨by simp [h1], by simp [h2], by simp [h3], by simp [h4]⟩

/-! ## a file -/

namespace FunEx

/-- the section of `FunEx`, with the end of the file -/
def file : List Str := line ["A file"] "   1 0  0    0" :: lines ++ [fendLine, line ["0.0", "0.0", "0", "0", "0", "0"] "   0 0  0    0",
  line ["0.0", "0.0", "0", "0", "0", "0"] "  -1 0  0    0"]

/-- a parser for MF2/MT99 -/
def reader (po : POpts) : PCtx := { po := po, trees := [(2, .byMt [(99, recipe)])] }

/-- the section MF2/MT99 has been read, `M` is a number -/
def readM (po : POpts) (ls : List Str) : Option Rat :=
  match parse (reader po) ⟨false⟩ { lines := ls } with
  | (_, .ok r) => match dGet 2 r with
    | some d => match dGet 99 d with
      | some (.data d) => numAt (dGet (.var "M") d)
      | _ => none
    | none => none
  | _ => none

end FunEx

open FunEx

/-- the hypotheses of C84 and C85 are met by a file with one section; with the default options it is read in the same way -/
example : ∃ o r, parse (reader (strict []).po) ⟨false⟩ { lines := file } = (o, .ok r) ∧ parse (reader {}) ⟨false⟩ { lines := file } = (o, .ok r) ∧
    readM {} file = some 2 := by
  have h1 : readM (strict []).po file = some 2 := by decide +kernel
  have h2 : readM {} file = some 2 := by decide +kernel
  cases h : parse (reader (strict []).po) ⟨false⟩ { lines := file } with
  | mk o res =>
    cases res with
    | error e => unfold readM at h1; rw [h] at h1; cases h1
    | ok r =>
      refine ⟨o, r, rfl, ?_, h2⟩
      refine C85_partial (reader (strict []).po) {} (by simp) rfl rfl ?_ (by simp) _ rfl _ _ rfl _ h
      intro mf mt p hp
      have : p = recipe := by
        rcases hp with hp | ⟨d, hd, hp⟩
        · simp only [reader, dGet] at hp
          split at hp <;> cases hp
        · simp only [reader, dGet] at hd
          split at hd
          · cases hd
            rcases hp with hp | ⟨_, hp⟩
            · simp only [dGet] at hp
              split at hp
              · cases hp; rfl
              · cases hp
            · simp [dGet] at hp
          · cases hd
      subst this
      simp [recipe, NoLook]

/-- the options matter: a value instead of zero is refused by the strict reader, and tolerated with the default options -/
example : let ls := file.set 1 (line ["1.001+3", "0.99", "3", "0", "2", "4"] ctl)
    readM (strict []).po ls = none ∧ readM {} ls = some 2 := by decide +kernel

/-- a TEXT record with a text `T` of 18 characters, and an INTG record with the field `T?` for its 18 numbers -/
def FunEx.textIntg : Prog := .seq (.act (.text {} [⟨some ⟨"T", []⟩, some 18⟩, ⟨none, some 48⟩]))
  (.seq (.act (.intg {} [var "II", var "JJ", .incons ⟨"T", []⟩] (int 2))) (.act .send))

def FunEx.textIntgLines : List Str := line ["abcdefghijk", "lmnopqrstuv"] ctl :: writeIntg {} 2 ⟨1, 2, List.replicate 18 7, ⟨125, 2, 99⟩⟩ ++
  [line ["0.0", "0.0", "0", "0", "0", "0"] " 125 2  0    1"]

/-- A section is accepted with exact comparison, and with `fuzzy_matching` there is a TypeError: a list of numbers is compared with a
text.  (The other options are the default ones.) -/
theorem C85_fails : ∃ (p : Prog) (lines : List Str) (s s' : RSt), readSection { lines := lines, po := { fuzzy := false } } false p = .ok s ∧
    readSection { lines := lines, po := { fuzzy := true } } false p = .err .typeError s' := by
  have h : (match readSection { lines := textIntgLines, po := { fuzzy := false } } false textIntg,
      readSection { lines := textIntgLines, po := { fuzzy := true } } false textIntg with
    | .ok _, .err .typeError _ => true
    | _, _ => false) = true := by decide +kernel
  split at h
  · rename_i s s' h1 h2
    exact ⟨_, _, s, s', h1, h2⟩
  · cases h

/-- A lookahead with a deviating field (`N` is 1 in the first record and 2 in the second one), the default options and a file: the
hypotheses of `C85_type_partial` are met, and the first outcome is the one that occurs. -/
def FunEx.peek : Prog := .seq (.act (.cont true {} [var "ZA", var "AWR", int 0, int 0, int 0, var "N"]))
  (.seq (.ite (.cmp .gt (var "L") (int 3)) (some (int 1)) (.act (.cont false {} [var "C", int 0, var "L", int 0, int 0, var "N"]))
    (.act (.cont false {} [var "M", int 0, var "L", int 0, int 0, int 2]))) (.act .send))

def FunEx.peekFile : List Str := [line ["A file"] "   1 0  0    0", line ["1.001+3", "0.99", "0", "0", "0", "1"] ctl,
  line ["2.0", "0.0", "3", "0", "0", "2"] ctl, line ["0.0", "0.0", "0", "0", "0", "0"] " 125 2  0    1", fendLine,
  line ["0.0", "0.0", "0", "0", "0", "0"] "   0 0  0    0", line ["0.0", "0.0", "0", "0", "0", "0"] "  -1 0  0    0"]

example : ∃ o r, parse { po := { fuzzy := false }, trees := [(2, .byMt [(99, peek)])] } ⟨false⟩ { lines := peekFile } = (o, .ok r) ∧
    parse { po := {}, trees := [(2, .byMt [(99, peek)])] } ⟨false⟩ { lines := peekFile } = (o, .ok r) := by
  have h : (match parse { po := { fuzzy := false }, trees := [(2, .byMt [(99, peek)])] } ⟨false⟩ { lines := peekFile },
      parse { po := {}, trees := [(2, .byMt [(99, peek)])] } ⟨false⟩ { lines := peekFile } with
    | (_, .ok _), (_, .ok _) => true
    | _, _ => false) = true := by decide +kernel
  split at h
  · rename_i o r o' r' h1 h2
    rcases C85_type_partial { po := { fuzzy := false }, trees := [(2, .byMt [(99, peek)])] } {} (by simp) (by simp) (by simp) (by simp) _ rfl _ _ rfl _ h1 with
      h | ⟨o'', h⟩
    · exact ⟨o, r, h1, h⟩
    · rw [show ({ po := {}, trees := [(2, .byMt [(99, peek)])] } : PCtx) = { ({ po := { fuzzy := false }, trees := [(2, .byMt [(99, peek)])] } : PCtx) with po := {} } from rfl, h] at h2
      cases h2
  · cases h

end Verif
