import Verif.Lemmas.AlongCheck
import Verif.Props.Roundtrip
/-
C40: reading what has been written gives back the variables.
-/
namespace Verif
open Spec

theorem clean_set_num {d : DDic} (h : Clean (.dic d)) (n : Name) (x : PyNum) : Clean (.dic (dSet (.var n) (.num x) d)) := by
  cases h with
  | dic _ h1 h2 h3 =>
    refine .dic _ (dSet_nodup h1) (fun k v hg => ?_) (fun k v hg => ?_)
    all_goals
      by_cases hk : k = .var n
      · subst hk
        first
        | (rw [dGet_dSet_self] at hg; cases hg; exact .num x)
        | (rintro (h | h | h) <;> cases h)
      · rw [dGet_dSet_ne (Ne.symm hk)] at hg
        first
        | exact h3 _ _ hg
        | exact h2 _ _ hg

theorem numbered_clean {d : DDic} (h : Clean (.dic d)) (mf mt : Int) : Clean (.dic (numbered mf mt d)) := by
  unfold numbered
  dsimp only
  split_ifs <;> first | exact h | exact clean_set_num h _ _ | exact clean_set_num (clean_set_num h _ _) _ _

theorem ext_leaf_same {v v' : Val} (h : Ext v v') (hl : isLeaf v = true) : SameVal v v' := by
  cases h with
  | refl =>
    cases v <;> first | rfl | cases hl
  | num _ h => exact h
  | lst _ h => exact h
  | dic => cases hl

/-- C40 (partial): a dictionary is written with a recipe, and the same recipe reads records with the same values (`hrec`;
what the text of a number preserves is the subject of C04 to C09).  Then every value that has been read is found at the same
place of the dictionary that was written, and every variable determined by a field of a written record (`uses`) comes back
with its value.  Conditions: names that are searched for in enclosing sections are unique (`Unshadowed`), names of
abbreviations are not used for data (`Unused`); control numbers and texts are taken from the current section, and conditions
lead the reader into the branches that were written (`Along`).  Missing in comparison to the full claim: these conditions
(see the `C40_…_fails` below), and that reading succeeds at all is a hypothesis. -/
theorem C40_partial (c : RCtx) (ign : Bool) (p : Prog) (d : DDic) (fuel : Nat) (mf mt : Int) (w : WSt) (s : RSt)
    (hd : Clean (.dic d)) (hw : writeSection fuel mf mt p d = .ok w) (hr : readSection c ign p = .ok s)
    (hrec : List.Forall₂ SameRec s.recs w.out)
    (hu : Unshadowed (looked p) (numbered mf mt d)) (hb : Unused (abbrs p) (numbered mf mt d))
    (ht : Along c fuel p { cur := initWork [], ignoreAll := ign } { cur := initWork (numbered mf mt d) }) :
    (∀ q v, valAt (.dic s.cur) q = some v → isLeaf v = true → ∃ v', valAt (.dic (numbered mf mt d)) q = some v' ∧ SameVal v v') ∧
    ∀ q ∈ uses fuel p { cur := initWork (numbered mf mt d) }, ∃ v v', valAt (.dic s.cur) q = some v ∧
      valAt (.dic (numbered mf mt d)) q = some v' ∧ isLeaf v = true ∧ SameVal v v' := by
  unfold readSection at hr
  simp only [Out.andThen_ok, Out.lift_ok] at hr
  obtain ⟨s0, h0, D, hD, h1⟩ := hr
  cases h1
  dsimp only at hrec ⊢
  have hnil : Lvl false ([] : DDic) := ⟨by unfold DNodup dKeys; simp, by simp [dGet], by simp [dGet], by simp [dGet], by simp [dGet]⟩
  have hw0 := (clean_work hnil).1
  have hc := numbered_clean hd mf mt
  have hW : ∃ w1, writeProg fuel p { cur := initWork (numbered mf mt d) } = .ok w1 ∧ w1.out = w.out := by
    unfold writeSection at hw
    simp only [bind_ok] at hw
    obtain ⟨_, _, hw⟩ := hw
    split at hw
    · cases hw
    simp only [bind_ok] at hw
    obtain ⟨_, _, hw⟩ := hw
    split at hw
    · cases hw
    simp only [bind_ok, pure_ok] at hw
    obtain ⟨w1, hw1, cur, hcur, rfl⟩ := hw
    exact ⟨w1, hw1, rfl⟩
  obtain ⟨w1, hw1, hout⟩ := hW
  rw [← hout] at hrec
  generalize hT : numbered mf mt d = T at *
  have hlT := Lvl.of_clean hc
  have hup : dHas .up T = false := by
    cases hx : dHas .up T with
    | false => rfl
    | true =>
      obtain ⟨v, hv⟩ := dHas_some.1 hx
      cases hc with
      | dic _ _ h2 _ => exact absurd (.inl rfl) (h2 _ _ hv)
  have hlev : Lev (abbrs p) (looked p) (initWork []) (initWork T) T := by
    apply Lev.init
    have na : ∀ n e', ¬ dGet (.var n) T = some (.abb e') := fun n e' h => clean_get_not_abb hc h e' rfl
    refine ⟨?_, fun n v hv => .inr hv, ?_, fun n e hv => absurd hv (na _ _), hup.symm⟩
    · intro n e
      exact ⟨fun h => by simp [dGet] at h, fun h => absurd h (na _ _)⟩
    · intro n v hv
      refine ⟨hv, ?_⟩
      cases hc with
      | dic _ _ _ h3 => exact h3 _ _ hv
  have hhold : HoldAll (initWork []) T := by
    intro k v hk hv
    cases k <;> simp only [Key.data, Bool.false_eq_true] at hk <;> simp [initWork, dSet, dGet] at hv
  have hat : Fw (abbrs p) (looked p) T { cur := initWork [], ignoreAll := ign } { cur := initWork T } T [] :=
    ⟨⟨⟨[], .top, by simp⟩, by simp, by simp, by simp⟩, hlev, hhold, rfl, rfl, rfl⟩
  have hA := fwd (s := { cur := initWork [], ignoreAll := ign }) (s' := s0) (w := { cur := initWork T }) (w' := w1)
    ⟨hu, hb⟩ hrec (fun _ h => h) (fun _ h => h) hw0 (clean_work hlT).1 rfl ht h0 hw1 hat rfl
    (List.prefix_refl _) (List.prefix_refl _)
  have hf := readProg_frame h0
  have hlD := removeWork_lvl hA.winv.lvl hD
  have hupD : dHas .up D = false := by
    rw [hlD.2, (hf.lvl hw0.lvl).2]; rfl
  have hcD : Clean (.dic D) := by
    have := hlD.1.clean
    rwa [dDel_none (dHas_none.1 hupD)] at this
  have hsound : ∀ q v, valAt (.dic D) q = some v → isLeaf v = true → ∃ v', valAt (.dic T) q = some v' ∧ SameVal v v' := by
    intro q v hv hl
    cases q with
    | nil => simp only [valAt, Option.some.injEq] at hv; subst hv; cases hl
    | cons k ks =>
      simp only [valAt] at hv
      split at hv
      · cases hv
      · rename_i u hk
        have hkd : k.data = true := by
          cases hcD with
          | dic _ _ h2 _ =>
            have := h2 _ _ hk
            cases k <;> first | rfl | (exfalso; apply this; simp [Key.Internal])
        obtain ⟨u', hu', he⟩ := hA.fw.hold k u hkd (removeWork_back hA.winv hD hk) (leaf_not_abb hv hl)
        obtain ⟨v', hv', he'⟩ := he.valAt hv
        exact ⟨v', by simp only [valAt, hu']; exact hv', ext_leaf_same he' hl⟩
  refine ⟨hsound, fun q hq => ?_⟩
  obtain ⟨v, hv, hl⟩ := ((hA.cov q hq).removeWork hA.winv hD).valAt
  obtain ⟨v', hv', he⟩ := hsound q v hv hl
  exact ⟨v, v', hv, hv', hl, he⟩

/-! ## a concrete case -/

namespace ForwardExample
open RoundtripExample

/-- sufficient for `SameVal` -/
theorem sameValB_back {v v' : Val} (h : sameValB v v' = true) : SameVal v v' := by
  cases v <;> cases v' <;> simp only [sameValB, beq_iff_eq, Bool.false_eq_true] at h <;> exact h

theorem all2_back {α : Type} {f : α → α → Bool} {R : α → α → Prop} (hf : ∀ a b, f a b = true → R a b) {l m : List α}
    (h : all2 f l m = true) : List.Forall₂ R l m := by
  induction l generalizing m with
  | nil => cases m with
    | nil => exact .nil
    | cons => cases h
  | cons a l ih =>
    cases m with
    | nil => cases h
    | cons b m =>
      simp only [all2, Bool.and_eq_true] at h
      exact .cons (hf _ _ h.1) (ih h.2)

def sameCtrlRecB (r r' : ARec) : Bool := decide (r.ctrl = r'.ctrl) && sameRecB r r'

theorem sameCtrlRecB_back {r r' : ARec} (h : sameCtrlRecB r r' = true) : SameRec r r' := by
  simp only [sameCtrlRecB, sameRecB, Bool.and_eq_true, decide_eq_true_eq, beq_iff_eq] at h
  exact ⟨h.2.1.1, h.1, all2_back (fun _ _ => sameValB_back) h.2.1.2, all2_back (fun _ _ => sameValB_back) h.2.2⟩

/-- everything `C40_partial` demands, in one computation; the lines are the ones written -/
def holdsF (p : Prog) (mf mt : Int) (d : DDic) : Bool :=
  cleanB (.dic d) && unshadowedB (looked p) (numbered mf mt d) && unusedB (abbrs p) (numbered mf mt d) &&
  match sectionLines 100 {} false mf mt p d, writeSection 100 mf mt p d with
  | .ok (ls, _), .ok w => match readSection { lines := ls } false p with
    | .ok s => all2 sameCtrlRecB s.recs w.out &&
        alongB { lines := ls } 100 p { cur := initWork [] } { cur := initWork (numbered mf mt d) }
    | .err _ _ => false
  | _, _ => false

/-- the lines written are read, and the given places have their values again -/
def ComesBack (p : Prog) (mf mt : Int) (d : DDic) (qs : List Path) : Prop :=
  ∃ ls k s, sectionLines 100 {} false mf mt p d = .ok (ls, k) ∧ readSection { lines := ls } false p = .ok s ∧
    ∀ q ∈ qs, ∃ v v', valAt (.dic s.cur) q = some v ∧ valAt (.dic (numbered mf mt d)) q = some v' ∧ isLeaf v = true ∧ SameVal v v'

theorem holdsF_ok {p : Prog} {mf mt : Int} {d : DDic} (h : holdsF p mf mt d = true) :
    ComesBack p mf mt d (uses 100 p { cur := initWork (numbered mf mt d) }) := by
  unfold holdsF at h
  simp only [Bool.and_eq_true] at h
  obtain ⟨⟨⟨h1, h2⟩, h3⟩, h⟩ := h
  split at h
  · rename_i ls k w hl hw
    split at h
    · rename_i s hs
      simp only [Bool.and_eq_true] at h
      exact ⟨ls, k, s, hl, hs, (C40_partial _ false p d 100 mf mt w s (cleanB_ok h1) hw hs
        (all2_back (fun _ _ => sameCtrlRecB_back) h.1) (unshadowedB_ok h2) (unusedB_ok h3) (alongB_ok h.2)).2⟩
    · cases h
  · cases h

def int (n : Int) : Val := .num (.int n)
def flt (x : Rat) : Val := .num (.num (.flt x))
def flts (l : List Rat) : Val := .lst (l.map fun x => .num (.flt x))
def ints (l : List Int) : Val := .lst (l.map fun x => .int x)

/-- variables of the recipe of `RoundtripExample`, and one that no record contains -/
def dict : DDic :=
  [(.var "MAT", int 125), (.var "ZA", flt 1001), (.var "AWR", flt (9991673/10000000)), (.var "N", int 2), (.var "K", int 2),
   (.var "NOTE", .txt "mine".toList),
   (.var "S", .dic [(.var "NPL", int 6), (.var "N2", int 7),
     (.var "B", .dic [(.idx 1, flt (3/2)), (.idx 2, flt (5/2)), (.idx 3, flt (-7/2))]), (.var "Q", flt (1/2)),
     (.var "NR", int 1), (.var "NP", int 2),
     (.var "table", .dic [(.var "NBT", ints [2]), (.var "INT", ints [2]), (.var "X", flts [1, 2]), (.var "Y", flts [20, 30])])])]

/-- seventeen places, among them array elements and lists in a sub-dictionary of a section -/
example : holdsF recipe 3 1 dict = true ∧ uses 100 recipe { cur := initWork (numbered 3 1 dict) } =
    [[.var "MAT"], [.var "MF"], [.var "MT"], [.var "ZA"], [.var "AWR"], [.var "N"], [.var "K"],
     [.var "S", .var "NPL"], [.var "S", .var "N2"], [.var "S", .var "B", .idx 1], [.var "S", .var "B", .idx 2],
     [.var "S", .var "B", .idx 3], [.var "S", .var "Q"], [.var "S", .var "table", .var "NBT"],
     [.var "S", .var "table", .var "INT"], [.var "S", .var "table", .var "X"], [.var "S", .var "table", .var "Y"]] := by
  decide +kernel

/-- the hypotheses of `C40_partial` can be met, and then the variables come back from the lines written -/
example : ComesBack recipe 3 1 dict (uses 100 recipe { cur := initWork (numbered 3 1 dict) }) :=
  holdsF_ok (by decide +kernel)

/-! ## what goes wrong otherwise -/

/-- the section is written, and reading its lines fails or gives another value or none for one of the given places -/
def lostF (p : Prog) (mf mt : Int) (d : DDic) (qs : List Path) : Bool :=
  cleanB (.dic d) && qs.all (fun q => (valAt (.dic d) q).isSome) &&
  match sectionLines 100 {} false mf mt p d with
  | .error _ => false
  | .ok (ls, _) => match readSection { lines := ls } false p with
    | .err _ _ => true
    | .ok s => qs.any fun q => match valAt (.dic s.cur) q, valAt (.dic (numbered mf mt d)) q with
      | some v, some v' => !sameValB v v'
      | _, _ => true

theorem lostF_ok {p : Prog} {mf mt : Int} {d : DDic} {qs : List Path} (h : lostF p mf mt d qs = true) :
    Clean (.dic d) ∧ (∀ q ∈ qs, (valAt (.dic d) q).isSome = true) ∧
    resOk (sectionLines 100 {} false mf mt p d) = true ∧ ¬ ComesBack p mf mt d qs := by
  unfold lostF at h
  simp only [Bool.and_eq_true, List.all_eq_true] at h
  obtain ⟨⟨h1, h2⟩, h⟩ := h
  refine ⟨cleanB_ok h1, h2, ?_⟩
  split at h
  · cases h
  · rename_i ls k hl
    refine ⟨by rw [hl]; rfl, ?_⟩
    rintro ⟨ls', k', s', hl', hs', hq⟩
    rw [hl] at hl'
    cases hl'
    rw [hs'] at h
    simp only [List.any_eq_true] at h
    obtain ⟨q, hm, h⟩ := h
    obtain ⟨v, v', hv, hv', _, he⟩ := hq q hm
    rw [hv, hv'] at h
    simp only [sameValB_ok he] at h
    cases h

/-- a TEXT record in a section -/
def innerText : Prog :=
  .seq (.act (.cont true {} [v "ZA", v "AWR", i 0, i 0, v "N", v "K"]))
    (.seq (.sect ⟨"S", []⟩ (.act (.text {} [⟨some ⟨"T", []⟩, some 6⟩]))) (.act .send))

def innerDict : DDic :=
  [(.var "MAT", int 125), (.var "ZA", flt 1001), (.var "AWR", flt 1), (.var "N", int 2), (.var "K", int 3),
   (.var "T", .txt "abcdef".toList), (.var "S", .dic [(.var "MAT", int 125), (.var "MF", int 3), (.var "MT", int 1)])]

/-- two text fields of which the first has no length -/
def twoTexts : Prog := .seq (.act (.text {} [⟨some ⟨"T", []⟩, none⟩, ⟨some ⟨"U", []⟩, some 6⟩])) (.act .send)

def twoDict : DDic :=
  [(.var "MAT", int 125), (.var "T", .txt (List.replicate 60 'a')), (.var "U", .txt "abcdef".toList)]

/-- HEAD in a section -/
def innerHead : Prog :=
  .seq (.act (.cont true {} [v "ZA", v "AWR", i 0, i 0, v "N", v "K"]))
    (.seq (.sect ⟨"S", []⟩ (.act (.cont true {} [v "X", f, i 0, i 0, i 0, i 0]))) (.act .send))

/-- a condition with a variable of the same record read later -/
def lateCond : Prog :=
  .seq (.act (.cont true {} [v "ZA", v "AWR", i 0, i 0, v "N", v "K"]))
    (.seq (.ite (.cmp .eq (v "L") (i 7)) none (.act (.cont false {} [f, f, i 0, i 0, v "N1", i 0])) .skip)
      (.seq (.act (.cont false {} [f, f, i 0, i 0, i 0, v "L"])) (.act .send)))

def lateDict : DDic :=
  [(.var "MAT", int 125), (.var "ZA", flt 1001), (.var "AWR", flt 1), (.var "N", int 2), (.var "K", int 3),
   (.var "L", int 7), (.var "N1", int 5)]

/-- a number with more digits than fit -/
def longDict : DDic :=
  [(.var "MAT", int 125), (.var "ZA", flt 1001), (.var "AWR", flt (1/3)), (.var "N", int 2), (.var "K", int 3)]

/-- a variable with the factor 0 -/
def zeroFactor : Prog :=
  .seq (.act (.cont true {} [v "ZA", v "AWR", i 0, i 0, v "N", .mul (i 0) (v "K")])) (.act .send)

def headDict : DDic :=
  [(.var "MAT", int 125), (.var "ZA", flt 1001), (.var "AWR", flt 1), (.var "N", int 2), (.var "K", int 3),
   (.var "S", .dic [(.var "X", flt 1)])]

def headOnly : Prog := .seq (.act (.cont true {} [v "ZA", v "AWR", i 0, i 0, v "N", v "K"])) (.act .send)

end ForwardExample
open RoundtripExample ForwardExample

/-- C40 fails if a text of a sub-section is taken from the enclosing dictionary: it is read into the sub-section. -/
theorem C40_text_fails : Clean (.dic innerDict) ∧ (∀ q ∈ [[Key.var "T"]], (valAt (.dic innerDict) q).isSome = true) ∧
    resOk (sectionLines 100 {} false 3 1 innerText innerDict) = true ∧ ¬ ComesBack innerText 3 1 innerDict [[.var "T"]] :=
  lostF_ok (by decide +kernel)

/-- C40 fails for a text field without length that is not the last one: it swallows the rest of the line. -/
theorem C40_length_fails : Clean (.dic twoDict) ∧ (∀ q ∈ [[Key.var "T"], [Key.var "U"]], (valAt (.dic twoDict) q).isSome = true) ∧
    resOk (sectionLines 100 {} false 3 1 twoTexts twoDict) = true ∧
    ¬ ComesBack twoTexts 3 1 twoDict [[.var "T"], [.var "U"]] :=
  lostF_ok (by decide +kernel)

/-- C40 fails if a condition depends on a variable that is read only later: the reader takes the other branch. -/
theorem C40_late_fails : Clean (.dic lateDict) ∧ (∀ q ∈ [[Key.var "N1"], [Key.var "L"]], (valAt (.dic lateDict) q).isSome = true) ∧
    resOk (sectionLines 100 {} false 3 1 lateCond lateDict) = true ∧
    ¬ ComesBack lateCond 3 1 lateDict [[.var "N1"], [.var "L"]] :=
  lostF_ok (by decide +kernel)

/-- C40 fails for a variable that is multiplied by zero. -/
theorem C40_zero_fails : Clean (.dic lateDict) ∧ (∀ q ∈ [[Key.var "K"]], (valAt (.dic lateDict) q).isSome = true) ∧
    resOk (sectionLines 100 {} false 3 1 zeroFactor lateDict) = true ∧
    ¬ ComesBack zeroFactor 3 1 lateDict [[.var "K"]] :=
  lostF_ok (by decide +kernel)

/-- C40 fails for a number with more digits than a field has, with the default options for writing. -/
theorem C40_digits_fails : Clean (.dic longDict) ∧ (∀ q ∈ [[Key.var "AWR"]], (valAt (.dic longDict) q).isSome = true) ∧
    resOk (sectionLines 100 {} false 3 1 headOnly longDict) = true ∧ ¬ ComesBack headOnly 3 1 longDict [[.var "AWR"]] :=
  lostF_ok (by decide +kernel)

/-- HEAD in a sub-section without control numbers: they are taken from the enclosing dictionary when it is written, and
appear in the sub-section when it is read. -/
theorem C40_extra_fails : ∃ ls k s, sectionLines 100 {} false 3 1 innerHead headDict = .ok (ls, k) ∧
    readSection { lines := ls } false innerHead = .ok s ∧
    (valAt (.dic s.cur) [.var "S", .var "MAT"]).isSome = true ∧
    (valAt (.dic headDict) [.var "S", .var "MAT"]).isSome = false := by
  have h : (match sectionLines 100 {} false 3 1 innerHead headDict with
      | .error _ => false
      | .ok (ls, _) => match readSection { lines := ls } false innerHead with
        | .err _ _ => false
        | .ok s => (valAt (.dic s.cur) [.var "S", .var "MAT"]).isSome) = true := by decide +kernel
  split at h
  · cases h
  · rename_i ls k hl
    split at h
    · cases h
    · rename_i s hs
      exact ⟨ls, k, s, hl, hs, h, by decide +kernel⟩

end Verif
