import Verif.Model.Explain
import Verif.Props.Path

/-! C61: looking up descriptions. -/

namespace Verif

/-- the wildcard -/
def Spec.star : PEl := .name ['*']

/-- The places where a description of `path` may be found, best one first: each element but the last may be replaced by the
wildcard, exact elements come first, the first position counts most. -/
def Spec.places : Path → List Path
  | [] => []
  | [p] => [[p]]
  | p :: q :: ps => (Spec.places (q :: ps)).map (p :: ·) ++ (Spec.places (q :: ps)).map (Spec.star :: ·)

/-- the text at a place -/
def Spec.textAt (o : Obj) (q : Path) : Option Str :=
  match pget q o with
  | .ok (.str t) => some t
  | _ => none

/-- every object on the way to a place is a dictionary -/
def Spec.Dicts : Path → Obj → Prop
  | [], _ => True
  | p :: q, o => (∃ d, o = .dic d) ∧ ∀ c, getItem o p = .ok c → Spec.Dicts q c

open Spec

theorem sdExists_dic (d : List (PKey × Obj)) (p : PEl) : sdExists (.dic d) p = .ok (getItem (.dic d) p).toBool := by
  unfold sdExists
  rw [C43_exists]
  simp only [pget]
  cases getItem (.dic d) p <;> rfl

theorem textAt_cons {o : Obj} {p : PEl} {q : Path} : textAt o (p :: q) = (getItem o p).toOption.bind fun c => textAt c q := by
  unfold textAt
  simp only [pget]
  cases getItem o p <;> rfl

theorem findSome_map {α β γ : Type} (f : α → β) (g : β → Option γ) (l : List α) :
    (l.map f).findSome? g = l.findSome? (fun a => g (f a)) := by
  induction l with
  | nil => rfl
  | cons a l ih => simp only [List.map_cons, List.findSome?_cons, ih]

theorem findSome_none {α γ : Type} (l : List α) : l.findSome? (fun _ => (none : Option γ)) = none := by
  induction l with
  | nil => rfl
  | cons a l ih => simp only [List.findSome?_cons, ih]

/-- the passes that the search below one level takes at most -/
def passes : Nat → Nat
  | 0 => 1
  | n + 1 => 3 + 2 * passes n

theorem search_level (path : Path) : ∀ (suffix : Path) (pre : Path), path = pre ++ suffix → suffix ≠ [] →
    ∀ (sd : Obj) (rest : List (Nat × Obj)), rest.length = pre.length → (∀ q ∈ places suffix, Dicts q sd) →
    ∃ n, n ≤ passes (suffix.length - 1) ∧ ∀ fuel, explainLoop path (n + fuel) ((0, sd) :: rest) =
      match (places suffix).findSome? (textAt sd) with
      | some t => some (.ok (some t))
      | none => explainLoop path fuel rest := by
  intro suffix
  induction suffix with
  | nil => intro pre _ h; exact absurd rfl h
  | cons p suffix ih =>
    intro pre hp _ sd rest hlen hd
    have hget : path[rest.length]? = some p := by rw [hp, hlen]; simp
    match suffix with
    | [] =>
      obtain ⟨⟨d, rfl⟩, _⟩ := hd [p] (by simp [places])
      have hlast : rest.length + 1 = path.length := by rw [hp, hlen]; simp
      refine ⟨1, le_refl _, fun fuel => ?_⟩
      rw [Nat.add_comm]
      simp only [explainLoop, explainStep, hget, if_pos hlast, sdExists_dic, places, List.findSome?_cons, List.findSome?_nil,
        textAt_cons]
      cases hg : getItem (.dic d) p with
      | error e => rfl
      | ok c => cases c <;> rfl
    | q :: ps =>
      have hnl : ¬ rest.length + 1 = path.length := by rw [hp, hlen]; simp
      -- the dictionary at this level
      have hpl : places (q :: ps) ≠ [] := by
        have : ∀ (q : PEl) (ps : Path), places (q :: ps) ≠ [] := by
          intro q ps
          induction ps generalizing q with
          | nil => simp [places]
          | cons r ps ih => simp only [places]; intro hc; rw [List.append_eq_nil_iff] at hc; exact ih r (by simpa using hc.1)
        exact this q ps
      obtain ⟨x, hx⟩ := List.exists_mem_of_ne_nil _ hpl
      obtain ⟨⟨d, rfl⟩, _⟩ := hd (p :: x) (by simp only [places]; exact List.mem_append_left _ (List.mem_map_of_mem hx))
      have hsub : ∀ (k : PEl), (∀ y ∈ places (q :: ps), Dicts (k :: y) (.dic d)) → ∀ (s : Nat),
          ∃ n, n ≤ passes ((q :: ps).length - 1) ∧ ∀ fuel,
            (match getItem (.dic d) k with
              | .ok c => explainLoop path (n + fuel) ((0, c) :: (s, .dic d) :: rest)
              | .error _ => explainLoop path fuel ((s, .dic d) :: rest)) =
            match (places (q :: ps)).findSome? (fun y => textAt (.dic d) (k :: y)) with
            | some t => some (.ok (some t))
            | none => explainLoop path fuel ((s, .dic d) :: rest) := by
        intro k hk s
        cases hg : getItem (.dic d) k with
        | error e =>
          refine ⟨0, Nat.zero_le _, fun fuel => ?_⟩
          have : (fun y => textAt (.dic d) (k :: y)) = fun _ => none := by
            funext y; rw [textAt_cons, hg]; rfl
          rw [this, findSome_none]
        | ok c =>
          obtain ⟨n, hn, h⟩ := ih (pre ++ [p]) (by rw [hp]; simp) (by simp) c ((s, .dic d) :: rest) (by simp [hlen])
            (fun y hy => (hk y hy).2 c hg)
          refine ⟨n, hn, fun fuel => ?_⟩
          have : (fun y => textAt (.dic d) (k :: y)) = textAt c := by
            funext y; rw [textAt_cons, hg]; rfl
          rw [this]
          exact h fuel
      obtain ⟨n1, hn1, h1⟩ := hsub p (fun y hy => hd _ (by
        simp only [places]; exact List.mem_append_left _ (List.mem_map_of_mem hy))) 1
      obtain ⟨n2, hn2, h2⟩ := hsub star (fun y hy => hd _ (by
        simp only [places]; exact List.mem_append_right _ (List.mem_map_of_mem hy))) 2
      -- one pass with counter `s` for the element `k`
      have hpass : ∀ (s : Nat) (k : PEl), (s = 0 ∧ k = p) ∨ (s = 1 ∧ k = star) → ∀ fuel,
          explainLoop path (fuel + 1) ((s, .dic d) :: rest) =
            (match getItem (.dic d) k with
              | .ok c => explainLoop path fuel ((0, c) :: (s + 1, .dic d) :: rest)
              | .error _ => explainLoop path fuel ((s + 1, .dic d) :: rest)) := by
        intro s k hk fuel
        rw [explainLoop]
        simp only [explainStep, hget, if_neg hnl]
        have e1 : (if s + 1 = 1 then p else PEl.name ['*']) = k := by
          rcases hk with ⟨rfl, rfl⟩ | ⟨rfl, rfl⟩ <;> rfl
        have e2 : ¬ s + 1 = 3 := by rcases hk with ⟨rfl, _⟩ | ⟨rfl, _⟩ <;> omega
        rw [if_neg e2, e1, sdExists_dic]
        cases getItem (.dic d) k <;> rfl
      have hpop : ∀ fuel, explainLoop path (fuel + 1) ((2, .dic d) :: rest) = explainLoop path fuel rest := by
        intro fuel
        rw [explainLoop]
        simp only [explainStep, hget, if_neg hnl]
        rfl
      -- more passes do not change a result
      have hmono : ∀ (n : Nat) (st : List (Nat × Obj)) (r : Res (Option Str)) (fuel : Nat), explainLoop path n st = some r →
          explainLoop path (n + fuel) st = some r := by
        intro n
        induction n with
        | zero => intro st r fuel h; cases h
        | succ n ihn =>
          intro st r fuel h
          rw [Nat.succ_add]
          rw [explainLoop] at h ⊢
          cases hs : explainStep path st with
          | done r' => rw [hs] at h; exact h
          | next st' => rw [hs] at h; exact ihn st' r fuel h
      simp only [places, List.findSome?_append, findSome_map]
      -- the passes for the exact element: with or without the subtree
      have hA : ∃ m1, m1 ≤ 1 + n1 ∧ ∀ fuel, explainLoop path (m1 + fuel) ((0, .dic d) :: rest) =
          match (places (q :: ps)).findSome? (fun y => textAt (.dic d) (p :: y)) with
          | some t => some (.ok (some t))
          | none => explainLoop path fuel ((1, .dic d) :: rest) := by
        cases hg : getItem (.dic d) p with
        | ok c =>
          refine ⟨1 + n1, le_refl _, fun fuel => ?_⟩
          rw [show 1 + n1 + fuel = (n1 + fuel) + 1 by omega, hpass 0 p (Or.inl ⟨rfl, rfl⟩), ← h1 fuel, hg]
        | error e =>
          refine ⟨1, by omega, fun fuel => ?_⟩
          rw [Nat.add_comm, hpass 0 p (Or.inl ⟨rfl, rfl⟩), ← h1 fuel, hg]
      have hB : ∃ m2, m2 ≤ 1 + n2 ∧ ∀ fuel, explainLoop path (m2 + fuel) ((1, .dic d) :: rest) =
          match (places (q :: ps)).findSome? (fun y => textAt (.dic d) (star :: y)) with
          | some t => some (.ok (some t))
          | none => explainLoop path fuel ((2, .dic d) :: rest) := by
        cases hg : getItem (.dic d) star with
        | ok c =>
          refine ⟨1 + n2, le_refl _, fun fuel => ?_⟩
          rw [show 1 + n2 + fuel = (n2 + fuel) + 1 by omega, hpass 1 star (Or.inr ⟨rfl, rfl⟩), ← h2 fuel, hg]
        | error e =>
          refine ⟨1, by omega, fun fuel => ?_⟩
          rw [Nat.add_comm, hpass 1 star (Or.inr ⟨rfl, rfl⟩), ← h2 fuel, hg]
      obtain ⟨m1, hm1, hA⟩ := hA
      obtain ⟨m2, hm2, hB⟩ := hB
      refine ⟨m1 + (m2 + 1), ?_, fun fuel => ?_⟩
      · simp only [List.length_cons, Nat.add_sub_cancel, passes] at hn1 hn2 ⊢
        omega
      · rw [Nat.add_assoc, hA]
        cases (places (q :: ps)).findSome? (fun y => textAt (.dic d) (p :: y)) with
        | some t => rfl
        | none =>
          dsimp only
          rw [Nat.add_assoc, hB]
          simp only [Option.none_or]
          cases (places (q :: ps)).findSome? (fun y => textAt (.dic d) (star :: y)) with
          | some t => rfl
          | none => rw [Nat.add_comm, hpop]

/-- **C61** (partial) Looking up a description: for every tree of descriptions and every path that is not empty, the loop ends
after a number of passes that depends on the length of the path only, and gives the text at the first place that has one,
or nothing if there is none.  Missing: wildcards for the last element, see `C61_last_fails`, and descriptions of variables at
places that are on the way to others, see `C61_text_fails`. -/
theorem C61_partial (descr : Obj) (path : Path) (hne : path ≠ []) (hd : ∀ q ∈ places path, Dicts q descr) (n : Nat)
    (hn : passes path.length ≤ n) :
    explain descr path n = some (.ok ((places path).findSome? (textAt descr))) := by
  obtain ⟨m, hm, h⟩ := search_level path path [] rfl hne descr [] rfl hd
  have h1 : passes (path.length - 1) + 1 ≤ passes path.length := by
    cases hl : path.length with
    | zero => exact absurd (List.length_eq_zero_iff.mp hl) hne
    | succ k => simp only [Nat.add_sub_cancel, passes]; omega
  obtain ⟨fuel, rfl⟩ : ∃ fuel, n = m + (fuel + 1) := ⟨n - m - 1, by omega⟩
  unfold explain
  rw [h]
  cases (places path).findSome? (textAt descr) with
  | some t => rfl
  | none => rfl

/-- nothing is returned iff no place has a text -/
theorem C61_none_partial (descr : Obj) (path : Path) (hne : path ≠ []) (hd : ∀ q ∈ places path, Dicts q descr) (n : Nat)
    (hn : passes path.length ≤ n) :
    explain descr path n = some (.ok none) ↔ ∀ q ∈ places path, ∀ t, pget q descr ≠ .ok (.str t) := by
  rw [C61_partial descr path hne hd n hn]
  simp only [Option.some.injEq, Except.ok.injEq, List.findSome?_eq_none_iff]
  constructor
  · intro h q hq t ht
    have := h q hq
    unfold textAt at this
    rw [ht] at this
    cases this
  · intro h q hq
    unfold textAt
    split
    · rename_i t ht
      exact absurd ht (h q hq t)
    · rfl

/-- which places there are -/
theorem places_mem (path q : Path) (hne : path ≠ []) : q ∈ places path ↔
    q.length = path.length ∧ q.getLast? = path.getLast? ∧
      ∀ (i : Nat) (a b : PEl), q[i]? = some a → path[i]? = some b → a = b ∨ a = star := by
  induction path generalizing q with
  | nil => exact absurd rfl hne
  | cons p path ih =>
    cases path with
    | nil =>
      simp only [places, List.mem_singleton]
      constructor
      · rintro rfl
        refine ⟨rfl, rfl, ?_⟩
        intro i a b ha hb
        rw [ha] at hb
        exact Or.inl (by simpa using hb)
      · rintro ⟨h1, h2, _⟩
        obtain ⟨x, rfl⟩ := List.length_eq_one_iff.mp h1
        simpa using h2
    | cons p2 path =>
      simp only [places, List.mem_append, List.mem_map]
      constructor
      · have hx : ∀ (k : PEl) (y : Path), (k = p ∨ k = star) → y ∈ places (p2 :: path) →
            (k :: y).length = (p :: p2 :: path).length ∧ (k :: y).getLast? = (p :: p2 :: path).getLast? ∧
              ∀ (i : Nat) (a b : PEl), (k :: y)[i]? = some a → (p :: p2 :: path)[i]? = some b → a = b ∨ a = star := by
          intro k y hk hy
          obtain ⟨h1, h2, h3⟩ := (ih y (by simp)).mp hy
          refine ⟨by simp only [List.length_cons] at h1 ⊢; omega, ?_, ?_⟩
          · have hy0 : y ≠ [] := by rintro rfl; simp at h1
            obtain ⟨y1, y2, rfl⟩ := List.exists_cons_of_ne_nil hy0
            rw [List.getLast?_cons_cons, List.getLast?_cons_cons]
            exact h2
          · intro i a b ha hb
            cases i with
            | zero =>
              simp only [List.getElem?_cons_zero, Option.some.injEq] at ha hb
              subst ha; subst hb
              exact hk
            | succ i => exact h3 i a b (by simpa using ha) (by simpa using hb)
        rintro (⟨y, hy, rfl⟩ | ⟨y, hy, rfl⟩)
        · exact hx p y (Or.inl rfl) hy
        · exact hx star y (Or.inr rfl) hy
      · rintro ⟨h1, h2, h3⟩
        match q, h1 with
        | k :: y, h1 =>
        have hl : y.length = (p2 :: path).length := by simpa using h1
        have hy0 : y ≠ [] := by rintro rfl; simp at hl
        have hy : y ∈ places (p2 :: path) := by
          refine (ih y (by simp)).mpr ⟨hl, ?_, ?_⟩
          · obtain ⟨y1, y2, rfl⟩ := List.exists_cons_of_ne_nil hy0
            rw [List.getLast?_cons_cons, List.getLast?_cons_cons] at h2
            exact h2
          · intro i a b ha hb
            exact h3 (i + 1) a b (by simpa using ha) (by simpa using hb)
        rcases h3 0 k p rfl rfl with rfl | rfl
        · exact Or.inl ⟨y, hy, rfl⟩
        · exact Or.inr ⟨y, hy, rfl⟩

/-- descriptions of a variable of a section array, for all indices and for the second one -/
def exDescr : Obj := .dic [(.int 3, .dic [(.str "sec".toList, .dic [
  (.str "*".toList, .dic [(.str "A".toList, .str "any A".toList), (.str "B".toList, .str "any B".toList)]),
  (.int 2, .dic [(.str "A".toList, .str "second A".toList)])])])]

def exPath (i : Nat) (v : String) : Path := [.idx 3, .name "sec".toList, .idx i, .name v.toList]

/-- exact elements come first, wildcards are used where needed -/
example : (match explain exDescr (exPath 2 "A") (passes 4) with | some (.ok r) => r | _ => none) = some "second A".toList ∧
    (match explain exDescr (exPath 2 "B") (passes 4) with | some (.ok r) => r | _ => none) = some "any B".toList ∧
    (match explain exDescr (exPath 5 "A") (passes 4) with | some (.ok r) => r | _ => none) = some "any A".toList := by
  decide +kernel

/-- a check of the assumption -/
def dictsB : Path → Obj → Bool
  | [], _ => true
  | p :: q, .dic d => match getItem (.dic d) p with
    | .ok c => dictsB q c
    | .error _ => true
  | _ :: _, _ => false

theorem dictsB_sound : ∀ (q : Path) (o : Obj), dictsB q o = true → Dicts q o := by
  intro q
  induction q with
  | nil => intro o _; trivial
  | cons p q ih =>
    intro o h
    cases o with
    | dic d =>
      simp only [dictsB] at h
      refine ⟨⟨d, rfl⟩, fun c hc => ?_⟩
      rw [hc] at h
      exact ih c h
    | none => cases h
    | num x => cases h
    | str s => cases h
    | lst l => cases h

/-- the assumptions of the theorems hold for the example -/
example : ∀ q ∈ places (exPath 2 "A"), Dicts q exDescr := fun q hq =>
  dictsB_sound q _ (List.all_eq_true.mp (by decide +kernel :
    ((places (exPath 2 "A")).all fun q => dictsB q exDescr) = true) q hq)

/-- **C61** A description for every last element (`var A/*: …` in a recipe) is not found. -/
theorem C61_last_fails : (match explain (.dic [(.str "A".toList, .dic [(.str "*".toList, .str "d".toList)])])
      [.name "A".toList, .idx 1] 100 with | some (.ok Option.none) => true | _ => false) = true ∧
    (match explain (.dic [(.str "A".toList, .dic [(.str "*".toList, .str "d".toList)])]) [.name "A".toList, .name "*".toList] 100 with
      | some (.ok (some t)) => decide (t = "d".toList) | _ => false) = true := by
  decide +kernel

/-- **C61** Asking for an element of an array that is described as a whole raises AttributeError. -/
theorem C61_text_fails : (match explain (.dic [(.str "A".toList, .str "an array".toList)]) [.name "A".toList, .idx 1] 100 with
    | some (.error .attributeError) => true | _ => false) = true := by
  decide +kernel

/-- **C61** The empty path raises IndexError. -/
theorem C61_empty_fails (descr : Obj) (n : Nat) (hn : 1 ≤ n) : explain descr [] n = some (.error .indexError) := by
  obtain ⟨m, rfl⟩ : ∃ m, n = m + 1 := ⟨n - 1, by omega⟩
  rfl

end Verif
