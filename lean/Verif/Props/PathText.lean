import Verif.Model.PathText
import Verif.Props.Path
import Verif.Lemmas.Digits
/-
Properties of `EndfPath` texts and of `EndfDict`: C45, C46.
-/
namespace Verif
open Spec

theorem splitChar_ne_nil (c : Char) (s : Str) : splitChar c s ≠ [] := by
  cases s with
  | nil => simp [splitChar]
  | cons x s =>
    rw [splitChar]
    split
    · simp
    · split <;> simp

theorem splitChar_none {c : Char} {s : Str} (h : c ∉ s) : splitChar c s = [s] := by
  induction s with
  | nil => rfl
  | cons x s ih =>
    simp only [List.mem_cons, not_or] at h
    rw [splitChar, if_neg (fun e => h.1 e.symm), ih h.2]

theorem splitChar_append {c : Char} {s : Str} (h : c ∉ s) (t : Str) :
    splitChar c (s ++ c :: t) = s :: splitChar c t := by
  induction s with
  | nil => simp [splitChar]
  | cons x s ih =>
    simp only [List.mem_cons, not_or] at h
    rw [List.cons_append, splitChar, if_neg (fun e => h.1 e.symm), ih h.2]

theorem splitChar_join {c : Char} {ts : List Str} (h : ∀ t ∈ ts, c ∉ t) (hn : ts ≠ []) :
    splitChar c (joinChar c ts) = ts := by
  induction ts with
  | nil => exact absurd rfl hn
  | cons s ts ih =>
    cases ts with
    | nil => exact splitChar_none (h s (by simp))
    | cons t ts =>
      rw [joinChar, splitChar_append (h s (by simp)), ih (fun u hu => h u (by simp [hu])) (by simp)]

/-- what an element of an `EndfPath` can be -/
def Spec.ElOk : PEl → Prop
  | .idx _ => True
  | .name s => s = ['*'] ∨ (s ≠ [] ∧ (∃ c ∈ s, c ≠ '_') ∧ (∀ c ∈ s, isAlnum c = true ∨ c = '_') ∧ ∀ c, s.head? = some c → isDig c = false)

theorem validEl_iff (x : PEl) : validEl x = true ↔ ElOk x := by
  cases x with
  | idx n => simp [validEl, ElOk]
  | name s =>
    simp only [validEl, ElOk, Bool.or_eq_true, Bool.and_eq_true, decide_eq_true_eq, Bool.not_eq_true', List.all_eq_true]
    constructor
    · rintro (⟨⟨h1, h2⟩, h3⟩ | h)
      · right
        refine ⟨?_, ?_, ?_, ?_⟩
        · rintro rfl; simp at h1
        · obtain ⟨c, hc⟩ := List.exists_mem_of_ne_nil (s.filter (· ≠ '_')) (by intro e; rw [e] at h1; simp at h1)
          have := List.mem_filter.1 hc
          exact ⟨c, this.1, by simpa using this.2⟩
        · intro c hc
          by_cases hu : c = '_'
          · exact .inr hu
          · exact .inl (h2 c (List.mem_filter.2 ⟨hc, by simpa using hu⟩))
        · intro c hc
          rw [hc] at h3
          simpa using h3
      · exact .inl h
    · rintro (h | ⟨h1, ⟨c, h2, h3⟩, h4, h5⟩)
      · exact .inr h
      · left
        refine ⟨⟨?_, ?_⟩, ?_⟩
        · rw [List.isEmpty_eq_false_iff]
          exact List.ne_nil_of_mem (List.mem_filter.2 ⟨h2, by simpa using h3⟩)
        · intro x hx
          have := List.mem_filter.1 hx
          rcases h4 x this.1 with h | h
          · exact h
          · simp [h] at this
        · cases hh : s.head? with
          | none => rfl
          | some c => simp [h5 c hh]

/-- the text of an element has no special characters -/
theorem elText_chars {x : PEl} (h : ElOk x) : x.text ≠ [] ∧ ∀ c ∈ x.text, isAlnum c = true ∨ c = '_' ∨ c = '*' := by
  cases x with
  | idx n =>
    refine ⟨natStr_ne_nil n, fun c hc => .inl ?_⟩
    simp [isAlnum, natStr_dig n c hc]
  | name s =>
    rcases h with rfl | ⟨h1, _, h3, _⟩
    · exact ⟨by simp [PEl.text], fun c hc => .inr (.inr (by simpa [PEl.text] using hc))⟩
    · exact ⟨h1, fun c hc => by rcases h3 c hc with h | h <;> simp [h]⟩

theorem elChar_plain {c : Char} (h : isAlnum c = true ∨ c = '_' ∨ c = '*') :
    isWs c = false ∧ c ≠ '/' ∧ c ≠ '[' ∧ c ≠ ',' ∧ c ≠ ']' := by
  rcases h with h | rfl | rfl
  · simp only [isAlnum, isDig, Bool.or_eq_true, Bool.and_eq_true, decide_eq_true_eq] at h
    refine ⟨?_, ?_, ?_, ?_, ?_⟩
    · simp only [isWs, Bool.or_eq_false_iff, Bool.and_eq_false_iff, decide_eq_false_iff_not]
      omega
    all_goals (rintro rfl; simp at h)
  · decide
  · decide

theorem elText_noWs {x : PEl} (h : ElOk x) : NoWs x.text := fun c hc => (elChar_plain ((elText_chars h).2 c hc)).1

theorem elText_not {x : PEl} (h : ElOk x) : '/' ∉ x.text ∧ '[' ∉ x.text ∧ ',' ∉ x.text := by
  refine ⟨fun hc => ?_, fun hc => ?_, fun hc => ?_⟩
  · exact (elChar_plain ((elText_chars h).2 _ hc)).2.1 rfl
  · exact (elChar_plain ((elText_chars h).2 _ hc)).2.2.1 rfl
  · exact (elChar_plain ((elText_chars h).2 _ hc)).2.2.2.1 rfl

theorem toEl_text {x : PEl} (h : ElOk x) : toEl x.text = x := by
  cases x with
  | idx n =>
    have : allDigits (natStr n) = true := by
      simp only [allDigits, Bool.and_eq_true, Bool.not_eq_true', List.isEmpty_eq_false_iff, List.all_eq_true]
      exact ⟨natStr_ne_nil n, natStr_dig n⟩
    simp [toEl, PEl.text, this, digitsVal_natStr]
  | name s =>
    have : allDigits s = false := by
      rw [Bool.eq_false_iff]
      intro hd
      simp only [allDigits, Bool.and_eq_true, Bool.not_eq_true', List.isEmpty_eq_false_iff, List.all_eq_true] at hd
      rcases h with rfl | ⟨h1, _, _, h4⟩
      · have := hd.2 '*' (by simp); revert this; decide
      · cases s with
        | nil => exact h1 rfl
        | cons c s => have := hd.2 c (by simp); rw [h4 c rfl] at this; cases this
    simp [toEl, PEl.text, this]

theorem mapM_single {xs : List Str} (h : ∀ x ∈ xs, '[' ∉ x) : xs.mapM expandArray = .ok (xs.map fun x => [x]) := by
  induction xs with
  | nil => rfl
  | cons x xs ih =>
    rw [List.mapM_cons, ih (fun y hy => h y (by simp [hy]))]
    simp [expandArray, h x (by simp), bind, Except.bind, pure, Except.pure]

theorem stdTuple_texts {p : Path} (h : ∀ x ∈ p, ElOk x) : stdTuple (p.map PEl.text) = .ok p := by
  have h1 : (p.map PEl.text).map strip = p.map PEl.text := by
    rw [List.map_map]
    refine List.map_congr_left fun x hx => ?_
    exact strip_noWs (elText_noWs (h x hx))
  have h2 : (p.map PEl.text).filter (· ≠ []) = p.map PEl.text := by
    rw [List.filter_eq_self]
    intro t ht
    obtain ⟨x, hx, rfl⟩ := List.mem_map.1 ht
    simpa using (elText_chars (h x hx)).1
  have h3 := mapM_single (xs := p.map PEl.text) (by
    intro t ht
    obtain ⟨x, hx, rfl⟩ := List.mem_map.1 ht
    exact (elText_not (h x hx)).2.1)
  have h4 : (((p.map PEl.text).map fun x => [x]).flatten).map toEl = p := by
    have e : ∀ l : List Str, (l.map fun x => [x]).flatten = l := by
      intro l; induction l with
      | nil => rfl
      | cons a l ih => simp [ih]
    rw [e, List.map_map]
    conv_rhs => rw [← List.map_id p]
    exact List.map_congr_left fun x hx => toEl_text (h x hx)
  unfold stdTuple
  rw [h1, h2, h3]
  simp only [bind, Except.bind]
  rw [h4, if_pos]
  rw [List.all_eq_true]
  exact fun x hx => (validEl_iff x).2 (h x hx)

theorem stdTuple_ok {xs : List Str} {p : Path} (h : stdTuple xs = .ok p) : ∀ x ∈ p, ElOk x := by
  unfold stdTuple at h
  simp only [bind_ok] at h
  obtain ⟨ys, _, h⟩ := h
  split at h
  · rename_i hv
    cases h
    rw [List.all_eq_true] at hv
    exact fun x hx => (validEl_iff x).1 (hv x hx)
  · cases h

/-- C45: the elements of a path built from a text -/
theorem mkPath_ok {s : Str} {p : Path} (h : mkPath s = .ok p) : ∀ x ∈ p, ElOk x := stdTuple_ok h

theorem mkPath_text {p : Path} (h : ∀ x ∈ p, ElOk x) : mkPath (pathText p) = .ok p := by
  unfold mkPath pathText
  by_cases hp : p = []
  · subst hp; rfl
  · rw [splitChar_join]
    · exact stdTuple_texts h
    · intro t ht
      obtain ⟨x, hx, rfl⟩ := List.mem_map.1 ht
      exact (elText_not (h x hx)).1
    · simpa using hp

/-- C45: building a path from the printed text of a path gives the same path -/
theorem C45_roundtrip (s : Str) (p : Path) (h : mkPath s = .ok p) : mkPath (pathText p) = .ok p :=
  mkPath_text (mkPath_ok h)

/-- C45: the same for paths built from tuples -/
theorem C45_roundtrip_tuple (xs : List Str) (p : Path) (h : stdTuple xs = .ok p) : mkPath (pathText p) = .ok p :=
  mkPath_text (stdTuple_ok h)

/-- text of `name[i1,...,ik]` -/
def Spec.arrayText (name : Str) (idx : List Nat) : Str := name ++ '[' :: joinChar ',' (idx.map natStr) ++ [']']

theorem joinChar_mem {c x : Char} {ts : List Str} (h : x ∈ joinChar c ts) : x = c ∨ ∃ t ∈ ts, x ∈ t := by
  induction ts with
  | nil => simp [joinChar] at h
  | cons s ts ih =>
    cases ts with
    | nil => exact .inr ⟨s, by simp, h⟩
    | cons t ts =>
      rw [joinChar] at h
      rcases List.mem_append.1 h with h | h
      · exact .inr ⟨s, by simp, h⟩
      · rcases List.mem_cons.1 h with h | h
        · exact .inl h
        · rcases ih h with h | ⟨u, hu, hx⟩
          · exact .inl h
          · exact .inr ⟨u, by simp at hu ⊢; tauto, hx⟩

theorem expand_arrayText {name : Str} {idx : List Nat} (hn : ElOk (.name name)) (hi : idx ≠ []) :
    expandArray (arrayText name idx) = .ok (name :: idx.map natStr) := by
  have hb : '[' ∉ name := (elText_not hn).2.1
  unfold expandArray
  rw [if_pos (by simp [arrayText]), if_pos (by rw [arrayText, List.getLast?_concat])]
  have hidx : (arrayText name idx).idxOf '[' = name.length := by
    rw [arrayText, List.append_assoc, List.idxOf_append_of_notMem hb]; simp
  dsimp only
  rw [hidx]
  have h1 : (arrayText name idx).take name.length = name := by
    rw [arrayText, List.append_assoc]; simp
  have h2 : ((arrayText name idx).drop (name.length + 1)).dropLast = joinChar ',' (idx.map natStr) := by
    have : (arrayText name idx).drop (name.length + 1) = joinChar ',' (idx.map natStr) ++ [']'] := by
      rw [arrayText, List.append_assoc, ← List.drop_drop]; simp
    rw [this]; simp
  have hd : ∀ t ∈ idx.map natStr, ',' ∉ t ∧ NoWs t := by
    intro t ht
    obtain ⟨n, _, rfl⟩ := List.mem_map.1 ht
    have := elText_not (x := .idx n) trivial
    exact ⟨this.2.2, elText_noWs (x := .idx n) trivial⟩
  rw [h1, h2, splitChar_join (fun t ht => (hd t ht).1) (by simpa using hi)]
  congr 2
  conv_rhs => rw [← List.map_id (idx.map natStr)]
  exact List.map_congr_left fun t ht => strip_noWs (hd t ht).2

/-- C45: `name[i1,...,ik]` denotes the path `name/i1/.../ik`, at any place in a path -/
theorem C45_array (a b : Path) (name : Str) (idx : List Nat) (ha : ∀ x ∈ a, ElOk x) (hb : ∀ x ∈ b, ElOk x)
    (hn : ElOk (.name name)) (hi : idx ≠ []) :
    mkPath (joinChar '/' (a.map PEl.text ++ [arrayText name idx] ++ b.map PEl.text)) =
      .ok (a ++ .name name :: idx.map PEl.idx ++ b) := by
  have hch : ∀ c ∈ arrayText name idx, isWs c = false ∧ c ≠ '/' := by
    intro c hc
    simp only [arrayText, List.mem_append, List.mem_cons, List.not_mem_nil, or_false] at hc
    rcases hc with (h | rfl | h) | rfl
    · have := elChar_plain ((elText_chars hn).2 c h); exact ⟨this.1, this.2.1⟩
    · decide
    · rcases joinChar_mem h with rfl | ⟨t, ht, hx⟩
      · decide
      · obtain ⟨n, _, rfl⟩ := List.mem_map.1 ht
        have := elChar_plain ((elText_chars (x := .idx n) trivial).2 c hx)
        exact ⟨this.1, this.2.1⟩
    · decide
  unfold mkPath
  rw [splitChar_join ?_ (by simp)]
  · unfold stdTuple
    have h1 : (a.map PEl.text ++ [arrayText name idx] ++ b.map PEl.text).map strip =
        a.map PEl.text ++ [arrayText name idx] ++ b.map PEl.text := by
      conv_rhs => rw [← List.map_id (_ ++ _)]
      refine List.map_congr_left fun t ht => ?_
      simp only [List.mem_append, List.mem_singleton, List.mem_map] at ht
      rcases ht with (⟨x, hx, rfl⟩ | rfl) | ⟨x, hx, rfl⟩
      · exact strip_noWs (elText_noWs (ha x hx))
      · exact strip_noWs (fun c hc => (hch c hc).1)
      · exact strip_noWs (elText_noWs (hb x hx))
    have h2 : (a.map PEl.text ++ [arrayText name idx] ++ b.map PEl.text).filter (· ≠ []) =
        a.map PEl.text ++ [arrayText name idx] ++ b.map PEl.text := by
      rw [List.filter_eq_self]
      intro t ht
      simp only [List.mem_append, List.mem_singleton, List.mem_map] at ht
      rcases ht with (⟨x, hx, rfl⟩ | rfl) | ⟨x, hx, rfl⟩
      · simpa using (elText_chars (ha x hx)).1
      · simp [arrayText]
      · simpa using (elText_chars (hb x hx)).1
    have single : ∀ p : Path, (∀ x ∈ p, ElOk x) →
        (p.map PEl.text).mapM expandArray = .ok ((p.map PEl.text).map fun x => [x]) := by
      intro p hp
      refine mapM_single ?_
      intro t ht
      obtain ⟨x, hx, rfl⟩ := List.mem_map.1 ht
      exact (elText_not (hp x hx)).2.1
    have h3 : (a.map PEl.text ++ [arrayText name idx] ++ b.map PEl.text).mapM expandArray =
        .ok ((a.map PEl.text).map (fun x => [x]) ++ [name :: idx.map natStr] ++ (b.map PEl.text).map fun x => [x]) := by
      rw [List.mapM_append, List.mapM_append, single a ha, single b hb]
      simp [bind, Except.bind, pure, Except.pure, expand_arrayText hn hi]
    have e : ∀ l : List Str, (l.map fun x => [x]).flatten = l := by
      intro l; induction l with
      | nil => rfl
      | cons a l ih => simp [ih]
    have tid : ∀ p : Path, (∀ x ∈ p, ElOk x) → (p.map PEl.text).map toEl = p := by
      intro p hp
      rw [List.map_map]
      conv_rhs => rw [← List.map_id p]
      exact List.map_congr_left fun x hx => toEl_text (hp x hx)
    have h4 : (((a.map PEl.text).map (fun x => [x]) ++ [name :: idx.map natStr] ++
        (b.map PEl.text).map fun x => [x]).flatten).map toEl = a ++ .name name :: idx.map PEl.idx ++ b := by
      rw [List.flatten_append, List.flatten_append, e, e, List.map_append, List.map_append, tid a ha, tid b hb]
      congr 2
      have hx : (idx.map natStr).map toEl = idx.map PEl.idx := by
        rw [List.map_map]
        exact List.map_congr_left fun n _ => toEl_text (x := .idx n) trivial
      simp only [List.flatten_cons, List.flatten_nil, List.append_nil, List.map_cons, hx]
      rw [show toEl name = .name name from toEl_text hn]
    rw [h1, h2, h3]
    simp only [bind, Except.bind]
    rw [h4, if_pos]
    rw [List.all_eq_true]
    intro x hx
    rw [validEl_iff]
    simp only [List.mem_append, List.mem_cons, List.mem_map] at hx
    rcases hx with (h | rfl | ⟨n, _, rfl⟩) | h
    · exact ha x h
    · exact hn
    · trivial
    · exact hb x h
  · intro t ht
    simp only [List.mem_append, List.mem_singleton, List.mem_map] at ht
    rcases ht with (⟨x, hx, rfl⟩ | rfl) | ⟨x, hx, rfl⟩
    · exact (elText_not (ha x hx)).1
    · exact fun hc => (hch _ hc).2 rfl
    · exact (elText_not (hb x hx)).1

/-! ## C46 -/

/-- a path object -/
def Spec.PathOk (p : Path) : Prop := ∀ x ∈ p, ElOk x

/-- path objects used in a key are path objects -/
def Spec.KeyOk : ViewKey → Prop
  | .seq l => ∀ x ∈ l, ∀ p, x = .path p → PathOk p
  | .path p => PathOk p
  | _ => True

/-- the path a key stands for: a tuple stands for the paths of its components one after the other -/
def Spec.keyPath : ViewKey → Res Path
  | .text s => mkPath s
  | .int n => mkPath (intStr n)
  | .seq l => (l.mapM Part.toPath).map List.flatten
  | .path p => .ok p

theorem pathAdd_ok {p q : Path} (hp : PathOk p) (hq : PathOk q) : pathAdd p q = .ok (p ++ q) :=
  stdTuple_texts (fun x hx => by rcases List.mem_append.1 hx with h | h; exacts [hp x h, hq x h])

theorem foldlM_add {α : Type} (f : α → Res Path) (l : List α) (hf : ∀ x ∈ l, ∀ q, f x = .ok q → PathOk q) (acc : Path)
    (ha : PathOk acc) :
    l.foldlM (fun acc x => do pathAdd acc (← f x)) acc = (l.mapM f).map (fun ps => acc ++ ps.flatten) := by
  induction l generalizing acc with
  | nil => simp [pure, Except.pure, Except.map]
  | cons x l ih =>
    rw [List.foldlM_cons, List.mapM_cons]
    cases h : f x with
    | error e => rfl
    | ok q =>
      have hq := hf x (by simp) q h
      simp only [bind, Except.bind, pathAdd_ok ha hq]
      have := ih (fun y hy => hf y (by simp [hy])) (acc ++ q)
        (fun z hz => by rcases List.mem_append.1 hz with h | h; exacts [ha z h, hq z h])
      simp only [bind, Except.bind] at this
      rw [this]
      cases l.mapM f with
      | error e => rfl
      | ok ps => simp [pure, Except.pure, Except.map]

theorem viewPath_eq (k : ViewKey) (hk : KeyOk k) : viewPath k = keyPath k := by
  cases k with
  | text s => rfl
  | int n => rfl
  | seq l =>
    simp only [viewPath, keyPath]
    rw [foldlM_add Part.toPath l ?_ [] (by intro x hx; cases hx)]
    · simp
    · intro x hx q hq
      cases x with
      | text s => exact mkPath_ok hq
      | int n => exact mkPath_ok hq
      | path p => cases hq; exact hk _ hx _ rfl
  | path p =>
    simp only [viewPath, keyPath]
    have hm : ∀ x ∈ p, mkPath x.text = .ok [x] := by
      intro x hx
      have := mkPath_text (p := [x]) (by intro y hy; simp at hy; subst hy; exact hk y hx)
      simpa [pathText, joinChar] using this
    rw [foldlM_add (fun x : PEl => mkPath x.text) p ?_ [] (by intro x hx; cases hx)]
    · have : p.mapM (fun x : PEl => mkPath x.text) = .ok (p.map fun x => [x]) := by
        clear hk
        induction p with
        | nil => rfl
        | cons x p ih =>
          rw [List.mapM_cons, hm x (by simp), ih (fun y hy => hm y (by simp [hy]))]
          rfl
      rw [this]
      have e : ∀ l : Path, (l.map fun x => [x]).flatten = l := by
        intro l; induction l with
        | nil => rfl
        | cons a l ih => simp [ih]
      simp [Except.map, e]
    · intro x hx q hq
      exact mkPath_ok hq

/-- what `__delitem__` accepts like the others: no `EndfPath` objects, and no slashes within tuples -/
def Spec.DelKeyOk : ViewKey → Prop
  | .seq l => ∀ x ∈ l, match x with
    | .text s => '/' ∉ s
    | .int _ => True
    | .path _ => False
  | .path _ => False
  | _ => True

theorem intStr_noslash (n : Int) : '/' ∉ intStr n := by
  intro h
  cases n with
  | ofNat m =>
    have : '/' ∈ natStr m := h
    have := natStr_dig m _ this
    revert this; decide
  | negSucc m =>
    have h' : '/' = '-' ∨ '/' ∈ natStr (m+1) := by simpa [intStr] using h
    rcases h' with h' | h'
    · revert h'; decide
    · have := natStr_dig _ _ h'
      revert this; decide

theorem mapM_expand_err {l : List Str} {e : Err} (h : l.mapM expandArray = .error e) : e = .valueError := by
  induction l with
  | nil => cases h
  | cons a l ih =>
    rw [List.mapM_cons] at h
    cases ha : expandArray a with
    | error e' =>
      rw [ha] at h; cases h
      unfold expandArray at ha
      split at ha
      · split at ha
        · cases ha
        · cases ha; rfl
      · cases ha
    | ok b =>
      rw [ha] at h
      simp only [bind, Except.bind] at h
      cases hl : l.mapM expandArray with
      | error e' => rw [hl] at h; cases h; exact ih hl
      | ok c => rw [hl] at h; cases h

/-- the end of `stdTuple` -/
def stdEnd (ys : List (List Str)) : Res Path :=
  if (ys.flatten.map toEl).all validEl then .ok (ys.flatten.map toEl) else .error .valueError

theorem stdTuple_def (xs : List Str) :
    stdTuple xs = ((xs.map strip).filter (· ≠ [])).mapM expandArray >>= stdEnd := rfl

/-- building a path from a tuple of texts one by one -/
theorem stdTuple_cons (x : Str) (xs : List Str) :
    stdTuple (x :: xs) = (do let p ← stdTuple [x]; let q ← stdTuple xs; return p ++ q) := by
  simp only [stdTuple_def]
  have e : ((x :: xs).map strip).filter (· ≠ []) =
      ([x].map strip).filter (· ≠ []) ++ (xs.map strip).filter (· ≠ []) := by
    rw [← List.filter_append, ← List.map_append]; rfl
  rw [e, List.mapM_append]
  generalize ha : (([x].map strip).filter (· ≠ [])).mapM expandArray = A
  generalize hb : ((xs.map strip).filter (· ≠ [])).mapM expandArray = B
  cases A with
  | error e => rfl
  | ok A =>
    cases B with
    | error e =>
      rw [mapM_expand_err hb]
      simp only [bind, Except.bind, stdEnd]
      split
      · rename_i h; split at h <;> cases h; rfl
      · rfl
    | ok B =>
      simp only [bind, Except.bind, pure, Except.pure, stdEnd, List.flatten_append, List.map_append, List.all_append]
      cases (A.flatten.map toEl).all validEl <;> cases (B.flatten.map toEl).all validEl <;> rfl

theorem stdTuple_nil : stdTuple [] = .ok [] := rfl

theorem viewDelPath_eq (k : ViewKey) (hk : DelKeyOk k) : viewDelPath k = keyPath k := by
  cases k with
  | text s => rfl
  | int n => rfl
  | path p => exact absurd hk (by simp [DelKeyOk])
  | seq l =>
    simp only [viewDelPath, keyPath]
    simp only [DelKeyOk] at hk
    induction l with
    | nil => rfl
    | cons x l ih =>
      have hx : stdTuple [x.str] = x.toPath := by
        have h0 := hk x (by simp)
        cases x with
        | text s => simp only at h0; simp [Part.str, Part.toPath, mkPath, splitChar_none h0]
        | int n => simp [Part.str, Part.toPath, mkPath, splitChar_none (intStr_noslash n)]
        | path p => exact absurd h0 (by simp)
      rw [List.map_cons, stdTuple_cons, hx, ih (fun y hy => hk y (by simp [hy])), List.mapM_cons]
      cases x.toPath with
      | error e => rfl
      | ok p =>
        simp only [bind, Except.bind]
        cases l.mapM Part.toPath with
        | error e => rfl
        | ok ps => simp [Except.map, pure, Except.pure]

/-- the operations done with paths -/
def Spec.pathStep (m : PMode) (o : Obj) : VOp → Obj × Res Obj
  | .get k => match keyPath k with
    | .error e => (o, .error e)
    | .ok p => (o, pget p o)
  | .set k v => match keyPath k with
    | .error e => (o, .error e)
    | .ok p => match pset m p o v with
      | .ok o' => (o', .ok .none)
      | .err e o' => (o', .error e)
  | .del k => match keyPath k with
    | .error e => (o, .error e)
    | .ok p => match premove p o with
      | .ok o' => (o', .ok .none)
      | .error e => (o, .error e)

def Spec.pathRun (m : PMode) : Obj → List VOp → Obj × List (Res Obj)
  | o, [] => (o, [])
  | o, op :: ops => ((pathRun m (pathStep m o op).1 ops).1, (pathStep m o op).2 :: (pathRun m (pathStep m o op).1 ops).2)

def Spec.OpOk : VOp → Prop
  | .get k => KeyOk k
  | .set k _ => KeyOk k
  | .del k => DelKeyOk k

/-- C46, partial: sequences of look-ups, assignments and deletions through an `EndfDict` have the effect of the path
operations on the wrapped dictionary.  Missing: deletion with an `EndfPath` as key or with slashes in the texts of a
tuple, see `C46_fails` and `C46_tuple_fails`. -/
theorem C46_partial (m : PMode) (o : Obj) (ops : List VOp) (h : ∀ op ∈ ops, OpOk op) :
    viewRun m o ops = pathRun m o ops := by
  induction ops generalizing o with
  | nil => rfl
  | cons op ops ih =>
    have hs : viewStep m o op = pathStep m o op := by
      have h0 := h op (by simp)
      cases op with
      | get k =>
        simp only [viewStep, pathStep, viewPath_eq k h0]
        cases keyPath k <;> rfl
      | set k v => simp only [viewStep, pathStep, viewPath_eq k h0]; rfl
      | del k => simp only [viewStep, pathStep, viewDelPath_eq k h0]; rfl
    simp only [viewRun, pathRun, hs, ih _ (fun op hop => h op (by simp [hop]))]

/-- all objects above the end of the path are dictionaries -/
def Spec.DictsTo : Path → Obj → Prop
  | [], _ => True
  | k :: p, o => ∃ d, o = .dic d ∧ ∀ c, dGet k.key d = some c → DictsTo p c

/-- C46: a view of a nested object: look-up -/
theorem C46_nested_get (p q : Path) (o c : Obj) (h : pget p o = .ok c) : pget (p ++ q) o = pget q c := by
  induction p generalizing o with
  | nil => cases h; rfl
  | cons k p ih =>
    rw [pget] at h
    simp only [bind_ok] at h
    obtain ⟨c1, h1, h2⟩ := h
    rw [List.cons_append, pget, h1]
    exact ih c1 h2

/-- C46: a view of a nested object: assigning `q` in the object at `p` is assigning `p/q` -/
theorem C46_nested_set (lm : Bool) (p q : Path) (o c v : Obj) (hq : q ≠ []) (hp : DictsTo p o) (h : pget p o = .ok c) :
    ((∀ c', pset ⟨true, lm⟩ q c v = .ok c' →
      ∃ o', pset ⟨true, lm⟩ (p ++ q) o v = .ok o' ∧ (p ≠ [] → pset ⟨true, lm⟩ p o c' = .ok o') ∧ (p = [] → o' = c')) ∧
    (∀ e c', pset ⟨true, lm⟩ q c v = .err e c' → pset ⟨true, lm⟩ (p ++ q) o v = .err e o)) := by
  have lead' : ∀ (w : Obj) (p : Path) (l1 l2 : Bool) (o : Obj), psetL ⟨true, lm⟩ w l1 p o = psetL ⟨true, lm⟩ w l2 p o := by
    intro w p
    induction p with
    | nil => intros; rfl
    | cons k p ih =>
      intro l1 l2 o
      cases p with
      | nil => simp [psetL, setLast]
      | cons k2 p =>
        simp only [psetL, setStep, Bool.true_or, if_true]
        split
        · rfl
        · rw [ih _ (l2 && k.isIdx)]
  unfold pset
  induction p generalizing o with
  | nil =>
    cases h
    refine ⟨fun c' h => ⟨c', h, fun h => absurd rfl h, fun _ => rfl⟩, fun e c' h => ?_⟩
    have := C42_failing lm q c c' v e h
    rw [List.nil_append, h, this]
  | cons k p ih =>
    obtain ⟨d, rfl, hd⟩ := hp
    simp only [pget, bind_ok] at h
    obtain ⟨c1, h1, h2⟩ := h
    simp only [getItem] at h1
    cases hg : dGet k.key d with
    | none => rw [hg] at h1; cases h1
    | some x =>
      rw [hg] at h1
      cases h1
      obtain ⟨i1, i2⟩ := ih c1 (hd c1 hg) h2
      obtain ⟨k2, r, hr⟩ : ∃ k2 r, p ++ q = k2 :: r := by
        cases hpq : p ++ q with
        | nil => simp only [List.append_eq_nil_iff] at hpq; exact absurd hpq.2 hq
        | cons a b => exact ⟨a, b, rfl⟩
      have unf : ∀ w, psetL ⟨true, lm⟩ w true (k :: k2 :: r) (.dic d) =
          (psetL ⟨true, lm⟩ w true (k2 :: r) c1).map (putBack (.dic d) k) := by
        intro w
        rw [psetL]
        simp only [setStep, Bool.true_or, if_true, dicSetdefault, hg]
        rw [lead' w _ _ true]
      rw [List.cons_append, hr, unf, ← hr]
      refine ⟨fun c' hc => ?_, fun e c' hc => ?_⟩
      · obtain ⟨o', j1, j2, j3⟩ := i1 c' hc
        rw [j1]
        refine ⟨_, rfl, fun _ => ?_, fun h => absurd h (by simp)⟩
        cases p with
        | nil =>
          rw [j3 rfl]
          simp [psetL, setLast, setItem, Mut.of, putBack]
        | cons k3 p =>
          have hj := j2 (by simp)
          rw [psetL]
          simp only [setStep, Bool.true_or, if_true, dicSetdefault, hg]
          rw [lead' c' _ _ true, hj]
          rfl
      · rw [i2 e c' hc]
        simp only [Mut.map, putBack, dSet_same hg]

/-- **C46 fails**: deletion with an `EndfPath` as key ends with an UnboundLocalError, although the path exists -/
theorem C46_fails :
    let o : Obj := .dic [(.str ['a'], .none)]
    (match (viewStep {} o (.del (.path [.name ['a']]))).2 with | .error .unboundLocal => true | _ => false) = true ∧
    (viewStep {} o (.get (.path [.name ['a']]))).2.toBool = true ∧ (premove [.name ['a']] o).toBool = true := by
  decide +kernel

/-- **C46 fails**: deletion with a slash in a tuple: `d['a/b', 1]` can be read, but not deleted -/
theorem C46_tuple_fails :
    let o : Obj := .dic [(.str ['a'], .dic [(.str ['b'], .dic [(.int 1, .none)])])]
    let k : ViewKey := .seq [.text ['a', '/', 'b'], .int 1]
    (match (viewStep {} o (.del k)).2 with | .error .valueError => true | _ => false) = true ∧
    (viewStep {} o (.get k)).2.toBool = true := by decide +kernel

/-- C46: a history -/
example :
    let r := viewRun {} (.dic []) [.set (.text "a/b[1]".toList) (.str ['v']), .get (.seq [.text "a/b".toList, .int 1]),
      .del (.seq [.text "a".toList, .text "b".toList, .int 1]), .get (.text "a/b/1".toList)]
    r.2.map (·.toBool) = [true, true, true, false] := by decide +kernel

/-- C45: a text with array notation and blanks -/
example : (mkPath " a / b[1, 2]//c_1".toList).toOption =
    some [.name ['a'], .name ['b'], .idx 1, .idx 2, .name ['c', '_', '1']] ∧
    (mkPath "a/1b".toList).toBool = false := by decide +kernel

end Verif
