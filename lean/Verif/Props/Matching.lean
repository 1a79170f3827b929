import Verif.Model.Matching
import Verif.Props.PathText
/-
Wildcards and match expressions: C47, C48.
-/
namespace Verif
open Spec

/-! ## C47 -/

/-- `q` exists in `o` and results from `p` by replacing each wildcard by a key of the visited level -/
inductive Spec.Exp : Path → Obj → Path → Prop
  | nil (o : Obj) : Exp [] o []
  | el {x : PEl} {p q : Path} {o c : Obj} (hx : x ≠ star) (hc : getItem o x = .ok c) (h : Exp p c q) : Exp (x :: p) o (x :: q)
  | star {k : PEl} {p q : Path} {o c : Obj} {ks : List PKey} (hk : iterKeys o = some ks) (hm : k.key ∈ ks)
      (hc : getItem o k = .ok c) (h : Exp p c q) : Exp (star :: p) o (k :: q)

/-- keys of the level at which the wildcard stands that can be used in paths: names and numbers from 0 on -/
def Spec.PlainKeys (o : Obj) : Prop :=
  ∀ ks, iterKeys o = some ks → ∀ k ∈ ks, ∃ x : PEl, ElOk x ∧ x ≠ star ∧ k = x.key

theorem keyToPath_el {x : PEl} (h : ElOk x) : keyToPath x.key = .ok [x] := by
  have := mkPath_text (p := [x]) (by simpa using h)
  cases x <;> simpa [keyToPath, PEl.key, pathText, joinChar, PEl.text, intStr] using this

theorem noStar_take {a b : Path} (ha : star ∉ a) : (a ++ star :: b).findIdx? (· = star) = some a.length := by
  induction a with
  | nil => simp [List.findIdx?_cons]
  | cons x a ih =>
    simp only [List.mem_cons, not_or] at ha
    rw [List.cons_append, List.findIdx?_cons, if_neg (by simpa using fun e => ha.1 e.symm), ih ha.2]
    simp

theorem noStar_none {b : Path} (hb : star ∉ b) : b.findIdx? (· = star) = none := by
  rw [List.findIdx?_eq_none_iff]
  intro x hx
  simp only [decide_eq_false_iff_not]
  rintro rfl
  exact hb hx

/-- one wildcard left -/
theorem genLoop_last {f : Nat} {cur : Obj} {rest : Path} (hr : star ∉ rest) {ks : List PKey} {xs : List PEl}
    (hks : ks = xs.map PEl.key) (hx : ∀ x ∈ xs, ElOk x ∧ x ≠ star) (a : Path) :
    genLoop (fun q l => genPaths (f+1) q cur l) [] rest ks a = .ok (xs.map fun x => a ++ x :: rest) := by
  subst hks
  induction xs generalizing a with
  | nil => rfl
  | cons x xs ih =>
    have hn : star ∉ x :: rest := by
      simp only [List.mem_cons, not_or]; exact ⟨fun e => (hx x (by simp)).2 e.symm, hr⟩
    rw [List.map_cons, genLoop, keyToPath_el (hx x (by simp)).1]
    simp only [bind, Except.bind, List.nil_append, List.singleton_append]
    rw [genPaths, noStar_none hn]
    dsimp only
    rw [ih (fun y hy => hx y (by simp [hy]))]
    simp [pure, Except.pure]

theorem plain_els {o : Obj} (h : PlainKeys o) {ks : List PKey} (hk : iterKeys o = some ks) :
    ∃ xs : List PEl, ks = xs.map PEl.key ∧ ∀ x ∈ xs, ElOk x ∧ x ≠ star := by
  have h := h ks hk
  clear hk
  induction ks with
  | nil => exact ⟨[], rfl, by simp⟩
  | cons k ks ih =>
    obtain ⟨xs, h1, h2⟩ := ih (fun k hk => h k (by simp [hk]))
    obtain ⟨x, h3, h4, h5⟩ := h k (by simp)
    exact ⟨x :: xs, by simp [h1, h5], by simp only [List.mem_cons, forall_eq_or_imp]; exact ⟨⟨h3, h4⟩, h2⟩⟩

theorem exp_noStar {b : Path} (hb : star ∉ b) {o : Obj} {q : Path} :
    Exp b o q ↔ q = b ∧ (pget b o).toBool = true := by
  induction b generalizing o q with
  | nil =>
    constructor
    · rintro ⟨⟩; exact ⟨rfl, rfl⟩
    · rintro ⟨rfl, _⟩; exact .nil o
  | cons x b ih =>
    simp only [List.mem_cons, not_or] at hb
    constructor
    · intro h
      cases h with
      | el hx hc h =>
        obtain ⟨rfl, h2⟩ := (ih hb.2).1 h
        exact ⟨rfl, by rw [pget, hc]; exact h2⟩
      | star _ _ _ _ => exact absurd rfl hb.1
    · rintro ⟨rfl, h⟩
      rw [pget] at h
      cases hc : getItem o x with
      | error e => rw [hc] at h; cases h
      | ok c =>
        rw [hc] at h
        exact .el (fun e => hb.1 e.symm) hc ((ih hb.2).2 ⟨rfl, h⟩)

theorem exp_append {a p : Path} (ha : star ∉ a) {o : Obj} {q : Path} :
    Exp (a ++ p) o q ↔ ∃ c r, pget a o = .ok c ∧ Exp p c r ∧ q = a ++ r := by
  induction a generalizing o q with
  | nil => simp [pget]
  | cons x a ih =>
    simp only [List.mem_cons, not_or] at ha
    constructor
    · intro h
      cases h with
      | el hx hc h =>
        obtain ⟨c, r, h1, h2, rfl⟩ := (ih ha.2).1 h
        exact ⟨c, r, by rw [pget, hc]; exact h1, h2, rfl⟩
      | star _ _ _ _ => exact absurd rfl ha.1
    · rintro ⟨c, r, h1, h2, rfl⟩
      rw [pget] at h1
      simp only [bind_ok] at h1
      obtain ⟨c1, h3, h4⟩ := h1
      exact .el (fun e => ha.1 e.symm) h3 ((ih ha.2).2 ⟨c, r, h4, h2, rfl⟩)

theorem exp_star {o : Obj} {b q : Path} (hb : star ∉ b) :
    Exp (star :: b) o q ↔ ∃ k ks, iterKeys o = some ks ∧ k.key ∈ ks ∧ q = k :: b ∧ (pget q o).toBool = true := by
  constructor
  · intro h
    cases h with
    | el hx => exact absurd rfl hx
    | @star k _ r _ c ks hk hm hc h =>
      obtain ⟨rfl, h2⟩ := (exp_noStar hb).1 h
      exact ⟨k, ks, hk, hm, rfl, by rw [pget, hc]; exact h2⟩
  · rintro ⟨k, ks, hk, hm, rfl, h⟩
    rw [pget] at h
    cases hc : getItem o k with
    | error e => rw [hc] at h; cases h
    | ok c =>
      rw [hc] at h
      exact .star hk hm hc ((exp_noStar hb).2 ⟨rfl, h⟩)

/-- the expansion of a path with one wildcard -/
theorem gen_one {f : Nat} {a b : Path} (ha : star ∉ a) (hb : star ∉ b) {o cur : Obj} (hc : pget a o = .ok cur)
    (hk : PlainKeys cur) {ps : List Path} (h : genPaths (f+2) (a ++ star :: b) o [] = .ok ps) :
    match iterKeys cur with
    | none => ps = []
    | some ks => ∃ xs : List PEl, ks = xs.map PEl.key ∧ ps = xs.map fun x => a ++ x :: b := by
  rw [genPaths, noStar_take ha] at h
  simp only [List.take_left, hc] at h
  cases hi : iterKeys cur with
  | none => rw [hi] at h; cases h; rfl
  | some ks =>
    rw [hi] at h
    dsimp only at h ⊢
    obtain ⟨xs, h1, h2⟩ := plain_els hk hi
    have hd : (a ++ star :: b).drop (a.length + 1) = b := by rw [← List.drop_drop]; simp
    rw [hd, genLoop_last hb h1 h2] at h
    exact ⟨xs, h1, (Except.ok.inj h).symm⟩

/-- C47, partial: a path with one wildcard is expanded so that the paths that exist among the results are exactly the
paths in the dictionary that match.  Missing: paths that don't exist among the results (`C47_fails`), more than one
wildcard (`C47_two_fails`), lists too short (`C47_index_fails`), keys that are no path elements. -/
theorem C47_one_partial (a b : Path) (o : Obj) (ps : List Path) (ha : star ∉ a) (hb : star ∉ b)
    (hk : ∀ cur, pget a o = .ok cur → PlainKeys cur) (h : expand (a ++ star :: b) o = .ok ps) (q : Path) :
    Exp (a ++ star :: b) o q ↔ q ∈ ps ∧ (pget q o).toBool = true := by
  have hst : stars (a ++ star :: b) = 1 := by
    simp [stars, List.count_append, List.count_eq_zero_of_not_mem ha, List.count_eq_zero_of_not_mem hb]
  unfold expand at h
  rw [hst] at h
  rw [exp_append ha]
  cases hc : pget a o with
  | error e =>
    constructor
    · rintro ⟨c, r, h1, _⟩; cases h1
    · rintro ⟨hq, he⟩
      rw [genPaths, noStar_take ha] at h
      simp only [List.take_left, hc] at h
      split at h
      · cases h
      · cases h; cases hq
      · rename_i heq; cases heq
  | ok cur =>
    have hg := gen_one (f := 0) ha hb hc (hk cur hc) h
    have hget : ∀ r, pget (a ++ r) o = pget r cur := fun r => C46_nested_get a r o cur hc
    cases hi : iterKeys cur with
    | none =>
      rw [hi] at hg
      simp only at hg
      subst hg
      simp only [List.not_mem_nil, false_and, iff_false]
      rintro ⟨c, r, h1, h2, _⟩
      cases h1
      obtain ⟨k, ks, h3, _⟩ := (exp_star hb).1 h2
      rw [hi] at h3; cases h3
    | some ks =>
      rw [hi] at hg
      obtain ⟨xs, h1, h2⟩ := hg
      subst h2
      constructor
      · rintro ⟨c, r, hcc, he, rfl⟩
        cases hcc
        obtain ⟨k, ks', g1, g2, rfl, g4⟩ := (exp_star hb).1 he
        rw [hi] at g1; cases g1
        rw [h1] at g2
        obtain ⟨x, hx, hxk⟩ := List.mem_map.1 g2
        have := PEl.key_inj.1 hxk
        subst this
        exact ⟨List.mem_map.2 ⟨x, hx, rfl⟩, by rw [hget]; exact g4⟩
      · rintro ⟨hq, he⟩
        obtain ⟨x, hx, rfl⟩ := List.mem_map.1 hq
        refine ⟨cur, x :: b, rfl, (exp_star hb).2 ⟨x, ks, hi, ?_, rfl, by rw [hget] at he; exact he⟩, rfl⟩
        rw [h1]; exact List.mem_map.2 ⟨x, hx, rfl⟩

/-- **C47 fails**: paths that don't exist are generated -/
theorem C47_fails :
    let o : Obj := .dic [(.str ['a'], .dic [(.int 1, .dic [(.str ['b'], .none)]), (.int 2, .dic [])])]
    (expand [.name ['a'], star, .name ['b']] o).toOption =
      some [[.name ['a'], .idx 1, .name ['b']], [.name ['a'], .idx 2, .name ['b']]] ∧
    (pget [.name ['a'], .idx 2, .name ['b']] o).toBool = false := by decide +kernel

/-- **C47 fails** with two wildcards after the first element: from the second key on, the leading part is repeated -/
theorem C47_two_fails :
    let o : Obj := .dic [(.str ['a'], .dic [(.int 1, .dic [(.int 1, .none), (.int 2, .none)])])]
    (expand [.name ['a'], star, star] o).toOption =
      some [[.name ['a'], .idx 1, .idx 1], [.name ['a'], .name ['a'], .idx 1, .idx 2]] ∧
    (pget [.name ['a'], .idx 1, .idx 2] o).toBool = true := by decide +kernel

/-- **C47 fails** for lists: an index out of range before a wildcard ends with an IndexError, a missing key doesn't -/
theorem C47_index_fails :
    let o : Obj := .dic [(.str ['a'], .lst [])]
    (match expand [.name ['a'], .idx 3, star] o with | .error .indexError => true | _ => false) = true ∧
    (expand [.name ['b'], .idx 3, star] o).toOption = some [] := by decide +kernel

/-! ## C48 -/

/-- an expression without wildcards -/
inductive Spec.GTerm where
  | num (q : ℚ)
  | path (p : Path)

inductive Spec.Ground where
  | or (a b : Ground)
  | and (a b : Ground)
  | not (a : Ground)
  | rel (r : MRel) (x y : GTerm)
  | pre (p : Path) (e : Ground)
  | missing
  | has (p : Path)

/-- number at a path, if there is one -/
def Spec.GTerm.val (o : Obj) : GTerm → Option ℚ
  | .num q => some q
  | .path p => match pget p o with
    | .ok v => objNum v
    | .error _ => none

/-- the mathematical relation a symbol stands for -/
def Spec.relMeans : MRel → ℚ → ℚ → Prop
  | .eq, a, b => a = b
  | .lt, a, b => a < b
  | .gt, a, b => b < a
  | .le, a, b => a ≤ b
  | .ge, a, b => b ≤ a
  | .neq, a, b => a ≠ b

theorem rel_fn_iff (r : MRel) (a b : ℚ) : r.fn a b = true ↔ relMeans r a b := by
  cases r <;> simp [MRel.fn, relMeans]

/-- Boolean semantics -/
def Spec.Ground.True : Ground → Obj → Prop
  | .or a b, o => a.True o ∨ b.True o
  | .and a b, o => a.True o ∧ b.True o
  | .not a, o => ¬ a.True o
  | .rel r x y, o => ∃ a b, x.val o = some a ∧ y.val o = some b ∧ relMeans r a b
  | .pre p e, o => ∃ c, pget p o = .ok c ∧ e.True c
  | .missing, _ => False
  | .has p, o => ∃ c, pget p o = .ok c

/-- choice of values for the wildcards of a term -/
inductive Spec.PickT (o : Obj) : MTerm → GTerm → Prop
  | num (q : ℚ) : PickT o (.num q) (.num q)
  | path {p : Path} {ps : List Path} {q : Path} (h : expand p o = .ok ps) (hq : q ∈ ps) : PickT o (.path p) (.path q)

/-- choice of values for the wildcards of an expression -/
inductive Spec.Pick : Obj → MExpr → Ground → Prop
  | or {o a b x y} (ha : Pick o a x) (hb : Pick o b y) : Pick o (.or a b) (.or x y)
  | and {o a b x y} (ha : Pick o a x) (hb : Pick o b y) : Pick o (.and a b) (.and x y)
  | not {o a x} (ha : Pick o a x) : Pick o (.not a) (.not x)
  | rel {o r a b x y} (ha : PickT o a x) (hb : PickT o b y) : Pick o (.rel r a b) (.rel r x y)
  | pre {o p ps q c e x} (h : expand p o = .ok ps) (hq : q ∈ ps) (hc : pget q o = .ok c) (he : Pick c e x) :
      Pick o (.pre p e) (.pre q x)
  | pre0 {o p ps q er e} (h : expand p o = .ok ps) (hq : q ∈ ps) (hc : pget q o = .error er) : Pick o (.pre p e) .missing
  | has {o p ps q} (h : expand p o = .ok ps) (hq : q ∈ ps) : Pick o (.has p) (.has q)

theorem evalTerm_pick {o : Obj} {t : MTerm} {xs : List (Option ℚ)} (h : evalTerm o t = .ok xs) (x : Option ℚ) :
    x ∈ xs ↔ ∃ g, PickT o t g ∧ g.val o = x := by
  cases t with
  | num q =>
    cases h
    constructor
    · intro hx; rw [List.mem_singleton] at hx; subst hx; exact ⟨.num q, .num q, rfl⟩
    · rintro ⟨g, ⟨⟩, rfl⟩; simp [GTerm.val]
  | path p =>
    simp only [evalTerm, bind_ok, pure_ok] at h
    obtain ⟨ps, h1, rfl⟩ := h
    constructor
    · intro hx
      obtain ⟨q, hq, rfl⟩ := List.mem_map.1 hx
      exact ⟨.path q, .path h1 hq, rfl⟩
    · rintro ⟨g, hg, rfl⟩
      cases hg with
      | @path _ ps' q h2 hq =>
        rw [h1] at h2; cases h2
        exact List.mem_map.2 ⟨q, hq, rfl⟩

theorem evalPre_mem {ev : Obj → Res (List (Option Bool))} {o : Obj} {qs : List Path} {rs : List (Option Bool)}
    (h : evalPre ev o qs = .ok rs) (v : Option Bool) :
    v ∈ rs ↔ ∃ q ∈ qs, (∃ e, pget q o = .error e ∧ v = none) ∨ ∃ c xs, pget q o = .ok c ∧ ev c = .ok xs ∧ v ∈ xs := by
  induction qs generalizing rs with
  | nil => cases h; simp
  | cons q qs ih =>
    simp only [evalPre, bind_ok, pure_ok] at h
    obtain ⟨a, h1, b, h2, rfl⟩ := h
    rw [List.mem_append, ih h2]
    simp only [List.mem_cons, exists_eq_or_imp]
    refine or_congr_left ?_
    cases hq : pget q o with
    | error e =>
      rw [evalPreOne, hq] at h1
      cases h1
      simp
    | ok c =>
      rw [evalPreOne, hq] at h1
      constructor
      · intro hv; exact .inr ⟨c, a, rfl, h1, hv⟩
      · rintro (⟨e, he, _⟩ | ⟨c', xs, hc, hx, hv⟩)
        · cases he
        · cases hc
          have h1' : ev c = .ok a := h1
          rw [h1'] at hx; cases hx; exact hv

theorem truthy_or (a b : Option Bool) : truthy (pyOr a b) = (truthy a || truthy b) := by
  unfold pyOr; cases h : truthy a <;> simp [h]

theorem truthy_and (a b : Option Bool) : truthy (pyAnd a b) = (truthy a && truthy b) := by
  unfold pyAnd; cases h : truthy a <;> simp [h]

/-- evaluation of nested expressions below a prefix doesn't raise, if evaluation succeeds -/
theorem evalPre_sub {ev : Obj → Res (List (Option Bool))} {o : Obj} {qs : List Path} {rs : List (Option Bool)}
    (h : evalPre ev o qs = .ok rs) {q : Path} (hq : q ∈ qs) {c : Obj} (hc : pget q o = .ok c) : ∃ xs, ev c = .ok xs := by
  induction qs generalizing rs with
  | nil => cases hq
  | cons q' qs ih =>
    simp only [evalPre, bind_ok, pure_ok] at h
    obtain ⟨a, h1, b, h2, rfl⟩ := h
    rcases List.mem_cons.1 hq with rfl | hq
    · rw [evalPreOne, hc] at h1; exact ⟨a, h1⟩
    · exact ih h2 hq

theorem evalM_pick (e : MExpr) (o : Obj) (rs : List (Option Bool)) (h : evalM e o = .ok rs) (b : Bool) :
    (∃ v ∈ rs, truthy v = b) ↔ ∃ g, Pick o e g ∧ (b = true ↔ g.True o) := by
  have tf : ∀ {b : Bool} {P : Prop}, (b = true ↔ P) → (P ↔ b = true) := fun h => h.symm
  induction e generalizing o rs b with
  | or a c iha ihc =>
    simp only [evalM, bind_ok, pure_ok] at h
    obtain ⟨xs, h1, ys, h2, rfl⟩ := h
    constructor
    · rintro ⟨v, hv, rfl⟩
      simp only [List.mem_flatMap, List.mem_map] at hv
      obtain ⟨x, hx, y, hy, rfl⟩ := hv
      obtain ⟨g1, p1, t1⟩ := (iha o xs h1 _).1 ⟨x, hx, rfl⟩
      obtain ⟨g2, p2, t2⟩ := (ihc o ys h2 _).1 ⟨y, hy, rfl⟩
      exact ⟨.or g1 g2, .or p1 p2, by rw [truthy_or, Bool.or_eq_true, t1, t2]; rfl⟩
    · rintro ⟨g, hg, ht⟩
      cases hg with
      | @or _ _ _ g1 g2 p1 p2 =>
        classical
        obtain ⟨x, hx, e1⟩ := (iha o xs h1 (decide (g1.True o))).2 ⟨g1, p1, by simp⟩
        obtain ⟨y, hy, e2⟩ := (ihc o ys h2 (decide (g2.True o))).2 ⟨g2, p2, by simp⟩
        refine ⟨pyOr x y, ?_, ?_⟩
        · simp only [List.mem_flatMap, List.mem_map]; exact ⟨x, hx, y, hy, rfl⟩
        · rw [truthy_or, e1, e2, Bool.eq_iff_iff, ht]; simp [Ground.True]
  | and a c iha ihc =>
    simp only [evalM, bind_ok, pure_ok] at h
    obtain ⟨xs, h1, ys, h2, rfl⟩ := h
    constructor
    · rintro ⟨v, hv, rfl⟩
      simp only [List.mem_flatMap, List.mem_map] at hv
      obtain ⟨x, hx, y, hy, rfl⟩ := hv
      obtain ⟨g1, p1, t1⟩ := (iha o xs h1 _).1 ⟨x, hx, rfl⟩
      obtain ⟨g2, p2, t2⟩ := (ihc o ys h2 _).1 ⟨y, hy, rfl⟩
      exact ⟨.and g1 g2, .and p1 p2, by rw [truthy_and, Bool.and_eq_true, t1, t2]; rfl⟩
    · rintro ⟨g, hg, ht⟩
      cases hg with
      | @and _ _ _ g1 g2 p1 p2 =>
        classical
        obtain ⟨x, hx, e1⟩ := (iha o xs h1 (decide (g1.True o))).2 ⟨g1, p1, by simp⟩
        obtain ⟨y, hy, e2⟩ := (ihc o ys h2 (decide (g2.True o))).2 ⟨g2, p2, by simp⟩
        refine ⟨pyAnd x y, ?_, ?_⟩
        · simp only [List.mem_flatMap, List.mem_map]; exact ⟨x, hx, y, hy, rfl⟩
        · rw [truthy_and, e1, e2, Bool.eq_iff_iff, ht]; simp [Ground.True]
  | not a iha =>
    simp only [evalM, bind_ok, pure_ok] at h
    obtain ⟨xs, h1, rfl⟩ := h
    constructor
    · rintro ⟨v, hv, rfl⟩
      obtain ⟨x, hx, rfl⟩ := List.mem_map.1 hv
      obtain ⟨g1, p1, t1⟩ := (iha o xs h1 _).1 ⟨x, hx, rfl⟩
      refine ⟨.not g1, .not p1, ?_⟩
      show truthy (some !truthy x) = true ↔ ¬ g1.True o
      rw [← t1]
      simp [truthy]
    · rintro ⟨g, hg, ht⟩
      cases hg with
      | @not _ _ g1 p1 =>
        classical
        obtain ⟨x, hx, e1⟩ := (iha o xs h1 (decide (g1.True o))).2 ⟨g1, p1, by simp⟩
        refine ⟨some !truthy x, List.mem_map.2 ⟨x, hx, rfl⟩, ?_⟩
        rw [Bool.eq_iff_iff, ht, e1]
        simp [truthy, Ground.True]
  | rel r x y =>
    simp only [evalM, bind_ok, pure_ok] at h
    obtain ⟨xs, h1, ys, h2, rfl⟩ := h
    have rob : ∀ (g1 g2 : GTerm), truthy (some (robust r (g1.val o) (g2.val o))) = true ↔ (Ground.rel r g1 g2).True o := by
      intro g1 g2
      simp only [truthy, Option.getD_some, Ground.True]
      cases g1.val o <;> cases g2.val o <;> simp [robust, rel_fn_iff]
    constructor
    · rintro ⟨v, hv, rfl⟩
      simp only [List.mem_flatMap, List.mem_map] at hv
      obtain ⟨a, ha, c, hc, rfl⟩ := hv
      obtain ⟨g1, p1, rfl⟩ := (evalTerm_pick h1 a).1 ha
      obtain ⟨g2, p2, rfl⟩ := (evalTerm_pick h2 c).1 hc
      exact ⟨.rel r g1 g2, .rel p1 p2, rob g1 g2⟩
    · rintro ⟨g, hg, ht⟩
      cases hg with
      | @rel _ _ _ _ g1 g2 p1 p2 =>
        refine ⟨some (robust r (g1.val o) (g2.val o)), ?_, ?_⟩
        · simp only [List.mem_flatMap, List.mem_map]
          exact ⟨_, (evalTerm_pick h1 _).2 ⟨g1, p1, rfl⟩, _, (evalTerm_pick h2 _).2 ⟨g2, p2, rfl⟩, rfl⟩
        · rw [Bool.eq_iff_iff, ht, rob]
  | pre p e ih =>
    simp only [evalM, bind_ok] at h
    obtain ⟨ps, h1, h2⟩ := h
    constructor
    · rintro ⟨v, hv, rfl⟩
      obtain ⟨q, hq, hcase⟩ := (evalPre_mem h2 v).1 hv
      rcases hcase with ⟨er, he, rfl⟩ | ⟨c, xs, hc, hx, hvx⟩
      · exact ⟨.missing, .pre0 h1 hq he, by simp [truthy, Ground.True]⟩
      · obtain ⟨g, pg, tg⟩ := (ih c xs hx _).1 ⟨v, hvx, rfl⟩
        refine ⟨.pre q g, .pre h1 hq hc pg, ?_⟩
        rw [tg]
        simp [Ground.True, hc]
    · rintro ⟨g, hg, ht⟩
      cases hg with
      | @pre _ _ ps' q c _ g' h3 hq hc hp =>
        rw [h1] at h3; cases h3
        obtain ⟨xs, hx⟩ := evalPre_sub h2 hq hc
        obtain ⟨v, hv, tv⟩ := (ih c xs hx b).2 ⟨g', hp, by rw [ht]; simp [Ground.True, hc]⟩
        exact ⟨v, (evalPre_mem h2 v).2 ⟨q, hq, .inr ⟨c, xs, hc, hx, hv⟩⟩, tv⟩
      | @pre0 _ _ ps' q er _ h3 hq hc =>
        rw [h1] at h3; cases h3
        refine ⟨none, (evalPre_mem h2 none).2 ⟨q, hq, .inl ⟨er, hc, rfl⟩⟩, ?_⟩
        rw [Bool.eq_iff_iff, ht]; simp [truthy, Ground.True]
  | has p =>
    simp only [evalM, bind_ok, pure_ok] at h
    obtain ⟨ps, h1, rfl⟩ := h
    have hb : ∀ q, truthy (some (pget q o).toBool) = true ↔ (Ground.has q).True o := by
      intro q
      simp only [truthy, Option.getD_some, Ground.True]
      cases pget q o <;> simp [Except.toBool]
    constructor
    · rintro ⟨v, hv, rfl⟩
      obtain ⟨q, hq, rfl⟩ := List.mem_map.1 hv
      exact ⟨.has q, .has h1 hq, hb q⟩
    · rintro ⟨g, hg, ht⟩
      cases hg with
      | @has _ _ ps' q h3 hq =>
        rw [h1] at h3; cases h3
        exact ⟨_, List.mem_map.2 ⟨q, hq, rfl⟩, by rw [Bool.eq_iff_iff, ht, hb]⟩

/-- C48: a match expression that can be evaluated is true iff it is true for some choice of the wildcard values -/
theorem C48_choice (e : MExpr) (o : Obj) (r : Bool) (h : evalMatch e o = .ok r) :
    r = true ↔ ∃ g, Pick o e g ∧ g.True o := by
  simp only [evalMatch, bind_ok, pure_ok] at h
  obtain ⟨rs, h1, rfl⟩ := h
  have := evalM_pick e o rs h1 true
  simp only [true_iff] at this
  rw [← this, List.any_eq_true]

/-- C48, partial: if `A` is true and the wildcards of `B` have values (so `B` has results), then `A|B` is true.
Missing: the case without values, see `C48_or_fails`. -/
theorem C48_or_partial (a b : MExpr) (o : Obj) (ys : List (Option Bool)) (ha : evalMatch a o = .ok true)
    (hb : evalM b o = .ok ys) (hy : ys ≠ []) : evalMatch (.or a b) o = .ok true := by
  simp only [evalMatch, bind_ok, pure_ok] at ha ⊢
  obtain ⟨xs, h1, h2⟩ := ha
  rw [List.any_eq_true] at h2
  obtain ⟨x, hx, tx⟩ := h2
  obtain ⟨y, hy⟩ := List.exists_mem_of_ne_nil _ hy
  refine ⟨xs.flatMap fun x => ys.map fun y => pyOr x y, by simp [evalM, h1, hb, bind, Except.bind, pure, Except.pure], ?_⟩
  rw [List.any_eq_true]
  refine ⟨pyOr x y, ?_, by rw [truthy_or, tx]; rfl⟩
  simp only [List.mem_flatMap, List.mem_map]
  exact ⟨x, hx, y, hy, rfl⟩

/-- **C48 fails**: `exists(/a) | exists(/b/*)` is false although `exists(/a)` is true -/
theorem C48_or_fails :
    let o : Obj := .dic [(.str ['a'], .none)]
    let a : MExpr := .has [.name ['a']]
    let b : MExpr := .has [.name ['b'], star]
    (evalMatch a o).toOption = some true ∧ (evalMatch (.or a b) o).toOption = some false := by decide +kernel

/-- C48: `/*/(/x > 1) & !(/1/x == 0)` -/
example :
    let o : Obj := .dic [(.int 1, .dic [(.str ['x'], .num (.int 1))]), (.int 2, .dic [(.str ['x'], .num (.int 2))])]
    (evalMatch (.and (.pre [star] (.rel .gt (.path [.name ['x']]) (.num 1))) (.not (.rel .eq (.path [.idx 1, .name ['x']]) (.num 0)))) o).toOption
      = some true := by decide +kernel

end Verif
