import Verif.Lemmas.Replay
import Verif.Lemmas.RereadRec
import Verif.Lemmas.Plain
/-
Records of the same kind, read anywhere: at the same place stand numbers of the same type.
-/
namespace Verif
open Spec

/-- integer or decimal number, alone or in a list -/
inductive Shape where
  | int | flt | ints | flts

def Shape.Has : Shape → Val → Prop
  | .int, .num (.int _) => True
  | .flt, .num (.num (.flt _)) => True
  | .ints, .lst l => ∀ x ∈ l, ∃ n, x = .int n
  | .flts, .lst l => ∀ x ∈ l, ∃ v, x = .num (.flt v)
  | _, _ => False

theorem Shape.Has.alike {t : Shape} {u v : Val} (hu : t.Has u) (hv : t.Has v) : AlikeVal u v := by
  cases t with
  | int =>
    rcases u with ((n | x) | _ | _ | _ | _ | _ | _) <;> simp only [Shape.Has] at hu
    rcases v with ((m | y) | _ | _ | _ | _ | _ | _) <;> simp only [Shape.Has] at hv
    intro h
    simp only [PyNum.val, Int.cast_inj] at h
    rw [h]
  | flt =>
    rcases u with ((n | (x | _)) | _ | _ | _ | _ | _ | _) <;> simp only [Shape.Has] at hu
    rcases v with ((m | (y | _)) | _ | _ | _ | _ | _ | _) <;> simp only [Shape.Has] at hv
    intro h
    simp only [PyNum.val, Num.val] at h
    rw [h]
  | ints =>
    cases u <;> simp only [Shape.Has] at hu
    cases v <;> simp only [Shape.Has] at hv
    intro x hx y hy h
    obtain ⟨n, rfl⟩ := hu x hx
    obtain ⟨m, rfl⟩ := hv y hy
    simp only [PyNum.val, Int.cast_inj] at h
    rw [h]
  | flts =>
    cases u <;> simp only [Shape.Has] at hu
    cases v <;> simp only [Shape.Has] at hv
    intro x hx y hy h
    obtain ⟨n, rfl⟩ := hu x hx
    obtain ⟨m, rfl⟩ := hv y hy
    simp only [PyNum.val, Num.val] at h
    rw [h]

def RKind.shapes : RKind → List Shape × List Shape
  | .text | .send => ([], [])
  | .head | .cont => ([.flt, .flt, .int, .int, .int, .int], [])
  | .dir => ([.int, .int, .int, .int], [])
  | .intg _ => ([.int, .int, .ints], [])
  | .tab1 => ([.flt, .flt, .int, .int], [.ints, .ints, .flts, .flts])
  | .tab2 => ([.flt, .flt, .int, .int, .int], [.ints, .ints])
  | .list => ([.flt, .flt, .int, .int, .int, .int], [.flts])

theorem ints_shape (l : List Int) : Shape.ints.Has (intsVal l) := by
  intro x hx
  obtain ⟨n, _, rfl⟩ := List.mem_map.1 hx
  exact ⟨n, rfl⟩

theorem plain_is_flt {x : Num} (h : (PyNum.num x).plain = true) : ∃ v, x = .flt v := by
  cases x with
  | flt v => exact ⟨v, rfl⟩
  | endf v t => cases h

theorem nums_shape {l : List Num} (h : ∀ x ∈ l, (PyNum.num x).plain = true) : Shape.flts.Has (numsVal l) := by
  intro x hx
  obtain ⟨n, hn, rfl⟩ := List.mem_map.1 hx
  obtain ⟨v, rfl⟩ := plain_is_flt (h n hn)
  exact ⟨v, rfl⟩

theorem cont_shape {o : ROpts} (hp : o.preserve = false) {lines : List Str} {ofs : Nat} {r : ContRec} {ofs' : Nat}
    (h : readCont o lines ofs = .ok (r, ofs')) : ∃ a b i j m n, r.vals = [.num (.num (.flt a)), .num (.num (.flt b)), .num (.int i), .num (.int j),
      .num (.int m), .num (.int n)] := by
  have hq := readCont_plain hp h
  unfold readCont at h
  simp only [bind_ok, pure_ok] at h
  obtain ⟨_, _, c1, h1, c2, h2, l1, _, l2, _, n1, _, n2, _, _, _, h⟩ := h
  cases h
  obtain ⟨a, ha⟩ := plain_is_flt hq.c1
  obtain ⟨b, hb⟩ := plain_is_flt hq.c2
  dsimp only at ha hb
  subst ha hb
  exact ⟨a, b, l1, l2, n1, n2, rfl⟩

theorem readKind_shape {o : ROpts} (hp : o.preserve = false) {lines : List Str} {ofs : Nat} {k : RKind} (hk : k ≠ .text) {q : ARec} {ofs' : Nat}
    (h : readKind o lines ofs k = .ok (q, ofs')) :
    List.Forall₂ Shape.Has k.shapes.1 q.flds ∧ List.Forall₂ Shape.Has k.shapes.2 q.tbl := by
  unfold readKind at h
  cases k with
  | text => exact absurd rfl hk
  | head =>
    simp only [bind_ok, pure_ok] at h
    obtain ⟨⟨r, _⟩, h1, h⟩ := h; cases h
    obtain ⟨a, b, i, j, m, n, e⟩ := cont_shape hp h1
    dsimp only
    rw [e]
    exact ⟨by simp [RKind.shapes, Shape.Has], .nil⟩
  | cont =>
    simp only [bind_ok, pure_ok] at h
    obtain ⟨⟨r, _⟩, h1, h⟩ := h; cases h
    obtain ⟨a, b, i, j, m, n, e⟩ := cont_shape hp h1
    dsimp only
    rw [e]
    exact ⟨by simp [RKind.shapes, Shape.Has], .nil⟩
  | dir =>
    simp only [bind_ok, pure_ok] at h
    obtain ⟨⟨r, _⟩, h1, h⟩ := h; cases h
    exact ⟨by simp [RKind.shapes, Shape.Has], .nil⟩
  | intg n =>
    simp only [bind_ok, pure_ok] at h
    obtain ⟨⟨r, _⟩, h1, h⟩ := h; cases h
    exact ⟨.cons trivial (.cons trivial (.cons (ints_shape _) .nil)), .nil⟩
  | tab1 =>
    simp only [bind_ok, pure_ok] at h
    obtain ⟨⟨r, _⟩, h1, h⟩ := h; cases h
    unfold readTab1 at h1
    simp only [bind_ok, pure_ok] at h1
    obtain ⟨⟨hd, _⟩, g1, ⟨v1, _⟩, g2, ⟨v2, _⟩, g3, h1⟩ := h1
    cases h1
    have hn := readNumbers_plain hp g3
    obtain ⟨a, b, i, j, m, n, e⟩ := cont_shape hp g1
    dsimp only
    rw [e]
    exact ⟨by simp [RKind.shapes, Shape.Has], .cons (ints_shape _) (.cons (ints_shape _) (.cons (nums_shape fun x hx => hn x (evens_mem hx))
      (.cons (nums_shape fun x hx => hn x (odds_mem hx)) .nil)))⟩
  | tab2 =>
    simp only [bind_ok, pure_ok] at h
    obtain ⟨⟨r, _⟩, h1, h⟩ := h; cases h
    unfold readTab2 at h1
    simp only [bind_ok, pure_ok] at h1
    obtain ⟨⟨hd, _⟩, g1, ⟨v1, _⟩, g2, h1⟩ := h1
    cases h1
    obtain ⟨a, b, i, j, m, n, e⟩ := cont_shape hp g1
    dsimp only
    rw [e]
    exact ⟨by simp [RKind.shapes, Shape.Has], .cons (ints_shape _) (.cons (ints_shape _) .nil)⟩
  | list =>
    simp only [bind_ok, pure_ok] at h
    obtain ⟨⟨r, _⟩, h1, h⟩ := h; cases h
    unfold readList at h1
    simp only [bind_ok] at h1
    obtain ⟨⟨hd, _⟩, g1, h1⟩ := h1
    obtain ⟨a, b, i, j, m, n, e⟩ := cont_shape hp g1
    split at h1
    · cases h1
      dsimp only
      rw [e]
      exact ⟨by simp [RKind.shapes, Shape.Has], .cons (by intro x hx; cases hx) .nil⟩
    · simp only [bind_ok, pure_ok] at h1
      obtain ⟨⟨v1, _⟩, g2, h1⟩ := h1
      cases h1
      dsimp only
      rw [e]
      exact ⟨by simp [RKind.shapes, Shape.Has], .cons (nums_shape (readNumbers_plain hp g2)) .nil⟩
  | send =>
    simp only [bind_ok, pure_ok] at h
    obtain ⟨⟨r, _⟩, h1, h⟩ := h; cases h
    exact ⟨.nil, .nil⟩

theorem forall₂_alike {ts : List Shape} {us vs : List Val} (hu : List.Forall₂ Shape.Has ts us) (hv : List.Forall₂ Shape.Has ts vs) :
    List.Forall₂ AlikeVal us vs := by
  induction hu generalizing vs with
  | nil => cases hv; exact .nil
  | cons h _ ih =>
    cases hv with
    | cons h2 t => exact .cons (h.alike h2) (ih t)

/-- two records of the same kind, read from any lines -/
theorem readKind_alike {o : ROpts} (hp : o.preserve = false) {lines lines2 : List Str} {m m' n n' : Nat} {k : RKind} (hk : k ≠ .text) {q q2 : ARec}
    (h : readKind o lines m k = .ok (q, m')) (h2 : readKind o lines2 n k = .ok (q2, n')) :
    List.Forall₂ AlikeVal q.flds q2.flds ∧ List.Forall₂ AlikeVal q.tbl q2.tbl :=
  ⟨forall₂_alike (readKind_shape hp hk h).1 (readKind_shape hp hk h2).1,
    forall₂_alike (readKind_shape hp hk h).2 (readKind_shape hp hk h2).2⟩

end Verif
