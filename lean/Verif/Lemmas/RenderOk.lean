import Verif.Lemmas.RereadRec
/-
Records that have been read can be written.
-/
namespace Verif
open Spec

/-- an `int`, or a list of them -/
def IntsVal : Val → Prop
  | .num (.int _) => True
  | .lst l => ∀ x ∈ l, ∃ n, x = .int n
  | _ => False

/-- fields that are written with `str()` are integers: those of DIR and INTG records, and the ranges of tables; and N1 of a LIST
record, which is used as argument of `range` -/
structure IntsRec (q : ARec) : Prop where
  dir : q.kind = .dir → ∀ v ∈ q.flds, IntsVal v
  intg : ∀ n, q.kind = .intg n → ∀ v ∈ q.flds, IntsVal v
  tab : q.kind = .tab1 ∨ q.kind = .tab2 → ∀ v ∈ q.tbl.take 2, IntsVal v
  list : q.kind = .list → ∀ v, q.flds[4]? = some v → IntsVal v

/-- tables are not empty (empty ones cannot be written), and no number of list elements is negative -/
structure FullRec (q : ARec) : Prop where
  tab : q.kind = .tab1 ∨ q.kind = .tab2 → ∀ v ∈ q.tbl, v ≠ .lst []
  list : q.kind = .list → ∀ n, q.flds[4]? = some (.num (.int n)) → 0 ≤ n

theorem toNum_run {x : PyNum} {v : Val} (h : SameVal (.num x) v) : ∃ y, v.toNum = .ok y := by
  cases v with
  | num z => cases z <;> exact ⟨_, rfl⟩
  | _ => cases h

theorem toSlot_run {x : PyNum} {v : Val} (h : SameVal (.num x) v) : ∃ y, v.toSlot = .ok y := by
  cases v with
  | num z => cases z <;> exact ⟨_, rfl⟩
  | _ => cases h

theorem toInt_run {x : PyNum} {v : Val} (h : SameVal (.num x) v) (hi : IntsVal v) : ∃ y, v.toInt = .ok y := by
  cases v with
  | num z =>
    cases z with
    | int n => exact ⟨_, rfl⟩
    | num z => cases hi
  | _ => cases h

theorem toNums_run {l : List PyNum} {v : Val} (h : SameVal (.lst l) v) : ∃ y, v.toNums = .ok y := by
  cases v with
  | lst m =>
    clear h
    induction m with
    | nil => exact ⟨[], rfl⟩
    | cons a m ih =>
      obtain ⟨y, hy⟩ := ih
      have hy' : m.mapM (fun x => (Val.num x).toNum) = .ok y := hy
      obtain ⟨b, hb⟩ : ∃ b, (Val.num a).toNum = .ok b := by cases a <;> exact ⟨_, rfl⟩
      refine ⟨b :: y, ?_⟩
      show (a :: m).mapM (fun x => (Val.num x).toNum) = .ok (b :: y)
      simp only [List.mapM_cons, bind_ok, pure_ok]
      exact ⟨b, hb, y, hy', rfl⟩
  | _ => cases h

theorem toInts_run {l : List PyNum} {v : Val} (h : SameVal (.lst l) v) (hi : IntsVal v) : ∃ y, v.toInts = .ok y := by
  cases v with
  | lst m =>
    have hi' : ∀ x ∈ m, ∃ n, x = .int n := hi
    clear h hi
    induction m with
    | nil => exact ⟨[], rfl⟩
    | cons a m ih =>
      obtain ⟨y, hy⟩ := ih fun x hx => hi' x (by simp [hx])
      have hy' : m.mapM (fun x => (Val.num x).toInt) = .ok y := hy
      obtain ⟨n, rfl⟩ := hi' a (by simp)
      refine ⟨n :: y, ?_⟩
      show (PyNum.int n :: m).mapM (fun x => (Val.num x).toInt) = .ok (n :: y)
      simp only [List.mapM_cons, bind_ok, pure_ok]
      exact ⟨n, rfl, y, hy', rfl⟩
  | _ => cases h

theorem slotInt_run {o : WOpts} (ho : o.strictDatatypes = false) {s : Slot} {n : Int} (h : slotRat s = n) : slotInt o s = .ok n := by
  cases s with
  | int k =>
    have : (k : ℚ) = (n : ℚ) := h
    have : k = n := by exact_mod_cast this
    rw [this]; rfl
  | flt v =>
    have hv : v = (n : ℚ) := h
    subst hv
    unfold slotInt
    dsimp only
    have : truncRat (n : ℚ) = n := truncRat_int n
    rw [this, if_neg]
    simp [ho]

/-- the other direction of `writeCont_int` -/
theorem writeCont_run {o : WOpts} (ho : o.strictDatatypes = false) {h : ContRec} {l1 l2 n1 n2 : Int} (e1 : slotRat h.l1 = l1) (e2 : slotRat h.l2 = l2)
    (e3 : slotRat h.n1 = n1) (e4 : slotRat h.n2 = n2) {ls : List Str}
    (hw : writeCont o ⟨h.c1, h.c2, .int l1, .int l2, .int n1, .int n2, h.ctrl⟩ = .ok ls) : writeCont o h = .ok ls := by
  unfold writeCont at hw ⊢
  simp only [bind_ok, pure_ok] at hw ⊢
  obtain ⟨a1, g1, a2, g2, a3, g3, a4, g4, b1, g5, b2, g6, rfl⟩ := hw
  cases g1; cases g2; cases g3; cases g4
  exact ⟨_, slotInt_run ho e1, _, slotInt_run ho e2, _, slotInt_run ho e3, _, slotInt_run ho e4, b1, g5, b2, g6, rfl⟩

theorem contOf_run {x1 x2 x3 x4 x5 x6 : PyNum} {vs : List Val} (k : Ctrl)
    (hs : List.Forall₂ SameVal [.num x1, .num x2, .num x3, .num x4, .num x5, .num x6] vs) : ∃ h, contOf vs k = .ok h := by
  cases hs with
  | cons a1 hs => cases hs with
  | cons a2 hs => cases hs with
  | cons a3 hs => cases hs with
  | cons a4 hs => cases hs with
  | cons a5 hs => cases hs with
  | cons a6 hs =>
    cases hs
    obtain ⟨b1, g1⟩ := toNum_run a1
    obtain ⟨b2, g2⟩ := toNum_run a2
    obtain ⟨b3, g3⟩ := toSlot_run a3
    obtain ⟨b4, g4⟩ := toSlot_run a4
    obtain ⟨b5, g5⟩ := toSlot_run a5
    obtain ⟨b6, g6⟩ := toSlot_run a6
    refine ⟨⟨b1, b2, b3, b4, b5, b6, k⟩, ?_⟩
    simp only [contOf, bind_ok, pure_ok]
    exact ⟨b1, g1, b2, g2, b3, g3, b4, g4, b5, g5, b6, g6, rfl⟩

/-- a record that has been read, with equal numbers of other types: it can be written -/
theorem renderRec_run {o : WOpts} {ro : ROpts} {zab : Bool} (hw : 11 ≤ o.width) (hr : ro.width = o.width) (ho : o.strictDatatypes = false)
    {lines : List Str} {ofs ofs' : Nat} {k : RKind} {q q' : ARec} (hq : readKind ro lines ofs k = .ok (q, ofs')) (hk : Stays o ro q)
    (hs : SameRec q q') (hp : PlainRec q') (hi : IntsRec q') (hf : FullRec q) : ∃ ls, renderRec o zab q' = .ok ls := by
  have hw1 : 1 ≤ ro.width := by omega
  obtain ⟨s1, s2, s3, s4⟩ := hs
  obtain ⟨k', fl', tb', ct'⟩ := q'
  dsimp only at s1 s2 s3 s4
  have hpf : ∀ v ∈ fl', PlainV v := hp.flds
  have hpt : ∀ v ∈ tb', PlainV v := hp.tbl
  clear hp
  subst s2
  cases k with
  | text =>
    simp only [readKind, bind_ok, pure_ok] at hq
    obtain ⟨⟨r, o1⟩, h1, hq⟩ := hq
    cases hq
    dsimp only at s1 s3 s4 ⊢
    subst s1
    cases s3 with
    | cons a b =>
      cases b
      rename_i v
      cases v <;> try (cases a; done)
      exact ⟨_, rfl⟩
  | head =>
    simp only [readKind, bind_ok, pure_ok] at hq
    obtain ⟨⟨r, o1⟩, h1, hq⟩ := hq
    cases hq
    dsimp only at s1 s3 s4 ⊢
    subst s1
    obtain ⟨l1, l2, n1, n2, cr⟩ := readCont_fits hw1 h1
    obtain ⟨c1, c2, _, _, _, _, ct⟩ := r
    obtain ⟨rfl, rfl, rfl, rfl, f1, f2, f3, f4, fc⟩ := cr
    obtain ⟨hd, h2⟩ := contOf_run ct s3
    obtain ⟨e1, e2, e3, e4, e5, e6, e7⟩ := contOf_same s3 hpf h2
    rw [hr] at f1 f2 f3 f4
    obtain ⟨line, g1, g2, g3⟩ := C12_cont_fields o ro hr _ _ c1 c2 (hk.flds (.num (.num c1)) (by simp [ContRec.vals]))
      (hk.flds (.num (.num c2)) (by simp [ContRec.vals])) l1 l2 n1 n2 f1 f2 f3 f4 ct fc
    have h4 := writeCont_run ho e3 e4 e5 e6 (by rw [e1, e2, e7]; exact g1)
    exact ⟨[line], by simp only [renderRec, bind_ok]; exact ⟨hd, h2, h4⟩⟩
  | cont =>
    simp only [readKind, bind_ok, pure_ok] at hq
    obtain ⟨⟨r, o1⟩, h1, hq⟩ := hq
    cases hq
    dsimp only at s1 s3 s4 ⊢
    subst s1
    obtain ⟨l1, l2, n1, n2, cr⟩ := readCont_fits hw1 h1
    obtain ⟨c1, c2, _, _, _, _, ct⟩ := r
    obtain ⟨rfl, rfl, rfl, rfl, f1, f2, f3, f4, fc⟩ := cr
    obtain ⟨hd, h2⟩ := contOf_run ct s3
    obtain ⟨e1, e2, e3, e4, e5, e6, e7⟩ := contOf_same s3 hpf h2
    rw [hr] at f1 f2 f3 f4
    obtain ⟨line, g1, g2, g3⟩ := C12_cont_fields o ro hr _ _ c1 c2 (hk.flds (.num (.num c1)) (by simp [ContRec.vals]))
      (hk.flds (.num (.num c2)) (by simp [ContRec.vals])) l1 l2 n1 n2 f1 f2 f3 f4 ct fc
    have h4 := writeCont_run ho e3 e4 e5 e6 (by rw [e1, e2, e7]; exact g1)
    exact ⟨[line], by simp only [renderRec, bind_ok]; exact ⟨hd, h2, h4⟩⟩
  | dir =>
    simp only [readKind, bind_ok, pure_ok] at hq
    obtain ⟨⟨r, o1⟩, h1, hq⟩ := hq
    cases hq
    dsimp only at s1 s3 s4 ⊢
    subst s1
    have hd := hi.dir rfl
    dsimp only at hd
    cases s3 with
    | cons a1 s3 => cases s3 with
    | cons a2 s3 => cases s3 with
    | cons a3 s3 => cases s3 with
    | cons a4 s3 =>
      cases s3
      obtain ⟨b1, d1⟩ := toInt_run a1 (hd _ (by simp))
      obtain ⟨b2, d2⟩ := toInt_run a2 (hd _ (by simp))
      obtain ⟨b3, d3⟩ := toInt_run a3 (hd _ (by simp))
      obtain ⟨b4, d4⟩ := toInt_run a4 (hd _ (by simp))
      exact ⟨_, by simp only [renderRec, bind_ok, pure_ok]; exact ⟨b1, d1, b2, d2, b3, d3, b4, d4, rfl⟩⟩
  | intg n =>
    simp only [readKind, bind_ok, pure_ok] at hq
    obtain ⟨⟨r, o1⟩, h1, hq⟩ := hq
    cases hq
    dsimp only at s1 s3 s4 ⊢
    subst s1
    have hd := hi.intg n rfl
    dsimp only at hd
    cases s3 with
    | cons a1 s3 => cases s3 with
    | cons a2 s3 => cases s3 with
    | cons a3 s3 =>
      cases s3
      obtain ⟨b1, d1⟩ := toInt_run a1 (hd _ (by simp))
      obtain ⟨b2, d2⟩ := toInt_run a2 (hd _ (by simp))
      obtain ⟨b3, d3⟩ := toInts_run a3 (hd _ (by simp))
      exact ⟨_, by simp only [renderRec, bind_ok, pure_ok]; exact ⟨b1, d1, b2, d2, b3, d3, rfl⟩⟩
  | tab1 =>
    simp only [readKind, bind_ok, pure_ok] at hq
    obtain ⟨⟨r, o1⟩, h1, hq⟩ := hq
    cases hq
    dsimp only at s1 s3 s4 ⊢
    subst s1
    unfold readTab1 at h1
    simp only [bind_ok, pure_ok] at h1
    obtain ⟨⟨hd, _⟩, g1, ⟨v1, _⟩, g2, ⟨v2, _⟩, g3, h1⟩ := h1
    cases h1
    obtain ⟨l1, l2, n1, n2, cr⟩ := readCont_fits hw1 g1
    obtain ⟨c1, c2, _, _, _, _, ct⟩ := hd
    obtain ⟨rfl, rfl, rfl, rfl, f1, f2, f3, f4, fc⟩ := cr
    obtain ⟨len1, -, -⟩ := CF.readNumbers_get g2
    obtain ⟨len2, -, -⟩ := CF.readNumbers_get g3
    dsimp only [slotVal] at len1 len2
    have hi1 : (toInts v1).length = v1.length := by simp [toInts]
    have ea := evens_length (toInts v1)
    have eb := odds_length (toInts v1)
    have ec := evens_length v2
    have ed := odds_length v2
    dsimp only [ContRec.vals, List.take] at s3
    have hit := hi.tab (.inl rfl)
    have hft := hf.tab (.inl rfl)
    dsimp only at hit hft
    cases s4 with
    | cons t1 s4 => cases s4 with
    | cons t2 s4 => cases s4 with
    | cons t3 s4 => cases s4 with
    | cons t4 s4 =>
      cases s4
      rename_i w1 w2 w3 w4
      obtain ⟨nbt, h3⟩ := toInts_run t1 (hit _ (by simp))
      obtain ⟨int, h4⟩ := toInts_run t2 (hit _ (by simp))
      obtain ⟨xs, h5⟩ := toNums_run t3
      obtain ⟨ys, h6⟩ := toNums_run t4
      obtain rfl := toInts_same t1 h3
      obtain rfl := toInts_same t2 h4
      have e5 := toNums_same t3 (hpt _ (by simp)) h5
      have e6 := toNums_same t4 (hpt _ (by simp)) h6
      have hfull : List.Forall₂ SameVal [.num (.num c1), .num (.num c2), .num (.int l1), .num (.int l2), .num (.int 0), .num (.int 0)]
          (fl' ++ [.num (.int 0), .num (.int 0)]) := by
        refine List.rel_append (R := SameVal) s3 ?_
        exact .cons rfl (.cons rfl .nil)
      obtain ⟨h', h2⟩ := contOf_run ct hfull
      obtain ⟨e1, e2, e3, e4, -, -, e7⟩ := contOf_same (r := ⟨c1, c2, .int 0, .int 0, .int 0, .int 0, ct⟩) hfull (by
        intro v hv
        rcases List.mem_append.1 hv with hv | hv
        · exact hpf v hv
        · simp only [List.mem_cons, List.not_mem_nil, or_false, or_self] at hv
          subst hv
          exact .num rfl) h2
      have hn1 : FitsInt o.width (evens (toInts v1)).length := by
        have : ((evens (toInts v1)).length : Int) = n1 ∨ (evens (toInts v1)).length = 0 := by omega
        rcases this with h | h
        · rw [h, ← hr]; exact f3
        · rw [h]; show 1 ≤ o.width; omega
      have hn2 : FitsInt o.width xs.length := by
        have : xs.length = (evens v2).length := by rw [e5]; simp
        rw [this]
        have : ((evens v2).length : Int) = n2 ∨ (evens v2).length = 0 := by omega
        rcases this with h | h
        · rw [h, ← hr]; exact f4
        · rw [h]; show 1 ≤ o.width; omega
      have hne : evens (toInts v1) ≠ [] ∧ xs ≠ [] := by
        constructor
        · intro e
          exact hft (intsVal (evens (toInts v1))) (by simp) (by rw [e]; rfl)
        · intro e
          have : evens v2 = [] := by
            rw [e] at e5
            exact List.map_eq_nil_iff.1 e5.symm
          exact hft (numsVal (evens v2)) (by simp) (by rw [this]; rfl)
      rw [hr] at f1 f2
      obtain ⟨recs, i1, i2, i3, i4⟩ := C17_partial o ro hr _ _ c1 c2 (hk.flds (.num (.num c1)) (by simp [ContRec.vals]))
        (hk.flds (.num (.num c2)) (by simp [ContRec.vals])) l1 l2 (.int 0) (.int 0) f1 f2 ct fc (evens (toInts v1)) (odds (toInts v1)) hne.1
        (by omega) hn1 (stays_ints (hk.tbl _ (by simp))) (stays_ints (hk.tbl _ (by simp))) xs ys (evens v2) (odds v2) hne.2
        (by rw [e5, e6]; simp only [List.length_map]; omega) hn2 (by rw [e5]; exact stays_nums (hk.tbl _ (by simp)))
        (by rw [e6]; exact stays_nums (hk.tbl _ (by simp)))
      refine ⟨recs, ?_⟩
      simp only [renderRec, bind_ok]
      refine ⟨h', h2, _, h3, _, h4, xs, h5, ys, h6, ?_⟩
      unfold writeTab1 at i1 ⊢
      simp only [bind_ok] at i1 ⊢
      obtain ⟨x, h8, h9⟩ := i1
      rw [← e1, ← e2, ← e7] at h8
      have := writeCont_run ho (h := { h' with n1 := .int (evens (toInts v1)).length, n2 := .int xs.length })
        (n1 := (evens (toInts v1)).length) (n2 := xs.length) e3 e4 (by simp [slotRat]) (by simp [slotRat]) h8
      rw [← e7] at h9
      exact ⟨x, this, h9⟩
  | tab2 =>
    simp only [readKind, bind_ok, pure_ok] at hq
    obtain ⟨⟨r, o1⟩, h1, hq⟩ := hq
    cases hq
    dsimp only at s1 s3 s4 ⊢
    subst s1
    unfold readTab2 at h1
    simp only [bind_ok, pure_ok] at h1
    obtain ⟨⟨hd, _⟩, g1, ⟨v1, _⟩, g2, h1⟩ := h1
    cases h1
    obtain ⟨l1, l2, n1, n2, cr⟩ := readCont_fits hw1 g1
    obtain ⟨c1, c2, _, _, _, _, ct⟩ := hd
    obtain ⟨rfl, rfl, rfl, rfl, f1, f2, f3, f4, fc⟩ := cr
    obtain ⟨len1, -, -⟩ := CF.readNumbers_get g2
    dsimp only [slotVal] at len1
    have hi1 : (toInts v1).length = v1.length := by simp [toInts]
    have ea := evens_length (toInts v1)
    have eb := odds_length (toInts v1)
    dsimp only [ContRec.vals, List.take, List.drop, List.cons_append, List.nil_append] at s3
    have hit := hi.tab (.inr rfl)
    have hft := hf.tab (.inr rfl)
    dsimp only at hit hft
    cases s4 with
    | cons t1 s4 => cases s4 with
    | cons t2 s4 =>
      cases s4
      obtain ⟨nbt, h3⟩ := toInts_run t1 (hit _ (by simp))
      obtain ⟨int, h4⟩ := toInts_run t2 (hit _ (by simp))
      obtain rfl := toInts_same t1 h3
      obtain rfl := toInts_same t2 h4
      have hfull : List.Forall₂ SameVal [.num (.num c1), .num (.num c2), .num (.int l1), .num (.int l2), .num (.int 0), .num (.int n2)]
          (fl'.take 4 ++ [.num (.int 0)] ++ fl'.drop 4) := by
        cases s3 with
        | cons a1 s3 => cases s3 with
        | cons a2 s3 => cases s3 with
        | cons a3 s3 => cases s3 with
        | cons a4 s3 => cases s3 with
        | cons a5 s3 =>
          cases s3
          exact .cons a1 (.cons a2 (.cons a3 (.cons a4 (.cons rfl (.cons a5 .nil)))))
      obtain ⟨h', h2⟩ := contOf_run ct hfull
      obtain ⟨e1, e2, e3, e4, -, e6, e7⟩ := contOf_same (r := ⟨c1, c2, .int 0, .int 0, .int 0, .int 0, ct⟩) hfull (by
        intro v hv
        rcases List.mem_append.1 hv with hv | hv
        · rcases List.mem_append.1 hv with hv | hv
          · exact hpf v (List.mem_of_mem_take hv)
          · rw [List.mem_singleton] at hv
            subst hv
            exact .num rfl
        · exact hpf v (List.mem_of_mem_drop hv)) h2
      have hn1 : FitsInt o.width (evens (toInts v1)).length := by
        have : ((evens (toInts v1)).length : Int) = n1 ∨ (evens (toInts v1)).length = 0 := by omega
        rcases this with h | h
        · rw [h, ← hr]; exact f3
        · rw [h]; show 1 ≤ o.width; omega
      have hne : evens (toInts v1) ≠ [] := by
        intro e
        exact hft (intsVal (evens (toInts v1))) (by simp) (by rw [e]; rfl)
      rw [hr] at f1 f2 f4
      obtain ⟨recs, j1, j2, j3, j4⟩ := C18_partial o ro hr _ _ c1 c2 (hk.flds (.num (.num c1)) (by simp [ContRec.vals]))
        (hk.flds (.num (.num c2)) (by simp [ContRec.vals])) l1 l2 n2 (.int 0) f1 f2 f4 ct fc (evens (toInts v1)) (odds (toInts v1)) hne
        (by omega) hn1 (stays_ints (hk.tbl _ (by simp))) (stays_ints (hk.tbl _ (by simp)))
      refine ⟨recs, ?_⟩
      simp only [renderRec, bind_ok]
      refine ⟨h', h2, _, h3, _, h4, ?_⟩
      unfold writeTab2 at j1 ⊢
      split at j1
      · cases j1
      · rename_i hl
        rw [if_neg hl]
        simp only [bind_ok, pure_ok] at j1 ⊢
        obtain ⟨x, i1, t, i2, rfl⟩ := j1
        rw [← e1, ← e2, ← e7] at i1
        have := writeCont_run ho (h := { h' with n1 := .int (evens (toInts v1)).length })
          (n1 := (evens (toInts v1)).length) (n2 := n2) e3 e4 (by simp [slotRat]) e6 i1
        exact ⟨x, this, t, i2, by rw [e7]⟩
  | list =>
    simp only [readKind, bind_ok, pure_ok] at hq
    obtain ⟨⟨r, o1⟩, h1, hq⟩ := hq
    cases hq
    dsimp only at s1 s3 s4 ⊢
    subst s1
    obtain ⟨hd, vals⟩ := r
    have hin : ∃ o2, readCont ro lines ofs = .ok (hd, o2) ∧ vals.length = (slotVal hd.n1).toNat := by
      unfold readList at h1
      simp only [bind_ok] at h1
      obtain ⟨⟨hd', o2⟩, g1, h1⟩ := h1
      split at h1
      · rename_i h0
        cases h1
        exact ⟨_, g1, by simp [h0]⟩
      · simp only [bind_ok, pure_ok] at h1
        obtain ⟨⟨v, _⟩, g2, h1⟩ := h1
        cases h1
        exact ⟨_, g1, (CF.readNumbers_get g2).1⟩
    obtain ⟨o2, g1, len1⟩ := hin
    obtain ⟨l1, l2, n1, n2, cr⟩ := readCont_fits hw1 g1
    obtain ⟨c1, c2, _, _, _, _, ct⟩ := hd
    obtain ⟨rfl, rfl, rfl, rfl, f1, f2, f3, f4, fc⟩ := cr
    have hpos : 0 ≤ n1 := hf.list rfl n1 rfl
    dsimp only [slotVal] at len1
    dsimp only [ContRec.vals] at s3
    cases s4 with
    | cons t1 s4 =>
      cases s4
      obtain ⟨vs, h3⟩ := toNums_run t1
      have e5 := toNums_same (l := vals) t1 (hpt _ (by simp)) h3
      obtain ⟨h', h2⟩ := contOf_run ct s3
      obtain ⟨e1, e2, e3, e4, en, e6, e7⟩ := contOf_same (r := ⟨c1, c2, .int 0, .int 0, .int 0, .int 0, ct⟩) s3 hpf h2
      have hvl : vs.length = vals.length := by rw [e5]; simp
      have hcount : n1 = vs.length := by omega
      subst hcount
      rw [hr] at f1 f2 f3 f4
      obtain ⟨recs, j1, j2, j3, j4⟩ := C16_list_fields o (by omega) ro hr _ _ c1 c2 (hk.flds (.num (.num c1)) (by simp [ContRec.vals]))
        (hk.flds (.num (.num c2)) (by simp [ContRec.vals])) l1 l2 n2 f1 f2 f4 ct fc vs vals f3
        (by rw [e5]; exact stays_nums (hk.tbl _ (by simp [numsVal])))
      refine ⟨recs, ?_⟩
      simp only [renderRec, bind_ok]
      refine ⟨h', h2, vs, h3, ?_⟩
      unfold writeList at j1 ⊢
      dsimp only at j1 e7 ⊢
      rw [en]
      simp only [slotRat, Int.cast_natCast, lt_irrefl, if_false, bind_ok, pure_ok] at j1 ⊢
      obtain ⟨x, i1, b, i2, rfl⟩ := j1
      rw [← e1, ← e2, ← e7] at i1
      have := writeCont_run ho e3 e4 en e6 i1
      refine ⟨x, this, b, ?_, by rw [e7]⟩
      have h5 : listBody o h'.n1 vs = listBody o (.int vs.length) vs := by
        have hl := hi.list rfl
        dsimp only at hl
        cases s3 with
        | cons a1 s3 => cases s3 with
        | cons a2 s3 => cases s3 with
        | cons a3 s3 => cases s3 with
        | cons a4 s3 => cases s3 with
        | cons a5 s3 => cases s3 with
        | cons a6 s3 =>
          cases s3
          rename_i v5 _
          have hv := hl v5 rfl
          simp only [contOf, bind_ok, pure_ok] at h2
          obtain ⟨b1, g1, b2, g2, b3, g3, b4, g4, b5, g5, b6, g6, rfl⟩ := h2
          cases v5 with
          | num z =>
            cases z with
            | int m => cases g5; rfl
            | num z => cases hv
          | _ => cases a5
      rw [h5]
      exact i2
  | send =>
    simp only [readKind, bind_ok, pure_ok] at hq
    obtain ⟨⟨r, o1⟩, h1, hq⟩ := hq
    cases hq
    dsimp only at s1 s3 s4 ⊢
    subst s1
    unfold readSend at h1
    simp only [bind_ok] at h1
    obtain ⟨⟨r', o2⟩, g1, h1⟩ := h1
    split at h1
    · cases h1
    · cases h1
      obtain ⟨l1, l2, n1, n2, cr⟩ := readCont_fits hw1 g1
      obtain ⟨line, i1, i2, i3⟩ := C12_end_records o (by omega) zab ro hr r'.ctrl.mat r'.ctrl.mf r'.ctrl.mt cr.fc _ _
        (List.mem_cons_self ..)
      exact ⟨_, i1⟩

end Verif
