import Verif.Lemmas.CppRun

/-! The records of a lookahead in both parsers: which variables have values afterwards. -/

namespace Verif.CF
open Verif Spec

/-! ### interpreter -/

/-- no abbreviation -/
def NoAbb (v : Val) : Prop := ∀ is e, getArr v is ≠ .ok (.abb e)

theorem noAbb_num (x : PyNum) : NoAbb (.num x) := by
  intro is e h
  cases is with
  | nil => simp [getArr] at h
  | cons i is => simp [getArr] at h

theorem noAbb_deep {k : CKind} {n : Nat} {v : Val} (h : DeepT k n v) : NoAbb v := by
  induction n generalizing v with
  | zero =>
    intro is e he
    cases is with
    | nil =>
      have : v = .abb e := by cases v <;> simpa [getArr] using he
      subst this
      exact kind_not_abb h e rfl
    | cons i is =>
      simp only [DeepT] at h
      cases k <;> (obtain ⟨_, rfl⟩ := h; simp [getArr] at he)
  | succ n ih =>
    obtain ⟨d, rfl, _, hd⟩ := h
    intro is e he
    cases is with
    | nil => simp [getArr] at he
    | cons i is =>
      simp only [getArr] at he
      split at he
      · rename_i u hu; exact ih (hd _ _ hu).2 _ _ he
      · cases he

theorem noAbb_setArr {is : List Int} {o : Option Val} {w new : Val} (ho : ∀ u, o = some u → NoAbb u) (hw : NoAbb w)
    (h : setArr o is w = .ok new) : NoAbb new := by
  induction is generalizing o new with
  | nil =>
    have : new = w := by
      cases o with
      | none => simp only [setArr, Except.ok.injEq] at h; exact h.symm
      | some v => cases v <;> simp only [setArr, Except.ok.injEq] at h <;> exact h.symm
    subst this; exact hw
  | cons i is ih =>
    cases o with
    | none =>
      simp only [setArr, bind_ok, pure_ok] at h
      obtain ⟨n, hn, rfl⟩ := h
      have hn := ih (fun u hu => by cases hu) hn
      intro js e he
      cases js with
      | nil => simp [getArr] at he
      | cons j js =>
        simp only [getArr, dGet_dSet] at he
        split at he
        · rename_i u hu
          split at hu
          · cases hu; exact hn _ _ he
          · cases hu
        · cases he
    | some v =>
      cases v with
      | dic d =>
        simp only [setArr, bind_ok, pure_ok] at h
        obtain ⟨n, hn, rfl⟩ := h
        have hd := ho _ rfl
        have hn := ih (fun u hu js e he => hd (i :: js) e (by simp only [getArr, hu]; exact he)) hn
        intro js e he
        cases js with
        | nil => simp [getArr] at he
        | cons j js =>
          simp only [getArr, dGet_dSet] at he
          split at he
          · rename_i u hu
            split at hu
            · cases hu; exact hn _ _ he
            · exact hd (j :: js) e (by simp only [getArr, hu]; exact he)
          · cases he
      | _ => simp [setArr] at h

/-- the variables known to `Γ` are no abbreviations -/
def Plain (Γ : Kinds) (d : DDic) : Prop := ∀ n v, Γ n ≠ none → dGet (.var n) d = some v → NoAbb v

theorem TypedD.noAbb {Γ : Kinds} {d : DDic} (h : TypedD Γ d) : Plain Γ d := by
  intro n v hn hv
  obtain ⟨⟨k, ar⟩, hk⟩ := Option.ne_none_iff_exists'.1 hn
  exact noAbb_deep (h n k ar v hk hv)

/-- the variables of a field -/
def FOk (Γ : Kinds) (lv : Dict Name Int) (e : Expr) : Prop := ∀ r ∈ e.vars, (∃ i, dGet r.name lv = some i) ∨ Γ r.name ≠ none

theorem plain_env {Γ : Kinds} {d : DDic} {ups : List DDic} {lv : Dict Name Int} (h : Plain Γ d) {e : Expr} (he : FOk Γ lv e) :
    ∀ r ∈ e.vars, ∀ e', getVarval ⟨d, ups, lv⟩ false r ≠ .ok (.abb e') := by
  intro r hr e' hg
  rw [getVarval_local] at hg
  split at hg
  · cases hg
  · rcases he r hr with ⟨i, hi⟩ | hn
    · rw [hi] at hg; cases hg
    · split at hg
      · cases hg
      · split at hg
        · cases hg
        · rename_i v hv
          simp only [bind_ok] at hg
          obtain ⟨is, _, hg⟩ := hg
          exact h _ _ hn hv is e' hg

/-- a missing variable is no loop variable, and no number -/
theorem missing_not {d : DDic} {ups : List DDic} {lv : Dict Name Int} {q : VarRef} {err : Err}
    (h : getVarval ⟨d, ups, lv⟩ false q = .error err) (hm : err.isMissing = true) :
    dGet q.name lv = none ∧ ∀ x, dGet (.var q.name) d ≠ some (.num x) := by
  rw [getVarval_local] at h
  split at h
  · cases h; cases hm
  · split at h
    · cases h
    · rename_i hl
      refine ⟨hl, fun x hx => ?_⟩
      rw [hx] at h
      simp only [bind_error] at h
      rcases h with h | ⟨is, _, h⟩
      · rw [idx_err h] at hm; cases hm
      · cases is with
        | nil => simp [getArr] at h
        | cons i is => simp only [getArr, Except.error.injEq] at h; subst h; cases hm

theorem setVarval_get {d d' : DDic} {lv : Dict Name Int} {r : VarRef} {v : Val} (h : setVarval d lv r v = .ok d') :
    ∃ is new, r.idx.mapM (idxVal lv) = .ok is ∧ setArr (dGet (.var r.name) d) is v = .ok new ∧ d' = dSet (.var r.name) new d := by
  unfold setVarval at h
  simp only [bind_ok, pure_ok] at h
  obtain ⟨is, h1, new, h2, rfl⟩ := h
  exact ⟨is, new, h1, h2, rfl⟩

theorem evalExpr_unk {fuel : Nat} {env : Env} {o : EvalOpts} {e : Expr} {v : Lin} {q : VarRef}
    (habb : ∀ r ∈ e.vars, ∀ e', getVarval env o.lookUp r ≠ .ok (.abb e'))
    (h : evalExpr fuel env o e = .ok v) (hx : v.x = some q) :
    q ∈ e.vars ∧ ∃ err, getVarval env o.lookUp q = .error err ∧ err.isMissing = true := by
  cases fuel <;> exact evalWith_unk habb h hx

/-- what one assignment of the mapping does -/
structure MapTo (Γ : Kinds) (lv : Dict Name Int) (fs : List (Expr × Val)) (d d' : DDic) : Prop where
  plain : Plain Γ d'
  other : ∀ key, (∀ f ∈ fs, ∀ r ∈ f.1.vars, key ≠ .var r.name) → dGet key d' = dGet key d
  keep : ∀ n y, dGet (.var n) d = some (.num y) → dGet (.var n) d' = some (.num y)

theorem MapTo.trans {Γ : Kinds} {lv : Dict Name Int} {fs : List (Expr × Val)} {a b c : DDic} (h : MapTo Γ lv fs a b)
    (h' : MapTo Γ lv fs b c) : MapTo Γ lv fs a c :=
  ⟨h'.plain, fun key hk => (h'.other key hk).trans (h.other key hk), fun n y hy => h'.keep n y (h.keep n y hy)⟩

theorem MapTo.mono {Γ : Kinds} {lv : Dict Name Int} {fs gs : List (Expr × Val)} {a b : DDic} (h : MapTo Γ lv fs a b)
    (hs : ∀ f ∈ fs, f ∈ gs) : MapTo Γ lv gs a b :=
  ⟨h.plain, fun key hk => h.other key (fun f hf => hk f (hs f hf)), h.keep⟩

theorem solve_num {ci : Bool} {v : Lin} {x : PyNum} {val : Val} (h : solveField ci v (.num x) = .ok val) : ∃ y, val = .num y := by
  obtain ⟨_, _, ⟨_, _, rfl⟩ | ⟨_, y, _, rfl, _⟩⟩ := solveField_cases h
  · exact ⟨_, rfl⟩
  · exact ⟨_, rfl⟩

/-- a value found for the unknown of a field -/
theorem assign_to {Γ : Kinds} {fuel : Nat} {ups : List DDic} {lv : Dict Name Int} {o : EvalOpts} (ho : o.lookUp = false) {e : Expr} {src : Val}
    {d d' : DDic} {v : Lin} {q : VarRef} {val : Val} {y : PyNum} (hd : Plain Γ d) (hf : FOk Γ lv e)
    (he : evalExpr fuel ⟨d, ups, lv⟩ o e = .ok v) (hx : v.x = some q) (hval : val = .num y)
    (h : setVarval d lv q val = .ok d') : MapTo Γ lv [(e, src)] d d' := by
  obtain ⟨hq, err, hg, hm⟩ := evalExpr_unk (by rw [ho]; exact plain_env hd hf) he hx
  rw [ho] at hg
  obtain ⟨hl, hn⟩ := missing_not hg hm
  obtain ⟨is, new, _, hs, rfl⟩ := setVarval_get h
  have hΓ : Γ q.name ≠ none := by
    rcases hf q hq with ⟨i, hi⟩ | h
    · rw [hl] at hi; cases hi
    · exact h
  refine ⟨?_, ?_, ?_⟩
  · intro n u hn' hu
    rw [dGet_dSet] at hu
    split at hu
    · cases hu
      subst hval
      exact noAbb_setArr (fun u hu => hd _ _ hΓ hu) (noAbb_num _) hs
    · exact hd _ _ hn' hu
  · intro key hk
    exact dGet_dSet_ne (Ne.symm (hk _ (List.mem_singleton.2 rfl) q hq)) _ _
  · intro n z hz
    rw [dGet_dSet_ne _ _ _]
    · exact hz
    · intro hc; cases hc; exact hn _ hz

theorem mapOnce_to {Γ : Kinds} {fuel : Nat} {po : POpts} {ups : List DDic} {lv : Dict Name Int} {fs : List (Expr × Val)} {d d' : DDic}
    {f f' : Bool} (hf : ∀ x ∈ fs, FOk Γ lv x.1 ∧ ∃ y, x.2 = .num y) (hd : Plain Γ d)
    (h : mapOnce fuel po ups lv fs d f = .ok (d', f')) : MapTo Γ lv fs d d' := by
  induction fs generalizing d f with
  | nil => cases h; exact ⟨hd, fun _ _ => rfl, fun _ _ h => h⟩
  | cons x fs ih =>
    obtain ⟨e, src⟩ := x
    obtain ⟨hfe, y, hy⟩ := hf (e, src) (by simp)
    dsimp only at hfe hy
    subst hy
    have ih' := fun {d f} hd h => (ih (d := d) (f := f) (fun x hx => hf x (List.mem_cons_of_mem _ hx)) hd h).mono
      (gs := (e, Val.num y) :: fs) (fun x hx => List.mem_cons_of_mem _ hx)
    simp only [mapOnce] at h
    split at h
    · exact ih' hd h
    · cases h
    · rename_i v he
      split at h
      · split at h
        · cases h
        · split at h
          · cases h
          · exact ih' hd h
      · rename_i q hq
        split at h
        · cases h
        · rename_i val hval
          split at h
          · cases h
          · rename_i cur' hs
            obtain ⟨z, hz⟩ := solve_num hval
            have h1 : MapTo Γ lv [(e, Val.num y)] d cur' := assign_to rfl hd hfe he hq hz hs
            exact (h1.mono (by simp)).trans (ih' h1.plain h)

/-- the value of the first field in which a variable occurs -/
theorem mapOnce_take {Γ : Kinds} {fuel : Nat} {po : POpts} {ups : List DDic} {lv : Dict Name Int} {pre post : List (Expr × Val)} {d d' : DDic}
    {f f' : Bool} {n : Name} {e : Expr} {y : PyNum} (he : e = .var ⟨n, []⟩ ∨ e = .incons ⟨n, []⟩)
    (hf : ∀ x ∈ pre ++ (e, .num y) :: post, FOk Γ lv x.1 ∧ ∃ y, x.2 = .num y) (hd : Plain Γ d) (hl : dGet n lv = none)
    (hn : dGet (.var n) d = none) (hpre : ∀ x ∈ pre, ∀ r ∈ x.1.vars, r.name ≠ n)
    (h : mapOnce fuel po ups lv (pre ++ (e, .num y) :: post) d f = .ok (d', f')) : dGet (.var n) d' = some (.num y) := by
  induction pre generalizing d f with
  | nil =>
    simp only [List.nil_append, mapOnce] at h
    have hg : getVarval ⟨d, ups, lv⟩ false ⟨n, []⟩ = .error .variableNotFound := by
      rw [getVarval_local]
      simp only [dHas, hn, hl, Option.isSome_none, Bool.false_and, Bool.false_eq_true, if_false]
    have hev : evalExpr fuel ⟨d, ups, lv⟩ ⟨false, !po.ignoreAll, true⟩ e = .ok ⟨.num (.int 0), .int 1, some ⟨n, []⟩⟩ := by
      rcases he with rfl | rfl <;> cases fuel <;> simp [evalExpr, evalWith, evalVar, hg]
    rw [hev] at h
    have hsv : solveField (!po.ignoreAll) ⟨.num (.int 0), .int 1, some ⟨n, []⟩⟩ (.num y) = .ok (.num y) := by
      unfold solveField; simp [PyNum.val]
    have hst : setVarval d lv ⟨n, []⟩ (.num y) = .ok (dSet (.var n) (.num y) d) := by
      unfold setVarval; simp [hn, setArr, bind, Except.bind, pure, Except.pure]
    simp only [hsv, hst] at h
    have h1 : MapTo Γ lv [(e, Val.num y)] d (dSet (.var n) (.num y) d) :=
      assign_to (o := ⟨false, !po.ignoreAll, true⟩) rfl hd (hf (e, .num y) (by simp)).1 hev rfl rfl hst
    exact (mapOnce_to (fun x hx => hf x (by simp [hx])) h1.plain h).keep n y (dGet_dSet_self _ _ _)
  | cons x pre ih =>
    obtain ⟨e', src⟩ := x
    obtain ⟨hfe, z, hz⟩ := hf (e', src) (by simp)
    dsimp only at hfe hz
    subst hz
    have ih' := fun {d f} hd hn h => ih (d := d) (f := f) (fun x hx => hf x (List.mem_cons_of_mem _ hx)) hd hn
      (fun x hx => hpre x (List.mem_cons_of_mem _ hx)) h
    simp only [List.cons_append, mapOnce] at h
    split at h
    · exact ih' hd hn h
    · cases h
    · rename_i v hev
      split at h
      · split at h
        · cases h
        · split at h
          · cases h
          · exact ih' hd hn h
      · rename_i q hq
        split at h
        · cases h
        · rename_i val hval
          split at h
          · cases h
          · rename_i cur' hs
            obtain ⟨u, hu⟩ := solve_num hval
            have h1 : MapTo Γ lv [(e', Val.num z)] d cur' := assign_to rfl hd hfe hev hq hu hs
            refine ih' h1.plain ?_ h
            rw [h1.other (.var n), hn]
            intro x hx r hr hc
            rw [List.mem_singleton] at hx
            subst hx
            exact hpre (e', .num z) (by simp) r hr (by cases hc; rfl)

theorem mapTries_to {Γ : Kinds} {fuel : Nat} {po : POpts} {ups : List DDic} {lv : Dict Name Int} {fs : List (Expr × Val)} {d d' : DDic}
    {t : Nat} (hf : ∀ x ∈ fs, FOk Γ lv x.1 ∧ ∃ y, x.2 = .num y) (hd : Plain Γ d)
    (h : mapTries fuel po ups lv fs t d = .ok d') : MapTo Γ lv fs d d' := by
  induction t generalizing d with
  | zero => cases h
  | succ t ih =>
    simp only [mapTries] at h
    split at h
    · cases h
    · rename_i h1; cases h; exact mapOnce_to hf hd h1
    · rename_i h1
      have h1 := mapOnce_to hf hd h1
      exact h1.trans (ih h1.plain h)

theorem mapTries_take {Γ : Kinds} {fuel : Nat} {po : POpts} {ups : List DDic} {lv : Dict Name Int} {pre post : List (Expr × Val)} {d d' : DDic}
    {t : Nat} {n : Name} {e : Expr} {y : PyNum} (he : e = .var ⟨n, []⟩ ∨ e = .incons ⟨n, []⟩)
    (hf : ∀ x ∈ pre ++ (e, .num y) :: post, FOk Γ lv x.1 ∧ ∃ y, x.2 = .num y) (hd : Plain Γ d) (hl : dGet n lv = none)
    (hn : dGet (.var n) d = none) (hpre : ∀ x ∈ pre, ∀ r ∈ x.1.vars, r.name ≠ n)
    (h : mapTries fuel po ups lv (pre ++ (e, .num y) :: post) t d = .ok d') : dGet (.var n) d' = some (.num y) := by
  cases t with
  | zero => cases h
  | succ t =>
    simp only [mapTries] at h
    split at h
    · cases h
    · rename_i h1; cases h; exact mapOnce_take he hf hd hl hn hpre h1
    · rename_i h1
      exact (mapTries_to hf (mapOnce_to hf hd h1).plain h).keep n y (mapOnce_take he hf hd hl hn hpre h1)

/-! ### compiled parser -/

theorem assign_vars {s s' : FunSt} {v : VarRef} {w : Val} (h : assign s v w = .ok s') :
    ∃ is t, cIdxs s.lv v.idx = .ok is ∧ vput is (dGet v.key s.cur.vars) w = .ok t ∧
      s' = { s with cur := { s.cur with vars := dSet v.key t s.cur.vars } } := by
  unfold assign at h
  simp only [cbind_ok'] at h
  obtain ⟨is, h1, t, h2, h3⟩ := h
  cases h3
  exact ⟨is, t, h1, h2, rfl⟩

/-- what a piece does -/
theorem lookPiece_cases {rd : Nat → CKind → CRes Val} {s s' : FunSt} {p : Piece} (h : lookPiece rd s p = .ok s') :
    (s' = s ∧ ∀ g v sol, p.op = .put g v sol → didRead s v = .ok true) ∨
    ∃ g v sol src x w is t, p.op = .put g v sol ∧ (g = true → didRead s v = .ok false) ∧ rd p.fld p.kind = .ok src ∧
      solVal s p.e src sol = .ok x ∧ toKind p.kind x = .ok w ∧ cIdxs s.lv v.idx = .ok is ∧
      vput is (dGet v.key s.cur.vars) w = .ok t ∧ s' = { s with cur := { s.cur with vars := dSet v.key t s.cur.vars } } := by
  unfold lookPiece at h
  split at h
  · rename_i ho; cases h; exact .inl ⟨rfl, fun g v sol hp => by rw [ho] at hp; cases hp⟩
  · rename_i g v sol ho
    simp only [cbind_ok'] at h
    obtain ⟨known, hk, h⟩ := h
    cases known with
    | true =>
      simp only [if_true, CRes.ok.injEq] at h
      refine .inl ⟨h.symm, fun g' v' sol' hp => ?_⟩
      rw [ho] at hp; cases hp
      cases g with
      | true => simpa using hk
      | false => simp at hk
    | false =>
      simp only [Bool.false_eq_true, if_false, cbind_ok'] at h
      obtain ⟨src, h1, x, h2, w, h3, h4⟩ := h
      obtain ⟨is, t, h5, h6, h7⟩ := assign_vars h4
      exact .inr ⟨g, v, sol, src, x, w, is, t, ho, fun hg => by subst hg; simpa using hk, h1, h2, h3, h5, h6, h7⟩
  · rename_i g v ho
    simp only [cbind_ok'] at h
    obtain ⟨known, hk, h⟩ := h
    cases known with
    | true =>
      simp only [if_true, CRes.ok.injEq] at h
      exact .inl ⟨h.symm, fun g' v' sol' hp => by rw [ho] at hp; cases hp⟩
    | false => simp at h

theorem lookPiece_st {rd : Nat → CKind → CRes Val} {s s' : FunSt} {p : Piece} (h : lookPiece rd s p = .ok s') :
    ∃ vs, s' = { s with cur := { s.cur with vars := vs } } := by
  rcases lookPiece_cases h with ⟨rfl, _⟩ | ⟨_, _, _, _, _, _, _, _, _, _, _, _, _, _, _, rfl⟩
  · exact ⟨_, rfl⟩
  · exact ⟨_, rfl⟩

theorem lookPieces_st {rd : Nat → CKind → CRes Val} {s s' : FunSt} {ps : List Piece} (h : lookPieces rd ps s = .ok s') :
    ∃ vs, s' = { s with cur := { s.cur with vars := vs } } := by
  induction ps generalizing s with
  | nil => cases h; exact ⟨_, rfl⟩
  | cons p ps ih =>
    simp only [lookPieces, cbind_ok'] at h
    obtain ⟨s1, h1, h2⟩ := h
    obtain ⟨v1, rfl⟩ := lookPiece_st h1
    obtain ⟨v2, rfl⟩ := ih h2
    exact ⟨_, rfl⟩

theorem lookPiece_quiet {rd : Nat → CKind → CRes Val} {s s' : FunSt} {p : Piece} {n : Name} (h : lookPiece rd s p = .ok s')
    (hn : putsVar n p = false) (ar : Nat) : dGet (n, ar) s'.cur.vars = dGet (n, ar) s.cur.vars := by
  rcases lookPiece_cases h with ⟨rfl, _⟩ | ⟨_, v, _, _, _, _, _, _, ho, _, _, _, _, _, _, rfl⟩
  · rfl
  · refine dGet_dSet_ne ?_ _ _
    intro hc
    simp only [putsVar, ho, beq_eq_false_iff_ne] at hn
    exact hn (congrArg Prod.fst hc)

theorem lookPieces_quiet {rd : Nat → CKind → CRes Val} {s s' : FunSt} {ps : List Piece} {n : Name} (h : lookPieces rd ps s = .ok s')
    (hn : ∀ p ∈ ps, putsVar n p = false) (ar : Nat) : dGet (n, ar) s'.cur.vars = dGet (n, ar) s.cur.vars := by
  induction ps generalizing s with
  | nil => cases h; rfl
  | cons p ps ih =>
    simp only [lookPieces, cbind_ok'] at h
    obtain ⟨s1, h1, h2⟩ := h
    rw [ih h2 fun q hq => hn q (List.mem_cons_of_mem _ hq), lookPiece_quiet h1 (hn p (by simp))]

/-- a piece assigns a variable of the field -/
theorem puts_mentions {Γ : Kinds} {L : List Name} {D : List VKey} {p : Piece} {n : Name} (hp : lookPieceOk Γ L D p = true)
    (h : putsVar n p = true) : mentions n p = true := by
  unfold putsVar at h
  split at h
  · rename_i ho
    simp only [lookPieceOk, ho, Bool.and_eq_true, List.contains_eq_mem, decide_eq_true_eq] at hp
    simp only [mentions, List.any_eq_true]
    exact ⟨_, hp.2.1, h⟩
  · cases h

theorem takes_cases {Γ : Kinds} {D : List VKey} {p : Piece} {n : Name} (h : takesVar Γ D n p = true) :
    Γ n = some (p.kind, 0) ∧ p.kind.isNum = true ∧ (n, 0) ∈ D ∧ (p.e = .var ⟨n, []⟩ ∨ p.e = .incons ⟨n, []⟩) ∧
      ∃ g v, p.op = .put g v (.var cppVal) := by
  unfold takesVar at h
  simp only [Bool.and_eq_true, decide_eq_true_eq, List.contains_eq_mem] at h
  obtain ⟨⟨⟨⟨h1, h2⟩, h3⟩, h4⟩, h5⟩ := h
  refine ⟨h1, h2, h3, ?_, ?_⟩
  · split at h4
    · rename_i r he; have := of_decide_eq_true h4; subst this; exact .inl he
    · rename_i r he; have := of_decide_eq_true h4; subst this; exact .inr he
    · cases h4
  · split at h5
    · rename_i g v sol ho
      refine ⟨g, v, ?_⟩
      unfold isCppVal at h5
      split at h5
      · have := of_decide_eq_true h5; subst this; exact ho
      · cases h5
    · cases h5

/-- the variable has the value of the field -/
def Got (rd : Nat → CKind → CRes Val) (n : Name) (i : Nat) (k : CKind) (s : FunSt) : Prop :=
  ∃ src w, rd i k = .ok src ∧ toKind k src = .ok w ∧ dGet (n, 0) s.cur.vars = some (.leaf w)

theorem take_piece {Γ : Kinds} {L : List Name} {D : List VKey} {rd : Nat → CKind → CRes Val} {s s' : FunSt} {p : Piece} {n : Name}
    (hp : lookPieceOk Γ L D p = true) (hD : s.cur.defs = D) (hl : dGet n s.lv = none) (ht : takesVar Γ D n p = true)
    (hinv : dGet (n, 0) s.cur.vars = none ∨ Got rd n p.fld p.kind s) (h : lookPiece rd s p = .ok s') : Got rd n p.fld p.kind s' := by
  obtain ⟨h1, h2, h3, h4, g, v, h5⟩ := takes_cases ht
  have hv : v = ⟨n, []⟩ := by
    simp only [lookPieceOk, h5, Bool.and_eq_true, List.contains_eq_mem, decide_eq_true_eq] at hp
    have := hp.2.1
    rcases h4 with h4 | h4 <;> rw [h4] at this <;> simpa [Expr.vars] using this
  subst hv
  rcases lookPiece_cases h with ⟨rfl, hd⟩ | ⟨g', v', sol', src, x, w, is, t, ho, _, hsrc, hx, hw, his, hvp, rfl⟩
  · rcases hinv with hnone | hg
    · have := hd _ _ _ h5
      unfold didRead at this
      rw [hl] at this
      dsimp only at this
      have hb : blockOf (VarRef.key ⟨n, []⟩) s'.blocks = some s'.cur := by
        simp only [FunSt.blocks, blockOf, VarRef.key, List.length_nil]
        rw [if_pos (by rw [hD]; exact h3)]
      rw [hb] at this
      simp only [VarRef.key, List.length_nil, hnone, cbind_ok', CRes.ok.injEq, Bool.false_eq_true, and_false, exists_false] at this
    · exact hg
  · rw [h5] at ho
    cases ho
    simp only [solVal, if_true, CRes.ok.injEq] at hx
    subst hx
    simp only [cIdxs, CRes.ok.injEq] at his
    subst his
    refine ⟨src, w, hsrc, hw, ?_⟩
    simp only [vput, CRes.ok.injEq] at hvp
    subst hvp
    exact dGet_dSet_self _ _ _

theorem guard_piece {Γ : Kinds} {L : List Name} {D : List VKey} {rd : Nat → CKind → CRes Val} {s s' : FunSt} {p : Piece} {n : Name}
    {i : Nat} {k : CKind} (hp : lookPieceOk Γ L D p = true) (hD : s.cur.defs = D) (hnL : n ∉ L) (hl : dGet n s.lv = none)
    (ht : guardsVar n p = true) (hg : Got rd n i k s) (h : lookPiece rd s p = .ok s') : Got rd n i k s' := by
  unfold guardsVar at ht
  split at ht
  · rename_i v sol ho
    have := of_decide_eq_true ht
    subst this
    obtain ⟨src, w, a, b, hg⟩ := hg
    have hd : (⟨n, []⟩ : VarRef).key ∈ D := by
      simp only [lookPieceOk, ho, Bool.and_eq_true, List.contains_eq_mem, decide_eq_true_eq] at hp
      have := hp.2.2
      rw [if_neg (by simpa using hnL)] at this
      simpa using this
    have hdr : didRead s ⟨n, []⟩ = .ok true := by
      unfold didRead
      rw [hl]
      dsimp only
      have hb : blockOf (VarRef.key ⟨n, []⟩) s.blocks = some s.cur := by
        simp only [FunSt.blocks, blockOf]
        rw [if_pos (by rw [hD]; exact hd)]
      rw [hb]
      simp only [VarRef.key, List.length_nil] at hg ⊢
      rw [hg]
      rfl
    simp only [lookPiece, ho, if_true, hdr] at h
    cases h
    exact ⟨src, w, a, b, hg⟩
  · cases ht

theorem take_pieces {Γ : Kinds} {L : List Name} {D : List VKey} {rd : Nat → CKind → CRes Val} {s s' : FunSt} {ps : List Piece} {n : Name}
    {i : Nat} {k : CKind} (hp : ∀ p ∈ ps, lookPieceOk Γ L D p = true) (hD : s.cur.defs = D) (hl : dGet n s.lv = none)
    (hnL : n ∉ L) (hq : ∀ q ∈ ps, putsVar n q = true → (takesVar Γ D n q = true ∧ q.fld = i) ∨ guardsVar n q = true) (hk : Γ n = some (k, 0))
    (hinv : (dGet (n, 0) s.cur.vars = none ∧ ∀ q, ps.find? (putsVar n) = some q → takesVar Γ D n q = true ∧ q.fld = i) ∨ Got rd n i k s) (h : lookPieces rd ps s = .ok s') :
    (Got rd n i k s ∨ ∃ q ∈ ps, putsVar n q = true) → Got rd n i k s' := by
  induction ps generalizing s with
  | nil =>
    cases h
    rintro (h | ⟨q, hq, _⟩)
    · exact h
    · cases hq
  | cons p ps ih =>
    simp only [lookPieces, cbind_ok'] at h
    obtain ⟨s1, h1, h2⟩ := h
    obtain ⟨vs, hs1⟩ := lookPiece_st h1
    have hD1 : s1.cur.defs = D := by rw [hs1]; exact hD
    have hl1 : dGet n s1.lv = none := by rw [hs1]; exact hl
    have ih' := fun hi => ih (s := s1) (fun q hq => hp q (List.mem_cons_of_mem _ hq)) hD1 hl1
      (fun q hq' => hq q (List.mem_cons_of_mem _ hq')) hi h2
    cases hpv : putsVar n p with
    | true =>
      have hg : Got rd n i k s1 := by
        have htake : ∀ (ht : takesVar Γ D n p = true) (hf : p.fld = i) (hi : dGet (n, 0) s.cur.vars = none ∨ Got rd n i k s), Got rd n i k s1 := by
          intro ht hf hi
          have hkk : p.kind = k := by
            have := (takes_cases ht).1
            rw [hk] at this; cases this; rfl
          have := take_piece (hp p (by simp)) hD hl ht (by rw [hf, hkk]; exact hi) h1
          rwa [hf, hkk] at this
        rcases hinv with ⟨hnone, hfirst⟩ | hgot
        · obtain ⟨ht, hf⟩ := hfirst p (by simp [List.find?_cons, hpv])
          exact htake ht hf (.inl hnone)
        · rcases hq p (by simp) hpv with ⟨ht, hf⟩ | hgd
          · exact htake ht hf (.inr hgot)
          · exact guard_piece (hp p (by simp)) hD hnL hl hgd hgot h1
      exact fun _ => ih' (.inr hg) (.inl hg)
    | false =>
      have hsame := lookPiece_quiet h1 hpv 0
      have hinv1 : (dGet (n, 0) s1.cur.vars = none ∧ ∀ q, ps.find? (putsVar n) = some q → takesVar Γ D n q = true ∧ q.fld = i) ∨
          Got rd n i k s1 := by
        rcases hinv with ⟨hn, hf⟩ | ⟨src, w, a, b, hg⟩
        · exact .inl ⟨by rw [hsame]; exact hn, fun q hq' => hf q (by rw [List.find?_cons, hpv]; exact hq')⟩
        · exact .inr ⟨src, w, a, b, by rw [hsame]; exact hg⟩
      intro h
      refine ih' hinv1 ?_
      rcases h with ⟨src, w, a, b, hg⟩ | ⟨q, hq, hqp⟩
      · exact .inl ⟨src, w, a, b, by rw [hsame]; exact hg⟩
      · rcases List.mem_cons.1 hq with rfl | hq
        · rw [hpv] at hqp; cases hqp
        · exact .inr ⟨q, hq, hqp⟩

/-! ### both parsers -/

/-- states during a lookahead -/
structure LookSt (Γ : Kinds) (L : List Name) (D : List VKey) (s : RSt) (cs : FunSt) : Prop where
  lv : s.lv = cs.lv
  lvok : LvOk L cs.lv
  plain : Plain Γ s.cur
  defs : cs.cur.defs = D

/-- changes during a lookahead -/
structure LookStep (Γ : Kinds) (L : List Name) (D : List VKey) (steps : List (List Piece)) (s s' : RSt) (cs cs' : FunSt) : Prop where
  ups : s'.ups = s.ups
  lv : s'.lv = s.lv
  cups : cs'.ups = cs.ups
  clv : cs'.lv = cs.lv
  defs : cs'.cur.defs = cs.cur.defs
  plain : Plain Γ s'.cur
  up : dGet .up s'.cur = dGet .up s.cur
  cquiet : ∀ n, (∀ ps ∈ steps, ∀ p ∈ ps, mentions n p = false) → ∀ ar, dGet (n, ar) cs'.cur.vars = dGet (n, ar) cs.cur.vars
  quiet : ∀ n, n ∉ L → Γ n ≠ none → (∀ ps ∈ steps, ∀ p ∈ ps, mentions n p = false) →
    dGet (.var n) s'.cur = dGet (.var n) s.cur ∧ ∀ ar, dGet (n, ar) cs'.cur.vars = dGet (n, ar) cs.cur.vars
  keep : ∀ n y, n ∉ L → Γ n ≠ none → (∀ ps ∈ steps, ∀ p ∈ ps, putsVar n p = false) → dGet (.var n) s.cur = some (.num y) →
    dGet (.var n) s'.cur = some (.num y) ∧ ∀ ar, dGet (n, ar) cs'.cur.vars = dGet (n, ar) cs.cur.vars
  take : ∀ n, n ∉ L → nameLook Γ D n steps = true → (∃ ps ∈ steps, ∃ p ∈ ps, mentions n p = true) →
    dGet (.var n) s.cur = none → dGet (n, 0) cs.cur.vars = none →
    ∃ k y, Γ n = some (k, 0) ∧ (n, 0) ∈ D ∧ KindVal k (.num y) ∧ dGet (.var n) s'.cur = some (.num y) ∧
      dGet (n, 0) cs'.cur.vars = some (.leaf (.num y))

theorem LookSt.step {Γ : Kinds} {L : List Name} {D : List VKey} {steps : List (List Piece)} {s s' : RSt} {cs cs' : FunSt}
    (h : LookSt Γ L D s cs) (h' : LookStep Γ L D steps s s' cs cs') : LookSt Γ L D s' cs' :=
  ⟨by rw [h'.lv, h'.clv]; exact h.lv, by rw [h'.clv]; exact h.lvok, h'.plain, h'.defs.trans h.defs⟩

/-- nothing is looked at -/
theorem LookStep.nil {Γ : Kinds} {L : List Name} {D : List VKey} {s : RSt} {cs : FunSt} (h : LookSt Γ L D s cs) :
    LookStep Γ L D [] s s cs cs :=
  ⟨rfl, rfl, rfl, rfl, rfl, h.plain, rfl, fun _ _ _ => rfl, fun _ _ _ _ => ⟨rfl, fun _ => rfl⟩, fun _ _ _ _ _ h => ⟨h, fun _ => rfl⟩,
    fun _ _ _ ⟨_, h, _⟩ => by cases h⟩

theorem nameLook_app {Γ : Kinds} {D : List VKey} {n : Name} {a b : List (List Piece)} (h : nameLook Γ D n (a ++ b) = true) :
    nameLook Γ D n a = true ∧ ((∃ ps ∈ a, ∃ p ∈ ps, mentions n p = true) → ∀ ps ∈ b, ∀ p ∈ ps, putsVar n p = false) ∧
      ((∀ ps ∈ a, ∀ p ∈ ps, mentions n p = false) → nameLook Γ D n b = true) := by
  induction a with
  | nil => exact ⟨rfl, (fun ⟨_, h, _⟩ => by cases h), fun _ => h⟩
  | cons ps a ih =>
    simp only [List.cons_append, nameLook] at h ⊢
    split at h
    · rename_i hm
      rw [if_pos hm]
      simp only [Bool.and_eq_true, List.all_append] at h ⊢
      refine ⟨⟨h.1, h.2.1⟩, fun _ qs hqs p hp => ?_, fun hno => ?_⟩
      · have := List.all_eq_true.1 (List.all_eq_true.1 h.2.2 qs hqs) p hp
        simpa using this
      · obtain ⟨p, hp, hpm⟩ := List.any_eq_true.1 hm
        rw [hno ps (by simp) p hp] at hpm; cases hpm
    · rename_i hm
      rw [if_neg hm]
      obtain ⟨i1, i2, i3⟩ := ih h
      refine ⟨i1, fun ⟨qs, hqs, p, hp, hpm⟩ => ?_, fun hno => i3 fun qs hqs => hno qs (by simp [hqs])⟩
      rcases List.mem_cons.1 hqs with rfl | hqs
      · exact absurd (List.any_eq_true.2 ⟨p, hp, hpm⟩) hm
      · exact i2 ⟨qs, hqs, p, hp, hpm⟩

theorem LookStep.trans {Γ : Kinds} {L : List Name} {D : List VKey} {a b : List (List Piece)} {s s' s'' : RSt} {cs cs' cs'' : FunSt}
    (h : LookStep Γ L D a s s' cs cs') (h' : LookStep Γ L D b s' s'' cs' cs'') : LookStep Γ L D (a ++ b) s s'' cs cs'' where
  ups := h'.ups.trans h.ups
  lv := h'.lv.trans h.lv
  cups := h'.cups.trans h.cups
  clv := h'.clv.trans h.clv
  defs := h'.defs.trans h.defs
  plain := h'.plain
  up := h'.up.trans h.up
  cquiet n hno ar := (h'.cquiet n (fun ps hps => hno ps (List.mem_append_right _ hps)) ar).trans
    (h.cquiet n (fun ps hps => hno ps (List.mem_append_left _ hps)) ar)
  quiet n hn hΓ hno := by
    obtain ⟨a1, a2⟩ := h.quiet n hn hΓ fun ps hps => hno ps (List.mem_append_left _ hps)
    obtain ⟨b1, b2⟩ := h'.quiet n hn hΓ fun ps hps => hno ps (List.mem_append_right _ hps)
    exact ⟨b1.trans a1, fun ar => (b2 ar).trans (a2 ar)⟩
  keep n y hn hΓ hno hy := by
    obtain ⟨a1, a2⟩ := h.keep n y hn hΓ (fun ps hps => hno ps (List.mem_append_left _ hps)) hy
    obtain ⟨b1, b2⟩ := h'.keep n y hn hΓ (fun ps hps => hno ps (List.mem_append_right _ hps)) a1
    exact ⟨b1, fun ar => (b2 ar).trans (a2 ar)⟩
  take n hn hl hm h1 h2 := by
    obtain ⟨l1, l2, l3⟩ := nameLook_app hl
    by_cases hma : ∃ ps ∈ a, ∃ p ∈ ps, mentions n p = true
    · obtain ⟨k, y, g1, g2, g3, g4, g5⟩ := h.take n hn l1 hma h1 h2
      obtain ⟨k1, k2⟩ := h'.keep n y hn (by rw [g1]; simp) (l2 hma) g4
      exact ⟨k, y, g1, g2, g3, k1, (k2 0).trans g5⟩
    · have hno : ∀ ps ∈ a, ∀ p ∈ ps, mentions n p = false := by
        intro ps hps p hp
        cases hmp : mentions n p with
        | false => rfl
        | true => exact absurd ⟨ps, hps, p, hp, hmp⟩ hma
      obtain ⟨ps, hps, p, hp, hpm⟩ := hm
      have hmb : ∃ ps ∈ b, ∃ p ∈ ps, mentions n p = true := by
        rcases List.mem_append.1 hps with hps | hps
        · rw [hno ps hps p hp] at hpm; cases hpm
        · exact ⟨ps, hps, p, hp, hpm⟩
      have hΓ : Γ n ≠ none := by
        have hb := l3 hno
        clear h h' l1 l2 l3 hl hps hp hpm h1 h2 hma hno
        induction b with
        | nil => obtain ⟨_, h, _⟩ := hmb; cases h
        | cons qs b ih =>
          simp only [nameLook] at hb
          split at hb
          · simp only [Bool.and_eq_true, List.any_eq_true] at hb
            obtain ⟨⟨q, _, ⟨ht, _⟩, _⟩, _⟩ := hb
            rw [(takes_cases ht).1]; simp
          · rename_i hmm
            refine ih ?_ hb
            obtain ⟨qs', hqs, q, hq, hqm⟩ := hmb
            rcases List.mem_cons.1 hqs with rfl | hqs
            · exact absurd (List.any_eq_true.2 ⟨q, hq, hqm⟩) hmm
            · exact ⟨qs', hqs, q, hq, hqm⟩
      obtain ⟨a1, a2⟩ := h.quiet n hn hΓ hno
      exact h'.take n hn (l3 hno) hmb (a1.trans h1) ((a2 0).trans h2)

/-- the fields of the first line of a record -/
theorem rec_look {Γ : Kinds} {L : List Name} {D : List VKey} {c : RCtx} {s s' : RSt} {cs cs' : FunSt} (h : LookSt Γ L D s cs)
    {rd : Nat → CKind → CRes Val} {ps : List Piece} {es : List Expr} {vals : List Val} (hok : ∀ p ∈ ps, lookPieceOk Γ L D p = true)
    {φ : Nat → Nat} (hφ : ∀ i j, i < j → φ i < φ j)
    (h1 : ∀ (j : Nat) e v, es[j]? = some e → vals[j]? = some v → (∃ y, v = Val.num y) ∧ ∃ p ∈ ps, p.fld = φ j ∧ p.e = e)
    (h2 : ∀ p ∈ ps, ∃ j, φ j = p.fld ∧ es[j]? = some p.e ∧
      ∀ src, rd p.fld p.kind = .ok src → vals[j]? = some src ∧ KindVal p.kind src)
    (hpy : mapFields c es vals s = .ok s') (hcpp : lookPieces rd ps cs = .ok cs') : LookStep Γ L D [ps] s s' cs cs' := by
  unfold mapFields at hpy
  obtain ⟨cur, hm, hs'⟩ := lift_ok hpy
  cases hs'
  obtain ⟨vs, hcs⟩ := lookPieces_st hcpp
  have hfs : ∀ x ∈ es.zip vals, FOk Γ s.lv x.1 ∧ ∃ y, x.2 = .num y := by
    intro x hx
    obtain ⟨j, hj⟩ := List.mem_iff_getElem?.1 hx
    rw [List.getElem?_zip_eq_some] at hj
    obtain ⟨hy, p, hp, _, hpe⟩ := h1 j _ _ hj.1 hj.2
    refine ⟨fun r hr => ?_, hy⟩
    have := hok p hp
    simp only [lookPieceOk, Bool.and_eq_true, List.all_eq_true, Bool.or_eq_true, List.contains_eq_mem, decide_eq_true_eq] at this
    rw [hpe] at this
    rcases this.1 r hr with hL | hΓ
    · left; rw [h.lv]; exact h.lvok.1 _ hL
    · right; exact Option.isSome_iff_ne_none.1 hΓ
  unfold mapRead at hm
  have hto := mapTries_to hfs h.plain hm
  have hquiet : ∀ n, (∀ p ∈ ps, mentions n p = false) → ∀ ar, dGet (n, ar) cs'.cur.vars = dGet (n, ar) cs.cur.vars := by
    intro n hno ar
    refine lookPieces_quiet hcpp (fun p hp => ?_) ar
    cases hpv : putsVar n p with
    | false => rfl
    | true => have := puts_mentions (hok p hp) hpv; rw [hno p hp] at this; cases this
  refine ⟨rfl, rfl, by rw [hcs], by rw [hcs], by rw [hcs], hto.plain, hto.other _ (by intros; simp),
    fun n hno => hquiet n (hno ps (by simp)), ?_, ?_, ?_⟩
  · intro n hn hΓ hno
    have hno : ∀ p ∈ ps, mentions n p = false := hno ps (by simp)
    refine ⟨hto.other _ ?_, hquiet n hno⟩
    intro x hx r hr hc
    obtain ⟨j, hj⟩ := List.mem_iff_getElem?.1 hx
    rw [List.getElem?_zip_eq_some] at hj
    obtain ⟨_, p, hp, _, hpe⟩ := h1 j _ _ hj.1 hj.2
    have := hno p hp
    simp only [mentions, hpe, List.any_eq_false, beq_iff_eq] at this
    exact this r hr (by cases hc; rfl)
  · intro n y hn hΓ hno hy
    exact ⟨hto.keep n y hy, fun ar => lookPieces_quiet hcpp (hno ps (by simp)) ar⟩
  · intro n hn hl hm' hnone hcnone
    obtain ⟨ps', hps', p', hp', hpm⟩ := hm'
    rw [List.mem_singleton] at hps'
    subst hps'
    simp only [nameLook, List.any_eq_true] at hl
    rw [if_pos ⟨p', hp', hpm⟩] at hl
    simp only [Bool.and_eq_true, List.any_eq_true, List.all_eq_true] at hl
    obtain ⟨⟨p, hp, ⟨ht, hall⟩, hfst⟩, _⟩ := hl
    have hq : ∀ q ∈ ps', mentions n q = true → (takesVar Γ D n q = true ∧ q.fld = p.fld) ∨
        (p.fld < q.fld ∧ (putsVar n q = false ∨ guardsVar n q = true)) := by
      intro q hq hqm
      have := hall q hq
      rw [hqm] at this
      simpa using this
    obtain ⟨t1, t2, t3, t4, g, v, t5⟩ := takes_cases ht
    have hl : dGet n cs.lv = none := h.lvok.2 n hn
    have hpp : putsVar n p = true := by
      have := hok p hp
      simp only [lookPieceOk, t5, Bool.and_eq_true, List.contains_eq_mem, decide_eq_true_eq] at this
      have hv : v = ⟨n, []⟩ := by
        have := this.2.1
        rcases t4 with h4 | h4 <;> rw [h4] at this <;> simpa [Expr.vars] using this
      simp [putsVar, t5, hv]
    obtain ⟨src, w, hsrc, hw, hg⟩ := take_pieces (rd := rd) (i := p.fld) hok h.defs hl hn (fun q hq' hqp => by
      rcases hq q hq' (puts_mentions (hok q hq') hqp) with h | ⟨_, h | h⟩
      · exact .inl h
      · rw [h] at hqp; cases hqp
      · exact .inr h) t1 (.inl ⟨hcnone, fun q hq' => by
        rw [hq'] at hfst
        simpa using hfst⟩) hcpp (.inr ⟨p, hp, hpp⟩)
    obtain ⟨j, hj, hej, hval⟩ := h2 p hp
    obtain ⟨hv, hk⟩ := hval src hsrc
    have hnum : ∃ y, src = .num y ∧ w = .num y := by
      cases hpk : p.kind with
      | flt =>
        rw [hpk] at hk hw
        obtain ⟨q, rfl⟩ := hk
        simp only [toKind, CRes.ok.injEq] at hw
        exact ⟨_, rfl, hw.symm⟩
      | int =>
        rw [hpk] at hk hw
        obtain ⟨q, rfl⟩ := hk
        simp only [toKind, CRes.ok.injEq] at hw
        exact ⟨_, rfl, hw.symm⟩
      | _ => rw [hpk] at t2; cases t2
    obtain ⟨y, rfl, rfl⟩ := hnum
    refine ⟨p.kind, y, t1, t3, hk, ?_, hg⟩
    have hz : (es.zip vals)[j]? = some (p.e, .num y) := List.getElem?_zip_eq_some.2 ⟨hej, hv⟩
    obtain ⟨hjl, hje⟩ := List.getElem?_eq_some_iff.1 hz
    have hsplit : es.zip vals = (es.zip vals).take j ++ (p.e, .num y) :: (es.zip vals).drop (j + 1) := by
      rw [← hje, List.getElem_cons_drop, List.take_append_drop]
    rw [hsplit] at hm hfs
    refine mapTries_take t4 hfs h.plain (by rw [h.lv]; exact hl) hnone ?_ hm
    intro x hx r hr hrn
    obtain ⟨i, hi⟩ := List.mem_iff_getElem?.1 hx
    rw [List.getElem?_take] at hi
    split at hi
    · rename_i hij
      rw [List.getElem?_zip_eq_some] at hi
      obtain ⟨_, q, hq', hqf, hqe⟩ := h1 i _ _ hi.1 hi.2
      have hqm : mentions n q = true := by
        simp only [mentions, List.any_eq_true, beq_iff_eq]
        exact ⟨r, by rw [hqe]; exact hr, hrn⟩
      have := hφ i j hij
      rcases hq q hq' hqm with ⟨_, hf⟩ | ⟨hf, _⟩ <;> omega
    · cases hi

/-- other parts of the states -/
theorem LookStep.from {Γ : Kinds} {L : List Name} {D : List VKey} {st : List (List Piece)} {s s' : RSt} {cs cs' : FunSt}
    {ofs : Nat} {sp : List (Nat × Nat)} {l : Str} {ls : List Str}
    (h : LookStep Γ L D st { s with ofs := ofs, spans := sp } s' { cs with line := l, ls := ls } cs') : LookStep Γ L D st s s' cs cs' :=
  ⟨h.ups, h.lv, h.cups, h.clv, h.defs, h.plain, h.up, h.cquiet, h.quiet, h.keep, h.take⟩

theorem LookStep.log {Γ : Kinds} {L : List Name} {D : List VKey} {st : List (List Piece)} {s s' : RSt} {cs cs' : FunSt}
    (h : LookStep Γ L D st s s' cs cs') (l : List ARec) : LookStep Γ L D st s { s' with recs := l } cs cs' :=
  ⟨h.ups, h.lv, h.cups, h.clv, h.defs, h.plain, h.up, h.cquiet, h.quiet, h.keep, h.take⟩

/-- the control numbers are set -/
theorem LookStep.ctrl {Γ : Kinds} (hΓ : ∀ n ∈ ctlNames, Γ n = none) {L : List Name} {D : List VKey} {st : List (List Piece)} {s s' : RSt} {cs cs' : FunSt}
    (h : LookStep Γ L D st s s' cs cs') (k : Ctrl) (l : List ARec) : LookStep Γ L D st s { s' with cur := setCtrl k s'.cur, recs := l } cs cs' := by
  have hg : ∀ n, Γ n ≠ none → dGet (.var n) (setCtrl k s'.cur) = dGet (.var n) s'.cur := by
    intro n hn
    refine setCtrl_other fun m hm e => ?_
    cases e
    exact hn (hΓ _ hm)
  refine ⟨h.ups, h.lv, h.cups, h.clv, h.defs, ?_, ?_, h.cquiet, ?_, ?_, ?_⟩
  · intro n v hn hv
    rw [show ({ s' with cur := setCtrl k s'.cur, recs := l } : RSt).cur = setCtrl k s'.cur from rfl, hg n hn] at hv
    exact h.plain n v hn hv
  · exact (setCtrl_other (by intros; simp)).trans h.up
  · intro n hn hn' hno
    exact ⟨(hg n hn').trans (h.quiet n hn hn' hno).1, (h.quiet n hn hn' hno).2⟩
  · intro n y hn hn' hno hy
    exact ⟨(hg n hn').trans (h.keep n y hn hn' hno hy).1, (h.keep n y hn hn' hno hy).2⟩
  · intro n hn hl hm h1 h2
    obtain ⟨kk, y, g1, g2, g3, g4, g5⟩ := h.take n hn hl hm h1 h2
    exact ⟨kk, y, g1, g2, g3, (hg n (by rw [g1]; simp)).trans g4, g5⟩

/-- the fields for which code has been generated -/
theorem gen_look {Γ : Kinds} {L : List Name} {D : List VKey} {c : RCtx} {cc : FunCtx} {s s' : RSt} {cs cs' : FunSt} (h : LookSt Γ L D s cs)
    {depth ofs : Nat} {skip : List Nat} {fs : List Expr} {ds ds' : VDicts} {ps : List Piece} {l : Str}
    (hg : genRecord depth ofs skip fs ds = some (ps, ds')) (hok : ∀ p ∈ ps, lookPieceOk Γ L D p = true)
    {es : List Expr} {vals : List Val} (φ : Nat → Nat) (hφ : ∀ i j, i < j → φ i < φ j)
    (h1 : ∀ (j : Nat) e v, es[j]? = some e → vals[j]? = some v →
      (∃ y, v = Val.num y) ∧ φ j ∉ skip ∧ ofs ≤ φ j ∧ fs[φ j - ofs]? = some e)
    (h2 : ∀ i e, i ∉ skip → ofs ≤ i → fs[i - ofs]? = some e → ∃ j, φ j = i ∧ es[j]? = some e ∧
      ∀ src, lineField cc l i (fkind i) = .ok src → vals[j]? = some src ∧ KindVal (fkind i) src)
    (hpy : mapFields c es vals s = .ok s') (hcpp : lookPieces (lineField cc l) ps cs = .ok cs') :
    LookStep Γ L D [ps] s s' cs cs' ∧ s'.look = s.look ∧ s'.ofs = s.ofs ∧ cs'.ls = cs.ls := by
  obtain ⟨g1, g2⟩ := genRecord_spec hg
  refine ⟨rec_look h hok hφ ?_ ?_ hpy hcpp, ?_⟩
  · intro j e v he hv
    obtain ⟨a, b, b', d⟩ := h1 j e v he hv
    obtain ⟨p, hp, hf, hpe⟩ := g2 (φ j - ofs) e (by rwa [Nat.sub_add_cancel b']) d
    exact ⟨a, p, hp, by rw [hf, Nat.sub_add_cancel b'], hpe⟩
  · intro p hp
    obtain ⟨a1, a2, a3, a4, _⟩ := g1 p hp
    obtain ⟨j, b1, b2, b3⟩ := h2 p.fld p.e a1 a2 a3
    have hk : p.kind = fkind p.fld := a4
    refine ⟨j, b1, b2, fun src hs => ?_⟩
    rw [hk] at hs ⊢
    exact b3 src hs
  · obtain ⟨vs, hcs⟩ := lookPieces_st hcpp
    unfold mapFields at hpy
    obtain ⟨cur, _, hs'⟩ := lift_ok hpy
    cases hs'
    exact ⟨rfl, rfl, by rw [hcs]⟩

theorem kind_num {k : CKind} {v : Val} (h : KindVal k v) (hk : k.isNum = true) : ∃ y, v = .num y := by
  cases k with
  | flt => obtain ⟨q, rfl⟩ := h; exact ⟨_, rfl⟩
  | int => obtain ⟨q, rfl⟩ := h; exact ⟨_, rfl⟩
  | _ => cases hk

theorem fkind_num (i : Nat) : (fkind i).isNum = true := by unfold fkind; split <;> rfl

/-- the first line of a record -/
theorem act_look {Γ : Kinds} {c : RCtx} {cc : FunCtx} (hb : Both Γ c cc) {L : List Name} {D : List VKey} {s s' : RSt} {cs cs' : FunSt}
    (h : LookSt Γ L D s cs) (hh : Here c s cs) {depth : Nat} {a : Act} {ds ds' : VDicts} {ps : List Piece}
    (hg : genHead depth a ds = some (ps, ds')) (hok : ∀ p ∈ ps, lookPieceOk Γ L D p = true) (hwf : ActWF a)
    (hone : a.oneLine = true ∨ s.look = some 0) (hpy : readAct c a s = .ok s')
    (hcpp : lookPieces (lineField cc (nextLine cs.ls).1) ps { cs with line := (nextLine cs.ls).1, ls := (nextLine cs.ls).2 } = .ok cs') :
    LookStep Γ L D [ps] s s' cs cs' ∧ s'.look = s.look ∧ (a.oneLine = true → Here c s' cs') := by
  -- a line with six fields
  have hline : ∀ {r : ContRec} {ofs1 ofs' : Nat} {sp : List (Nat × Nat)} {skip : List Nat} {fs es : List Expr} {vals : List Val} {s2 : RSt}
      (φ : Nat → Nat), (∀ i j, i < j → φ i < φ j) → readCont c.ro c.lines s.ofs = .ok (r, ofs1) →
      genRecord depth 0 skip fs ds = some (ps, ds') → fs.length = 6 →
      (∀ (j : Nat) e v, es[j]? = some e → vals[j]? = some v → φ j ∉ skip ∧ fs[φ j]? = some e ∧ r.vals[φ j]? = some v) →
      (∀ i e, i ∉ skip → fs[i]? = some e → ∃ j, φ j = i ∧ es[j]? = some e ∧ ∀ v, r.vals[i]? = some v → vals[j]? = some v) →
      mapFields c es vals { s with ofs := ofs', spans := sp } = .ok s2 →
      LookStep Γ L D [ps] s s2 cs cs' ∧ s2.look = s.look ∧ (ofs' = s.ofs + 1 → Here c s2 cs') ∧ ofs1 = s.ofs + 1 := by
    intro r ofs1 ofs' sp skip fs es vals s2 φ hφ hr hgr hlen h1 h2 hm
    obtain ⟨rfl, l, hdrop, hpl, -, -, hkv, hfld, -, -⟩ := cont_agree hb.width hb.pres hb.plain hr
    have hnl : nextLine cs.ls = (l, c.lines.drop (s.ofs + 1)) := by rw [hh, hdrop]; rfl
    rw [hnl] at hcpp
    dsimp only at hcpp
    have h0 : LookSt Γ L D { s with ofs := ofs', spans := sp } { cs with line := l, ls := c.lines.drop (s.ofs + 1) } :=
      ⟨h.lv, h.lvok, h.plain, h.defs⟩
    obtain ⟨e1, e2, e3, e4⟩ := gen_look h0 hgr hok φ hφ (by
      intro j e v he hv
      obtain ⟨a, b, d⟩ := h1 j e v he hv
      exact ⟨kind_num (hkv _ _ d) (fkind_num _), a, Nat.zero_le _, b⟩) (by
      intro i e hi _ he
      obtain ⟨j, a, b, d⟩ := h2 i e hi he
      refine ⟨j, a, b, fun src hs => ?_⟩
      have hi6 : i < 6 := by rw [← hlen]; exact (List.getElem?_eq_some_iff.1 he).1
      have := hfld i hi6 cc hb.acc src hs
      exact ⟨d _ this, hkv _ _ this⟩) hm hcpp
    refine ⟨e1.from, e2, fun ho => ?_, rfl⟩
    show cs'.ls = c.lines.drop s2.ofs
    rw [e4, e3, ← ho]
  have hstop : ∀ {s2 : RSt}, s2.look = s.look → a.oneLine = false → s2.proceed = none := by
    intro s2 h2 ha
    rcases hone with ho | ho
    · rw [ha] at ho; cases ho
    · unfold RSt.proceed; rw [h2, ho]; rfl
  cases a with
  | cont hd k0 fs =>
    simp only [genHead] at hg
    simp only [readAct] at hpy
    obtain ⟨r, ofs', _, h2, _, hp1⟩ := takeRec_ok hb hpy
    obtain ⟨_, _, hp2⟩ := lift_ok hp1
    obtain ⟨s2, hs2, hp3⟩ := andThen_ok hp2
    obtain ⟨e1, e2, e3, e4⟩ := hline (fun i => i) (fun i j h => h) h2 hg hwf (fun j e v he hv => ⟨by simp, he, hv⟩)
      (fun i e _ he => ⟨i, rfl, he, fun v hv => hv⟩) hs2
    simp only [logRec, Out.ok.injEq] at hp3
    cases hd with
    | false =>
      simp only [Bool.false_eq_true, if_false] at hp3
      subst hp3
      exact ⟨e1.log _, e2, fun _ => e3 e4⟩
    | true =>
      simp only [if_true] at hp3
      subst hp3
      exact ⟨e1.ctrl hb.ctl _ _, e2, fun _ => e3 e4⟩
  | dir k0 fs =>
    simp only [genHead] at hg
    simp only [readAct] at hpy
    obtain ⟨r, ofs', _, h2, _, hp1⟩ := takeRec_ok hb hpy
    obtain ⟨_, _, hp2⟩ := lift_ok hp1
    obtain ⟨s2, hs2, hp3⟩ := andThen_ok hp2
    simp only [logRec, Out.ok.injEq] at hp3
    obtain ⟨rfl, l, hdrop, hpl, hfld⟩ := dir_agree hb.width hb.plain h2
    have hnl : nextLine cs.ls = (l, c.lines.drop (s.ofs + 1)) := by rw [hh, hdrop]; rfl
    rw [hnl] at hcpp
    dsimp only at hcpp
    have h0 : LookSt Γ L D { s with ofs := s.ofs + 1, spans := s.spans ++ [(s.ofs, s.ofs + 1)] }
        { cs with line := l, ls := c.lines.drop (s.ofs + 1) } := ⟨h.lv, h.lvok, h.plain, h.defs⟩
    have hwf : fs.length = 4 := hwf
    obtain ⟨e1, e2, e3, e4⟩ := gen_look h0 hg hok (· + 2) (fun i j h => by omega) (by
      intro j e v he hv
      refine ⟨?_, by simp, by omega, by simpa using he⟩
      rcases j with _ | _ | _ | _ | i <;>
        simp only [List.getElem?_cons_zero, List.getElem?_cons_succ, List.getElem?_nil, Option.some.injEq, reduceCtorEq] at hv
      all_goals exact ⟨_, hv.symm⟩) (by
      intro i e _ hi he
      refine ⟨i - 2, by omega, he, fun src hs => ?_⟩
      have hi4 : i - 2 < 4 := by rw [← hwf]; exact (List.getElem?_eq_some_iff.1 he).1
      have hk : fkind i = .int := by unfold fkind; rw [if_neg (by omega)]
      rw [hk] at hs ⊢
      refine ⟨hfld (i - 2) hi4 cc src (by rw [Nat.sub_add_cancel hi]; exact hs), ?_⟩
      simp only [lineField, cbind_ok'] at hs
      obtain ⟨m, _, hs⟩ := hs
      cases hs
      exact ⟨_, rfl⟩) hs2 hcpp
    subst hp3
    refine ⟨e1.from.log _, e2, fun _ => ?_⟩
    show cs'.ls = c.lines.drop s2.ofs
    rw [e4, e3]
  | tab1 k0 fs x y name =>
    simp only [genHead] at hg
    simp only [readAct] at hpy
    obtain ⟨r, ofs', _, h2, _, hp1⟩ := takeRec_ok hb hpy
    obtain ⟨_, _, hp2⟩ := lift_ok hp1
    obtain ⟨s2, hs2, hp3⟩ := andThen_ok hp2
    unfold readTab1 at h2
    simp only [bind_ok, pure_ok, Prod.exists, Prod.mk.injEq] at h2
    obtain ⟨hd, ofs1, hd1, v1, ofs2, hv1, v2, ofs3, hv2, rfl, rfl⟩ := h2
    dsimp only at hs2 hp3
    obtain ⟨e1, e2, e3, e4⟩ := hline (fun i => i) (fun i j h => h) hd1 hg hwf (by
      intro j e v he hv
      rw [List.getElem?_take] at he hv
      split at he
      · rename_i hj
        rw [if_pos hj] at hv
        exact ⟨by simp; omega, he, hv⟩
      · cases he) (by
      intro i e hi he
      have hi6 : i < 6 := by rw [← show fs.length = 6 from hwf]; exact (List.getElem?_eq_some_iff.1 he).1
      have hi4 : i < 4 := by simp at hi; omega
      exact ⟨i, rfl, by rw [List.getElem?_take, if_pos hi4]; exact he, fun v hv => by rw [List.getElem?_take, if_pos hi4]; exact hv⟩) hs2
    rw [hstop e2 rfl] at hp3
    cases hp3
    exact ⟨e1, e2, by simp [Act.oneLine]⟩
  | tab2 k0 fs name =>
    simp only [genHead] at hg
    simp only [readAct] at hpy
    obtain ⟨r, ofs', _, h2, _, hp1⟩ := takeRec_ok hb hpy
    obtain ⟨_, _, hp2⟩ := lift_ok hp1
    obtain ⟨s2, hs2, hp3⟩ := andThen_ok hp2
    unfold readTab2 at h2
    simp only [bind_ok, pure_ok, Prod.exists, Prod.mk.injEq] at h2
    obtain ⟨hd, ofs1, hd1, v1, ofs2, hv1, rfl, rfl⟩ := h2
    dsimp only at hs2 hp3
    have h6 : fs.length = 6 := hwf
    obtain ⟨w0, w1, w2, w3, w4, w5, hvals⟩ : ∃ w0 w1 w2 w3 w4 w5, hd.vals = [w0, w1, w2, w3, w4, w5] := ⟨_, _, _, _, _, _, rfl⟩
    obtain ⟨g0, g1, g2, g3, g4, g5, hfs⟩ : ∃ g0 g1 g2 g3 g4 g5, fs = [g0, g1, g2, g3, g4, g5] := by
      rcases fs with _ | ⟨g0, _ | ⟨g1, _ | ⟨g2, _ | ⟨g3, _ | ⟨g4, _ | ⟨g5, _ | ⟨g6, fs⟩⟩⟩⟩⟩⟩⟩ <;> simp at h6
      exact ⟨_, _, _, _, _, _, rfl⟩
    obtain ⟨e1, e2, e3, e4⟩ := hline (fun i => if i < 4 then i else i + 1) (fun i j h => by split <;> split <;> omega) hd1 hg hwf (by
      intro j e v he hv
      rw [hvals] at hv
      rw [hfs] at he
      rw [hvals, hfs]
      rcases j with _ | _ | _ | _ | _ | j <;> simp at he hv ⊢ <;> exact ⟨he, hv⟩) (by
      intro i e hi he
      rw [hvals]
      rw [hfs] at he ⊢
      rcases i with _ | _ | _ | _ | _ | _ | i
      · exact ⟨0, rfl, he, fun v hv => hv⟩
      · exact ⟨1, rfl, he, fun v hv => hv⟩
      · exact ⟨2, rfl, he, fun v hv => hv⟩
      · exact ⟨3, rfl, he, fun v hv => hv⟩
      · simp at hi
      · exact ⟨4, rfl, he, fun v hv => hv⟩
      · simp at he) hs2
    rw [hstop e2 rfl] at hp3
    cases hp3
    exact ⟨e1, e2, by simp [Act.oneLine]⟩
  | list k0 fs body name =>
    simp only [genHead] at hg
    simp only [readAct] at hpy
    obtain ⟨r, ofs', _, h2, _, hp1⟩ := takeRec_ok hb hpy
    obtain ⟨_, _, hp2⟩ := lift_ok hp1
    obtain ⟨s2, hs2, hp3⟩ := andThen_ok hp2
    have hd1 : ∃ ofs1, readCont c.ro c.lines s.ofs = .ok (r.head, ofs1) := by
      unfold readList at h2
      simp only [bind_ok, Prod.exists] at h2
      obtain ⟨hd, ofs1, hd1, h2⟩ := h2
      split at h2
      · simp only [Except.ok.injEq, Prod.mk.injEq] at h2
        obtain ⟨rfl, _⟩ := h2
        exact ⟨_, hd1⟩
      · simp only [bind_ok, pure_ok, Prod.exists, Prod.mk.injEq] at h2
        obtain ⟨v1, ofs2, hv1, rfl, rfl⟩ := h2
        exact ⟨_, hd1⟩
    obtain ⟨ofs1, hd1⟩ := hd1
    obtain ⟨e1, e2, e3, e4⟩ := hline (fun i => i) (fun i j h => h) hd1 hg hwf (fun j e v he hv => ⟨by simp, he, hv⟩)
      (fun i e _ he => ⟨i, rfl, he, fun v hv => hv⟩) hs2
    rw [hstop e2 rfl] at hp3
    cases hp3
    exact ⟨e1, e2, by simp [Act.oneLine]⟩
  | _ => simp [genHead] at hg

/-- nothing is read behind the last step -/
theorem readProg_stopped {c : RCtx} {p : Prog} {s : RSt} (h : s.look = some 0) : readProg c p s = .ok s := by
  induction p with
  | skip => rfl
  | seq a b iha ihb => simp only [readProg, iha, Out.andThen, ihb]
  | act a => simp only [readProg, RSt.proceed, h]; rfl
  | sect r body ih => simp [readProg, RSt.stopped, h]
  | loop v a b body ih => simp [readProg, RSt.stopped, h]
  | ite cond look thn els iht ihe => simp [readProg, RSt.stopped, h]
  | abbr n e => simp [readProg, RSt.stopped, h]

theorem runLook_app {cc : FunCtx} {a b : List (List Piece)} {s s' : FunSt} (h : runLook cc (a ++ b) s = .ok s') :
    ∃ s1, runLook cc a s = .ok s1 ∧ runLook cc b s1 = .ok s' := by
  induction a generalizing s with
  | nil => exact ⟨s, rfl, h⟩
  | cons ps a ih =>
    simp only [List.cons_append, runLook, cbind_ok'] at h ⊢
    obtain ⟨s1, h1, h2⟩ := h
    obtain ⟨s2, h3, h4⟩ := ih h2
    exact ⟨s2, ⟨s1, h1, h3⟩, h4⟩

/-- the part of a recipe that is looked at -/
theorem prog_look {Γ : Kinds} {c : RCtx} {cc : FunCtx} (hb : Both Γ c cc) {L : List Name} {D : List VKey} {depth : Nat} {p : Prog} :
    ∀ {n m : Nat} {s s' : RSt} {cs cs' : FunSt} {ds ds' : VDicts} {steps : List (List Piece)}, LookSt Γ L D s cs → (n ≠ 0 → Here c s cs) →
      genLook depth p n ds = some (steps, m, ds') → (∀ ps ∈ steps, ∀ p ∈ ps, lookPieceOk Γ L D p = true) → WF p → s.look = some (n : Int) →
      readProg c p s = .ok s' → runLook cc steps cs = .ok cs' →
      LookStep Γ L D steps s s' cs cs' ∧ s'.look = some (m : Int) ∧ (m ≠ 0 → Here c s' cs') := by
  have hzero : ∀ {p : Prog} {m : Nat} {s s' : RSt} {cs cs' : FunSt} {ds ds' : VDicts} {steps : List (List Piece)}, LookSt Γ L D s cs →
      genLook depth p 0 ds = some (steps, m, ds') → s.look = some ((0 : Nat) : Int) →
      readProg c p s = .ok s' → runLook cc steps cs = .ok cs' →
      LookStep Γ L D steps s s' cs cs' ∧ s'.look = some (m : Int) ∧ (m ≠ 0 → Here c s' cs') := by
    intro p m s s' cs cs' ds ds' steps h hg hl hpy hcpp
    rw [readProg_stopped hl] at hpy
    cases hpy
    simp only [genLook, Option.some.injEq, Prod.mk.injEq] at hg
    obtain ⟨rfl, rfl, rfl⟩ := hg
    cases hcpp
    exact ⟨LookStep.nil h, hl, by simp⟩
  induction p with
  | skip =>
    intro n m s s' cs cs' ds ds' steps h hh hg hok hwf hl hpy hcpp
    cases n with
    | zero => exact hzero h hg hl hpy hcpp
    | succ n =>
      simp only [genLook, Option.some.injEq, Prod.mk.injEq] at hg
      obtain ⟨rfl, rfl, rfl⟩ := hg
      cases hpy; cases hcpp
      exact ⟨LookStep.nil h, hl, hh⟩
  | seq a b iha ihb =>
    intro n m s s' cs cs' ds ds' steps h hh hg hok hwf hl hpy hcpp
    cases n with
    | zero => exact hzero h hg hl hpy hcpp
    | succ n =>
      simp only [genLook, Option.bind_eq_bind, Option.bind_eq_some_iff, Option.pure_def, Option.some.injEq, Prod.mk.injEq] at hg
      obtain ⟨⟨x, m1, ds1⟩, hx, ⟨y, m2, ds2⟩, hy, rfl, rfl, rfl⟩ := hg
      obtain ⟨s1, hp1, hp2⟩ := andThen_ok hpy
      obtain ⟨cs1, hc1, hc2⟩ := runLook_app hcpp
      obtain ⟨a1, a2, a3⟩ := iha h hh hx (fun ps hps => hok ps (List.mem_append_left _ hps)) hwf.1 hl hp1 hc1
      obtain ⟨b1, b2, b3⟩ := ihb (h.step a1) a3 hy (fun ps hps => hok ps (List.mem_append_right _ hps)) hwf.2 a2 hp2 hc2
      exact ⟨a1.trans b1, b2, b3⟩
  | act a =>
    intro n m s s' cs cs' ds ds' steps h hh hg hok hwf hl hpy hcpp
    cases n with
    | zero => exact hzero h hg hl hpy hcpp
    | succ n =>
      simp only [genLook] at hg
      split at hg
      · rename_i hone
        simp only [Option.bind_eq_bind, Option.bind_eq_some_iff, Option.pure_def, Option.some.injEq, Prod.mk.injEq] at hg
        obtain ⟨⟨ps, ds1⟩, hps, rfl, rfl, rfl⟩ := hg
        have hpr : s.proceed = some { s with look := some (n : Int) } := by
          unfold RSt.proceed
          rw [hl]
          dsimp only
          rw [if_neg (by omega)]
          simp
        simp only [readProg, hpr] at hpy
        simp only [runLook, cbind_ok'] at hcpp
        obtain ⟨cs1, hc1, hc2⟩ := hcpp
        cases hc2
        have hh0 : Here c { s with look := some (n : Int) } cs := hh (by omega)
        obtain ⟨a1, a2, a3⟩ := act_look (s := { s with look := some (n : Int) }) hb ⟨h.lv, h.lvok, h.plain, h.defs⟩ hh0 hps
          (hok ps (by simp)) hwf (by
            simp only [Bool.or_eq_true, decide_eq_true_eq] at hone
            rcases hone with h | h
            · exact .inl h
            · right; subst h; rfl) hpy hc1
        refine ⟨⟨a1.ups, a1.lv, a1.cups, a1.clv, a1.defs, a1.plain, a1.up, a1.cquiet, a1.quiet, a1.keep, a1.take⟩, a2, fun hn => a3 ?_⟩
        simp only [Bool.or_eq_true, decide_eq_true_eq] at hone
        rcases hone with h | h
        · exact h
        · exact absurd h hn
      · cases hg
  | sect r body ih =>
    intro n m s s' cs cs' ds ds' steps h hh hg hok hwf hl hpy hcpp
    cases n with
    | zero => exact hzero h hg hl hpy hcpp
    | succ n => simp [genLook] at hg
  | loop v a b body ih =>
    intro n m s s' cs cs' ds ds' steps h hh hg hok hwf hl hpy hcpp
    cases n with
    | zero => exact hzero h hg hl hpy hcpp
    | succ n => simp [genLook] at hg
  | ite cond look thn els iht ihe =>
    intro n m s s' cs cs' ds ds' steps h hh hg hok hwf hl hpy hcpp
    cases n with
    | zero => exact hzero h hg hl hpy hcpp
    | succ n => simp [genLook] at hg
  | abbr x e =>
    intro n m s s' cs cs' ds ds' steps h hh hg hok hwf hl hpy hcpp
    cases n with
    | zero => exact hzero h hg hl hpy hcpp
    | succ n => simp [genLook] at hg

/-! ### the condition -/

theorem genHead_fields {depth : Nat} {a : Act} {ds ds' : VDicts} {ps : List Piece} (hg : genHead depth a ds = some (ps, ds')) (hwf : ActWF a)
    {p : Piece} (hp : p ∈ ps) : p.e ∈ headFields a := by
  cases a with
  | cont hd k0 fs => exact List.mem_of_getElem? ((genRecord_spec hg).1 p hp).2.2.1
  | dir k0 fs => exact List.mem_of_getElem? ((genRecord_spec hg).1 p hp).2.2.1
  | list k0 fs body name => exact List.mem_of_getElem? ((genRecord_spec hg).1 p hp).2.2.1
  | tab1 k0 fs x y name =>
    obtain ⟨h1, _, h3, _⟩ := (genRecord_spec hg).1 p hp
    have hi6 : p.fld - 0 < 6 := by rw [← show fs.length = 6 from hwf]; exact (List.getElem?_eq_some_iff.1 h3).1
    have hi4 : p.fld - 0 < 4 := by simp at h1; omega
    simp only [headFields]
    exact List.mem_of_getElem? (i := p.fld - 0) (by rw [List.getElem?_take, if_pos hi4]; exact h3)
  | tab2 k0 fs name =>
    obtain ⟨h1, _, h3, _⟩ := (genRecord_spec hg).1 p hp
    simp only [headFields, List.mem_append]
    by_cases hi4 : p.fld - 0 < 4
    · left
      exact List.mem_of_getElem? (i := p.fld - 0) (by rw [List.getElem?_take, if_pos hi4]; exact h3)
    · right
      refine List.mem_of_getElem? (i := p.fld - 5) ?_
      rw [List.getElem?_drop, ← h3]
      congr 1
      simp at h1
      omega
  | _ => simp [genHead] at hg

theorem genLook_fields {depth : Nat} {p : Prog} : ∀ {n m : Nat} {ds ds' : VDicts} {steps : List (List Piece)},
    genLook depth p n ds = some (steps, m, ds') → WF p →
    (lookFields p n).2 = m ∧ ∀ ps ∈ steps, ∀ q ∈ ps, q.e ∈ (lookFields p n).1 := by
  have hzero : ∀ {p : Prog} {m : Nat} {ds ds' : VDicts} {steps : List (List Piece)}, genLook depth p 0 ds = some (steps, m, ds') →
      (lookFields p 0).2 = m ∧ ∀ ps ∈ steps, ∀ q ∈ ps, q.e ∈ (lookFields p 0).1 := by
    intro p m ds ds' steps hg
    simp only [genLook, Option.some.injEq, Prod.mk.injEq] at hg
    obtain ⟨rfl, rfl, rfl⟩ := hg
    exact ⟨by simp [lookFields], by simp⟩
  induction p with
  | skip =>
    intro n m ds ds' steps hg _
    cases n with
    | zero => exact hzero hg
    | succ n =>
      simp only [genLook, Option.some.injEq, Prod.mk.injEq] at hg
      obtain ⟨rfl, rfl, rfl⟩ := hg
      exact ⟨by simp [lookFields], by simp⟩
  | seq a b iha ihb =>
    intro n m ds ds' steps hg hwf
    cases n with
    | zero => exact hzero hg
    | succ n =>
      simp only [genLook, Option.bind_eq_bind, Option.bind_eq_some_iff, Option.pure_def, Option.some.injEq, Prod.mk.injEq] at hg
      obtain ⟨⟨x, m1, ds1⟩, hx, ⟨y, m2, ds2⟩, hy, rfl, rfl, rfl⟩ := hg
      obtain ⟨a1, a2⟩ := iha hx hwf.1
      obtain ⟨b1, b2⟩ := ihb hy hwf.2
      simp only [lookFields, a1]
      refine ⟨b1, fun ps hps q hq => ?_⟩
      rcases List.mem_append.1 hps with hps | hps
      · exact List.mem_append_left _ (a2 ps hps q hq)
      · exact List.mem_append_right _ (b2 ps hps q hq)
  | act a =>
    intro n m ds ds' steps hg hwf
    cases n with
    | zero => exact hzero hg
    | succ n =>
      simp only [genLook] at hg
      split at hg
      · simp only [Option.bind_eq_bind, Option.bind_eq_some_iff, Option.pure_def, Option.some.injEq, Prod.mk.injEq] at hg
        obtain ⟨⟨ps, ds1⟩, hps, rfl, rfl, rfl⟩ := hg
        refine ⟨rfl, fun qs hqs q hq => ?_⟩
        rw [List.mem_singleton] at hqs
        subst hqs
        exact genHead_fields hps hwf hq
      · cases hg
  | sect r body ih =>
    intro n m ds ds' steps hg _
    cases n with
    | zero => exact hzero hg
    | succ n => simp [genLook] at hg
  | loop v a b body ih =>
    intro n m ds ds' steps hg _
    cases n with
    | zero => exact hzero hg
    | succ n => simp [genLook] at hg
  | ite cond look thn els iht ihe =>
    intro n m ds ds' steps hg _
    cases n with
    | zero => exact hzero hg
    | succ n => simp [genLook] at hg
  | abbr x e =>
    intro n m ds ds' steps hg _
    cases n with
    | zero => exact hzero hg
    | succ n => simp [genLook] at hg

theorem boundOk_congr {Γ Γ' : Kinds} {L : List Name} {Ds : List (List VKey)} {e : Expr}
    (he : ∀ r ∈ e.vars, r.name ∉ L → Γ' r.name = Γ r.name) (h : boundOk Γ L Ds e = true) : boundOk Γ' L Ds e = true := by
  simp only [boundOk, Bool.and_eq_true, List.all_eq_true] at h ⊢
  refine ⟨h.1, fun r hr => ?_⟩
  have := h.2 r hr
  unfold boundRefOk at this ⊢
  split at this
  · rename_i hL; rw [if_pos hL]; exact this
  · rename_i hL
    rw [if_neg hL, he r hr (by simpa using hL)]; exact this

theorem condOk_congr {Γ Γ' : Kinds} {L : List Name} {Ds : List (List VKey)} {c : Cond}
    (he : ∀ r ∈ Cond.vars c, r.name ∉ L → Γ' r.name = Γ r.name) (h : condOk Γ L Ds c = true) : condOk Γ' L Ds c = true := by
  induction c with
  | cmp r a b =>
    simp only [condOk, Bool.and_eq_true] at h ⊢
    exact ⟨boundOk_congr (fun r hr => he r (by simp [Cond.vars, hr])) h.1, boundOk_congr (fun r hr => he r (by simp [Cond.vars, hr])) h.2⟩
  | and a b iha ihb =>
    simp only [condOk, Bool.and_eq_true] at h ⊢
    exact ⟨iha (fun r hr => he r (by simp [Cond.vars, hr])) h.1, ihb (fun r hr => he r (by simp [Cond.vars, hr])) h.2⟩
  | or a b iha ihb =>
    simp only [condOk, Bool.and_eq_true] at h ⊢
    exact ⟨iha (fun r hr => he r (by simp [Cond.vars, hr])) h.1, ihb (fun r hr => he r (by simp [Cond.vars, hr])) h.2⟩

/-- a condition without a lookahead is decided alike -/
theorem cond_here {Γ M : Kinds} {k : Ctrl} {L : List Name} {D : List VKey} {U : List (List VKey)}
    {s : RSt} {cs : FunSt} (h : Rel Γ M k L D U s cs) {cond : Cond} (hc : condOk (withCtl M) L (D :: U) cond = true)
    (hkn : CtlKnown s cond) {fuel : Nat} {b b' : Bool} (he : evalCond fuel s.env cond = .ok b) (hec : condC cs cond = .ok b') : b = b' := by
  let Γ' : Kinds := fun x => if ∃ r ∈ Cond.vars cond, r.name = x then withCtl M x else none
  have henv := h.lvls.envs (L := L) h.lvok
  have hps : Pairs Γ' (pairsOf s.cur cs.cur s.ups cs.ups) := by
    intro p hp
    obtain ⟨p1, p2, p3⟩ := henv.pairs p hp
    have key : ∀ x kk ar, Γ' x = some (kk, ar) →
        (∀ v, dGet (.var x) p.1 = some v → DeepT kk ar v) ∧
        (∀ t, dGet (x, ar) p.2.vars = some t → (x, ar) ∈ p.2.defs ∧ GoodT ar t ∧ DeepT kk ar t.toPy) ∧
        ∀ is, is.length = ar → look p.1 x is = clook p.2 x ar is := by
      intro x kk ar hx
      simp only [Γ', withCtl, List.contains_eq_mem, decide_eq_true_eq] at hx
      split at hx
      · rename_i hr
        obtain ⟨r, hr, rfl⟩ := hr
        split at hx
        · rename_i hc
          cases hx
          exact ctl_pair (h.lvls.ctlPairs hc (hkn r hr hc) p hp)
        · exact ⟨fun v => p1 _ kk ar v hx, fun t => p2 _ kk ar t hx, p3 _ kk ar hx⟩
      · cases hx
    exact ⟨fun x kk ar v hx => (key x kk ar hx).1 v, fun x kk ar t hx => (key x kk ar hx).2.1 t, fun x kk ar hx => (key x kk ar hx).2.2⟩
  have hlv : s.env = ⟨s.cur, s.ups.map Prod.fst, cs.lv⟩ := by unfold RSt.env RSt.outer; rw [h.lv]
  rw [hlv] at he
  refine cond_agree (Γ := Γ') ⟨hps, henv.fst, henv.snd, henv.lnk, henv.lv⟩ ?_ he hec
  rw [pairsOf_defs h.lvls, h.defs, h.outer]
  refine condOk_congr (fun r hr _ => ?_) hc
  simp only [Γ']
  rw [if_pos ⟨r, hr, rfl⟩]

/-- a condition is decided alike behind a lookahead -/
theorem cond_look {Γ M : Kinds} {c : RCtx} {cc : FunCtx} (hb : Both Γ c cc) {k : Ctrl} {L : List Name} {D : List VKey} {U : List (List VKey)}
    {s s' : RSt} {cs cs' : FunSt} (h : Rel Γ M k L D U s cs) (hh : Here c s cs) {depth n : Nat} {t : Prog} {ds ds' : VDicts} {m : Nat}
    {steps : List (List Piece)} {cond : Cond} (hg : genLook depth t n ds = some (steps, m, ds')) (hwf : WF t)
    (hpy : readProg c t { s with look := some (n : Int), ignoreAll := true } = .ok s') (hcpp : runLook cc steps cs = .ok cs')
    (hlk : lookOk Γ L D steps cond = true) (hc : condOk (withCtl M) L (D :: U) cond = true)
    (hkn : CtlKnown s cond) (hsame : ∀ r ∈ Cond.vars cond, r.name ∈ ctlNames → dGet (.var r.name) s'.cur = dGet (.var r.name) s.cur)
    (hun : ∀ r ∈ Cond.vars cond, LookedAt r.name t n → dGet r.name s.lv = none → dGet (.var r.name) s.cur = none)
    {b b' : Bool} (he : evalCond c.fuel (s'.envAt s.ups.length) cond = .ok b) (hec : condC cs' cond = .ok b') : b = b' := by
  simp only [lookOk, Bool.and_eq_true, List.all_eq_true, Bool.or_eq_true, List.contains_eq_mem, decide_eq_true_eq] at hlk
  obtain ⟨hok, hnames⟩ := hlk
  have hblk := h.blk
  have hst : LookSt Γ L D { s with look := some (n : Int), ignoreAll := true } cs := ⟨h.lv, h.lvok, TypedD.noAbb hblk.typed, h.defs⟩
  obtain ⟨e, -, -⟩ := prog_look hb hst (fun _ => hh) hg hok hwf rfl hpy hcpp
  have e1 : s'.ups = s.ups := e.ups
  have e2 : s'.lv = s.lv := e.lv
  have e3 : cs'.ups = cs.ups := e.cups
  have e4 : cs'.lv = cs.lv := e.clv
  have e5 : cs'.cur.defs = D := e.defs.trans h.defs
  let Γ' : Kinds := fun x => if (∃ r ∈ Cond.vars cond, r.name = x) ∧ x ∉ L then withCtl M x else none
  have hle : ∀ x v, Γ' x = some v → (M x = some v ∧ x ∉ ctlNames ∨ v = (.int, 0) ∧ x ∈ ctlNames) ∧ (∃ r ∈ Cond.vars cond, r.name = x) ∧ x ∉ L := by
    intro x v hx
    simp only [Γ', withCtl, List.contains_eq_mem, decide_eq_true_eq] at hx
    split at hx
    · rename_i hh
      split at hx
      · rename_i hc; exact ⟨.inr ⟨by cases hx; rfl, hc⟩, hh⟩
      · rename_i hc; exact ⟨.inl ⟨hx, hc⟩, hh⟩
    · cases hx
  have hctl : ∀ x, (∃ r ∈ Cond.vars cond, r.name = x) → x ∈ ctlNames → ∀ p ∈ pairsOf s.cur cs.cur s.ups cs.ups,
      (dGet (.var x) p.1 = none ∧ dGet (x, 0) p.2.vars = none) ∨
      ∃ i : Int, dGet (.var x) p.1 = some (.num (.int i)) ∧ dGet (x, 0) p.2.vars = some (.leaf (.num (.int i))) ∧ (x, 0) ∈ p.2.defs := by
    rintro x ⟨r, hr, rfl⟩ hx
    exact h.lvls.ctlPairs hx (hkn r hr hx)
  have hpairs := h.lvls.pairs
  have hlen := h.lvls.length
  -- the current block
  have hcur : TypedD Γ' s'.cur ∧ GoodV Γ' cs'.cur ∧ AgreeB Γ' s'.cur cs'.cur := by
    have key : ∀ x kk ar, Γ' x = some (kk, ar) →
        (∀ v, dGet (.var x) s'.cur = some v → DeepT kk ar v) ∧
        (∀ t, dGet (x, ar) cs'.cur.vars = some t → (x, ar) ∈ cs'.cur.defs ∧ GoodT ar t ∧ DeepT kk ar t.toPy) ∧
        ∀ is, is.length = ar → look s'.cur x is = clook cs'.cur x ar is := by
      intro x kk ar hx
      obtain ⟨hΓ, ⟨r, hr, rfl⟩, hL⟩ := hle x _ hx
      rcases hΓ with ⟨hΓ, hnc⟩ | ⟨hv, hc⟩
      case inr =>
        cases hv
        have hmn : ∀ ps ∈ steps, ∀ p ∈ ps, mentions r.name p = false := by
          intro ps hps p hp
          cases hmp : mentions r.name p with
          | false => rfl
          | true =>
            exfalso
            simp only [mentions, List.any_eq_true, beq_iff_eq] at hmp
            obtain ⟨q, hq, hqn⟩ := hmp
            have := hok ps hps p hp
            simp only [lookPieceOk, Bool.and_eq_true, List.all_eq_true, Bool.or_eq_true, List.contains_eq_mem, decide_eq_true_eq] at this
            have := this.1 q hq
            rw [hqn] at this
            rcases this with h | h
            · exact hL h
            · rw [hb.ctl _ hc] at h; cases h
        have hp := hctl _ ⟨r, hr, rfl⟩ hc (s.cur, cs.cur) (by simp [pairsOf])
        refine ctl_pair (d := s'.cur) (b := cs'.cur) ?_
        rw [hsame r hr hc, e.cquiet _ hmn 0, e.defs]
        exact hp
      replace hΓ := h.lvls.sub _ _ hΓ
      have hΓ' : Γ r.name ≠ none := by rw [hΓ]; simp
      by_cases hm : ∃ ps ∈ steps, ∃ p ∈ ps, mentions r.name p = true
      · have hla : LookedAt r.name t n := by
          obtain ⟨ps, hps, p, hp, hpm⟩ := hm
          simp only [mentions, List.any_eq_true, beq_iff_eq] at hpm
          obtain ⟨q, hq, hqn⟩ := hpm
          exact ⟨p.e, (genLook_fields hg hwf).2 ps hps p hp, q, hq, hqn⟩
        have hnone := hun r hr hla (by rw [h.lv]; exact h.lvok.2 _ hL)
        have hnl : nameLook Γ D r.name steps = true := by
          rcases hnames r hr with (h | h) | h
          · exact absurd h hL
          · exact absurd h hnc
          · exact h
        have hcnone : ∀ ar, Γ r.name = some (kk, ar) → dGet (r.name, ar) cs.cur.vars = none := by
          intro ar har
          cases hd : dGet (r.name, ar) cs.cur.vars with
          | none => rfl
          | some t =>
            obtain ⟨_, hgt, hdt⟩ := hblk.good.vars _ _ _ _ har hd
            obtain ⟨is, w, hl, hw⟩ := deep_some hdt
            have : look s.cur r.name is = some w := by
              rw [hblk.agree _ _ _ har is hl]; unfold clook; rw [hd]; exact hw
            unfold look at this
            rw [hnone] at this
            cases is <;> cases this
        obtain ⟨k0, y, g1, g2, g3, g4, g5⟩ := e.take r.name hL hnl hm hnone (by
          have : ∃ k0, Γ r.name = some (k0, 0) := by
            clear hcnone hnone hla
            obtain ⟨ps, hps, p, hp, hpm⟩ := hm
            clear hg hpy hcpp hok hnames e
            induction steps with
            | nil => cases hps
            | cons qs steps ih =>
              simp only [nameLook] at hnl
              split at hnl
              · simp only [Bool.and_eq_true, List.any_eq_true] at hnl
                obtain ⟨⟨q, _, ht, _⟩, _⟩ := hnl
                exact ⟨_, (takes_cases ht.1).1⟩
              · rename_i hmm
                rcases List.mem_cons.1 hps with rfl | hps
                · exact absurd (List.any_eq_true.2 ⟨p, hp, hpm⟩) hmm
                · exact ih hnl hps
          obtain ⟨k0, hk0⟩ := this
          rw [hΓ] at hk0
          cases hk0
          exact hcnone 0 hΓ)
        rw [hΓ] at g1
        cases g1
        refine ⟨fun v hv => ?_, fun t ht => ?_, fun is hl => ?_⟩
        · rw [g4] at hv; cases hv; exact g3
        · rw [g5] at ht; cases ht; exact ⟨by rw [e5]; exact g2, trivial, g3⟩
        · have : is = [] := List.length_eq_zero_iff.1 hl
          subst this
          unfold look clook
          rw [g4, g5]
          rfl
      · have hno : ∀ ps ∈ steps, ∀ p ∈ ps, mentions r.name p = false := by
          intro ps hps p hp
          cases hmp : mentions r.name p with
          | false => rfl
          | true => exact absurd ⟨ps, hps, p, hp, hmp⟩ hm
        obtain ⟨q1, q2⟩ := e.quiet r.name hL hΓ' hno
        refine ⟨fun v hv => ?_, fun t ht => ?_, fun is hl => ?_⟩
        · rw [q1] at hv; exact hblk.typed _ _ _ _ hΓ hv
        · rw [q2] at ht
          rw [e.defs]
          exact hblk.good.vars _ _ _ _ hΓ ht
        · have := hblk.agree _ _ _ hΓ is hl
          unfold look clook at this ⊢
          rw [q1, q2]; exact this
    exact ⟨fun x kk ar v hx hv => (key x kk ar hx).1 v hv, fun x kk ar t hx ht => (key x kk ar hx).2.1 t ht,
      fun x kk ar hx is hl => (key x kk ar hx).2.2 is hl⟩
  have hps : Pairs Γ' (pairsOf s'.cur cs'.cur s.ups cs.ups) := by
    intro p hp
    rcases List.mem_cons.1 hp with rfl | hp
    · exact hcur
    · obtain ⟨p1, p2, p3⟩ := hpairs.1 p (List.mem_cons_of_mem _ hp)
      have key : ∀ x kk ar, Γ' x = some (kk, ar) →
          (∀ v, dGet (.var x) p.1 = some v → DeepT kk ar v) ∧
          (∀ t, dGet (x, ar) p.2.vars = some t → (x, ar) ∈ p.2.defs ∧ GoodT ar t ∧ DeepT kk ar t.toPy) ∧
          ∀ is, is.length = ar → look p.1 x is = clook p.2 x ar is := by
        intro x kk ar hx
        obtain ⟨hΓ, hr, _⟩ := hle x _ hx
        rcases hΓ with ⟨hΓ, _⟩ | ⟨hv, hc⟩
        · exact ⟨fun v => p1 x kk ar v hΓ, fun t => p2 x kk ar t hΓ, p3 x kk ar hΓ⟩
        · cases hv
          exact ctl_pair (hctl x hr hc p (List.mem_cons_of_mem _ hp))
      exact ⟨fun x kk ar v hx => (key x kk ar hx).1 v, fun x kk ar t hx => (key x kk ar hx).2.1 t, fun x kk ar hx => (key x kk ar hx).2.2⟩
  have henv : Envs Γ' L (pairsOf s'.cur cs'.cur s.ups cs.ups) s'.cur (s.ups.map Prod.fst) cs' := by
    refine ⟨hps, ?_, ?_, ?_, by rw [e4]; exact h.lvok⟩
    · simp only [pairsOf, List.map_cons, List.cons.injEq, true_and]
      rw [List.map_fst_zip]
      simp [hlen]
    · simp only [pairsOf, List.map_cons, FunSt.blocks, e3, List.cons.injEq, true_and]
      rw [List.map_snd_zip]
      simp [hlen]
    · have hl := hpairs.2
      cases hu : s.ups.map Prod.fst with
      | nil => trivial
      | cons u us =>
        rw [hu] at hl
        refine ⟨?_, hl.2⟩
        have : dHas .up s.cur = true := hl.1
        unfold dHas at this ⊢
        rw [show dGet .up s'.cur = dGet .up s.cur from e.up]; exact this
  have hdefs : (pairsOf s'.cur cs'.cur s.ups cs.ups).map (fun p => p.2.defs) = D :: U := by
    have := pairsOf_defs h.lvls
    simp only [pairsOf, List.map_cons, List.cons.injEq] at this ⊢
    refine ⟨e5, this.2.trans h.outer⟩
  refine cond_agree henv (fuel := c.fuel) (by
    rw [hdefs]
    refine condOk_congr (fun r hr hL => ?_) hc
    simp only [Γ']
    rw [if_pos ⟨⟨r, hr, rfl⟩, hL⟩]) ?_ hec
  have : s'.envAt s.ups.length = ⟨s'.cur, s.ups.map Prod.fst, cs'.lv⟩ := by
    unfold RSt.envAt RSt.outer
    rw [e1, e4, ← h.lv, Nat.sub_self]
    simp only [List.drop_zero, e2]
  rw [← this]; exact he

end Verif.CF
