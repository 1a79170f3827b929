import Verif.Lemmas.Ahead
import Verif.Lemmas.Levels
import Verif.Model.RecipeWrite
/-
Numbers that carry their original text (`EndfFloat`) appear only in the mode `preserve_value_strings`.
-/
namespace Verif

/-- not an `EndfFloat` -/
def PyNum.plain : PyNum → Bool
  | .num (.endf _ _) => false
  | _ => true

def Expr.plain : Expr → Bool
  | .num v | .desired v => v.plain
  | .var _ | .incons _ => true
  | .neg e => e.plain
  | .add a b | .sub a b | .mul a b | .div a b | .mod a b => a.plain && b.plain

/-- no `EndfFloat` anywhere inside -/
inductive PlainV : Val → Prop where
  | num {x : PyNum} (h : x.plain = true) : PlainV (.num x)
  | lst {l : List PyNum} (h : ∀ x ∈ l, x.plain = true) : PlainV (.lst l)
  | dic {d : DDic} (h : ∀ kv ∈ d, PlainV kv.2) : PlainV (.dic d)
  | txt (t : Str) : PlainV (.txt t)
  | abb {e : Expr} (h : e.plain = true) : PlainV (.abb e)
  | mark : PlainV .mark
  | names (l : List Name) : PlainV (.names l)

def PlainD (d : DDic) : Prop := ∀ kv ∈ d, PlainV kv.2

theorem PlainD.nil : PlainD [] := by intro kv h; cases h

theorem PlainD.get {d : DDic} (h : PlainD d) {k : Key} {v : Val} (hv : dGet k d = some v) : PlainV v := h _ (dGet_mem hv)

theorem PlainD.set {d : DDic} (h : PlainD d) {k : Key} {v : Val} (hv : PlainV v) : PlainD (dSet k v d) := by
  induction d with
  | nil =>
    intro kv hk
    simp only [dSet, List.mem_singleton] at hk
    rw [hk]; exact hv
  | cons kv d ih =>
    obtain ⟨k', v'⟩ := kv
    unfold dSet
    have ht : PlainD d := fun x hx => h x (List.mem_cons_of_mem _ hx)
    split
    · intro x hx
      rcases List.mem_cons.1 hx with rfl | hx
      · exact hv
      · exact ht x hx
    · intro x hx
      rcases List.mem_cons.1 hx with rfl | hx
      · exact h _ (by simp)
      · exact ih ht x hx

theorem PlainD.del {d : DDic} (h : PlainD d) {k : Key} : PlainD (dDel k d) := by
  induction d with
  | nil => exact PlainD.nil
  | cons kv d ih =>
    obtain ⟨k', v'⟩ := kv
    unfold dDel
    have ht : PlainD d := fun x hx => h x (List.mem_cons_of_mem _ hx)
    split
    · exact ht
    · intro x hx
      rcases List.mem_cons.1 hx with rfl | hx
      · exact h _ (by simp)
      · exact ih ht x hx

theorem PlainV.toD {d : DDic} (h : PlainV (.dic d)) : PlainD d := by
  cases h with
  | dic h => exact h

theorem getArr_plain {is : List Int} {v w : Val} (hv : PlainV v) (h : getArr v is = .ok w) : PlainV w := by
  induction is generalizing v with
  | nil => unfold getArr at h; cases h; exact hv
  | cons i is ih =>
    cases v with
    | dic d =>
      simp only [getArr] at h
      cases hg : dGet (Key.idx i) d with
      | none => rw [hg] at h; cases h
      | some u => rw [hg] at h; exact ih (hv.toD.get hg) h
    | num _ | lst _ | txt _ | abb _ | mark | names _ => simp [getArr] at h

theorem setArr_plain {is : List Int} {o : Option Val} {v w : Val} (ho : ∀ u, o = some u → PlainV u) (hv : PlainV v)
    (h : setArr o is v = .ok w) : PlainV w := by
  induction is generalizing o w with
  | nil => unfold setArr at h; cases h; exact hv
  | cons i is ih =>
    cases o with
    | none =>
      simp only [setArr, bind_ok, pure_ok] at h
      obtain ⟨new, h1, rfl⟩ := h
      exact .dic (PlainD.nil.set (ih (by simp) h1))
    | some u =>
      cases u with
      | dic d =>
        simp only [setArr, bind_ok, pure_ok] at h
        obtain ⟨new, h1, rfl⟩ := h
        have hd := (ho _ rfl).toD
        exact .dic (hd.set (ih (fun u hu => hd.get hu) h1))
      | num _ | lst _ | txt _ | abb _ | mark | names _ => simp [setArr] at h

structure PlainEnv (env : Env) : Prop where
  cur : PlainD env.cur
  ups : ∀ u ∈ env.ups, PlainD u

theorem getVarval_plain {env : Env} {l : Bool} {r : VarRef} {v : Val} (he : PlainEnv env) (h : getVarval env l r = .ok v) :
    PlainV v := by
  unfold getVarval at h
  split at h
  · cases h
  split at h
  · cases h; exact .num rfl
  split at h
  · cases h
  rename_i d hd
  have hp : PlainD d := by
    have := (findScope_mem hd).1
    rcases List.mem_cons.1 this with rfl | hm
    · exact he.cur
    · exact he.ups _ hm
  split at h
  · cases h
  rename_i u hu
  simp only [bind_ok] at h
  obtain ⟨is, _, h⟩ := h
  exact getArr_plain (hp.get hu) h

theorem plain_op {x y z : PyNum} {c : Bool} : (pAdd x y = .ok z → z.plain = true) ∧ (pSub x y = .ok z → z.plain = true) ∧
    (pMul x y = .ok z → z.plain = true) ∧ (pDiv c x y = .ok z → z.plain = true) ∧ (pMod x y = .ok z → z.plain = true) ∧
    (pNeg x = .ok z → z.plain = true) := by
  refine ⟨?_, ?_, ?_, ?_, ?_, ?_⟩ <;> intro h
  · unfold pAdd at h; split at h
    · cases h; rfl
    · simp only [bind_ok, pure_ok] at h; obtain ⟨_, _, _, _, rfl⟩ := h; rfl
  · unfold pSub at h; split at h
    · cases h; rfl
    · simp only [bind_ok, pure_ok] at h; obtain ⟨_, _, _, _, rfl⟩ := h; rfl
  · unfold pMul at h; split at h
    · cases h; rfl
    · simp only [bind_ok, pure_ok] at h; obtain ⟨_, _, _, _, rfl⟩ := h; rfl
  · unfold pDiv at h; split at h
    · repeat' split at h
      all_goals first | (cases h; rfl) | cases h
    · simp only [bind_ok] at h; obtain ⟨_, _, _, _, h⟩ := h
      split at h
      · cases h
      · cases h; rfl
  · unfold pMod at h; split at h
    · split at h
      · cases h
      · cases h; rfl
    · simp only [bind_ok] at h; obtain ⟨_, _, _, _, h⟩ := h
      split at h
      · cases h
      · cases h; rfl
  · unfold pNeg at h; split at h
    · cases h; rfl
    · simp only [bind_ok, pure_ok] at h; obtain ⟨_, _, rfl⟩ := h; rfl

theorem evalVar_plain {env : Env} {o : EvalOpts} {rec : Expr → Res Lin} {r : VarRef} {v : Lin} (he : PlainEnv env)
    (hr : ∀ e v, e.plain = true → rec e = .ok v → PlainV v.c) (h : evalVar env o rec r = .ok v) : PlainV v.c := by
  unfold evalVar at h
  have hm : ∀ e : Err, (if o.acceptMissing then (.ok ⟨.num (.int 0), .int 1, some r⟩ : Res Lin) else .error e) = .ok v → PlainV v.c := by
    intro e h
    split at h
    · cases h; exact .num rfl
    · cases h
  dsimp only at h
  split at h
  · rename_i e hg
    have hp : e.plain = true := by
      have := getVarval_plain he hg
      cases this with
      | abb h => exact h
    split at h
    · rename_i w hw
      cases h
      exact hr _ _ hp hw
    · exact hm _ h
    · exact hm _ h
    · cases h
  · rename_i w _ hg
    cases h
    exact getVarval_plain he hg
  · exact hm _ h
  · exact hm _ h
  · cases h

theorem evalWith_plain {env : Env} {o : EvalOpts} {rec : Expr → Res Lin} (he : PlainEnv env)
    (hr : ∀ e v, e.plain = true → rec e = .ok v → PlainV v.c) {e : Expr} {v : Lin} (hp : e.plain = true)
    (h : evalWith env o rec e = .ok v) : PlainV v.c := by
  have key : ∀ op : PyNum → PyNum → Res PyNum, (∀ x y z, op x y = .ok z → z.plain = true) → ∀ v1 v2, linAddSub op v1 v2 = .ok v → PlainV v.c := by
    intro op hop v1 v2 h
    unfold linAddSub at h
    split at h
    · cases h
    · simp only [bind_ok, pure_ok] at h
      obtain ⟨_, _, _, _, z, hz, _, _, rfl⟩ := h
      exact .num (hop _ _ _ hz)
  cases e with
  | num x => cases h; exact .num hp
  | desired x => cases h; exact .num hp
  | var r => exact evalVar_plain he hr h
  | incons r => exact evalVar_plain he hr h
  | neg e =>
    simp only [evalWith, bind_ok, linNeg, pure_ok] at h
    obtain ⟨_, _, _, _, z, hz, _, _, rfl⟩ := h
    exact .num ((plain_op (y := z) (c := true)).2.2.2.2.2 hz)
  | add a b =>
    simp only [evalWith, bind_ok] at h
    obtain ⟨_, _, _, _, h⟩ := h
    exact key _ (fun x y z hz => (plain_op (c := true)).1 hz) _ _ h
  | sub a b =>
    simp only [evalWith, bind_ok] at h
    obtain ⟨_, _, _, _, h⟩ := h
    exact key _ (fun x y z hz => (plain_op (c := true)).2.1 hz) _ _ h
  | mul a b =>
    simp only [evalWith, bind_ok] at h
    obtain ⟨_, _, _, _, h⟩ := h
    unfold linMul at h
    split at h
    · cases h
    · split at h
      all_goals
        simp only [bind_ok, pure_ok] at h
        obtain ⟨_, _, _, _, z, hz, _, _, rfl⟩ := h
        exact .num ((plain_op (c := true)).2.2.1 hz)
  | div a b =>
    simp only [evalWith, bind_ok] at h
    obtain ⟨_, _, _, _, h⟩ := h
    unfold linDiv at h
    split at h
    · cases h
    · simp only [bind_ok, pure_ok] at h
      obtain ⟨_, _, _, _, z, hz, _, _, rfl⟩ := h
      exact .num ((plain_op (c := _)).2.2.2.1 hz)
  | mod a b =>
    simp only [evalWith, bind_ok] at h
    obtain ⟨_, _, _, _, h⟩ := h
    unfold linMod at h
    split at h
    · cases h
    · simp only [bind_ok, pure_ok] at h
      obtain ⟨_, _, _, _, z, hz, rfl⟩ := h
      exact .num ((plain_op (c := true)).2.2.2.2.1 hz)

theorem evalExpr_plain {fuel : Nat} {env : Env} {o : EvalOpts} (he : PlainEnv env) {e : Expr} {v : Lin} (hp : e.plain = true)
    (h : evalExpr fuel env o e = .ok v) : PlainV v.c := by
  induction fuel generalizing e v with
  | zero => exact evalWith_plain he (fun _ _ _ h => by cases h) hp h
  | succ n ih => exact evalWith_plain he (fun _ _ hp h => ih hp h) hp h

theorem evalKnown_plain {fuel : Nat} {env : Env} {a b : Bool} (he : PlainEnv env) {e : Expr} {v : Val} (hp : e.plain = true)
    (h : evalKnown fuel env a b e = .ok v) : PlainV v := by
  unfold evalKnown at h
  simp only [bind_ok, pure_ok] at h
  obtain ⟨l, h1, rfl⟩ := h
  exact evalExpr_plain he hp h1

theorem setVarval_plain {cur cur' : DDic} {lv : Dict Name Int} {r : VarRef} {v : Val} (hc : PlainD cur) (hv : PlainV v)
    (h : setVarval cur lv r v = .ok cur') : PlainD cur' := by
  unfold setVarval at h
  simp only [bind_ok, pure_ok] at h
  obtain ⟨is, _, new, h1, rfl⟩ := h
  exact hc.set (setArr_plain (fun u hu => hc.get hu) hv h1)

theorem mapOnce_plain {fuel : Nat} {po : POpts} {ups : List DDic} {lv : Dict Name Int} {fs : List (Expr × Val)}
    {cur cur' : DDic} {f f' : Bool} (hc : PlainD cur) (hf : ∀ p ∈ fs, PlainV p.2)
    (h : mapOnce fuel po ups lv fs cur f = .ok (cur', f')) : PlainD cur' := by
  induction fs generalizing cur f with
  | nil => simp only [mapOnce, Except.ok.injEq, Prod.mk.injEq] at h; rw [← h.1]; exact hc
  | cons p fs ih =>
    obtain ⟨e, src⟩ := p
    have hs : PlainV src := hf (e, src) (by simp)
    have ht : ∀ p ∈ fs, PlainV p.2 := fun p hp => hf p (List.mem_cons_of_mem _ hp)
    unfold mapOnce at h
    split at h
    · exact ih hc ht h
    · cases h
    · split at h
      · split at h
        · cases h
        · split at h
          · cases h
          · exact ih hc ht h
      · split at h
        · cases h
        · rename_i val hsol
          split at h
          · cases h
          · rename_i cur1 hset
            have hv : PlainV val := by
              unfold solveField at hsol
              split at hsol
              · split at hsol
                · cases hsol; exact hs
                · simp only [bind_ok, pure_ok] at hsol
                  obtain ⟨_, _, _, _, z, hz, rfl⟩ := hsol
                  exact .num ((plain_op (c := _)).2.2.2.1 hz)
              · cases hsol
            exact ih (setVarval_plain hc hv hset) ht h

theorem mapRead_plain {fuel : Nat} {po : POpts} {ups : List DDic} {lv : Dict Name Int} {es : List Expr} {vals : List Val}
    {cur cur' : DDic} (hc : PlainD cur) (hv : ∀ v ∈ vals, PlainV v) (h : mapRead fuel po ups lv es vals cur = .ok cur') :
    PlainD cur' := by
  unfold mapRead at h
  have hf : ∀ p ∈ es.zip vals, PlainV p.2 := fun p hp => hv _ (List.of_mem_zip hp).2
  generalize es.zip vals = fs at h hf
  generalize 3 = n at h
  induction n generalizing cur with
  | zero => cases h
  | succ n ih =>
    unfold mapTries at h
    split at h
    · cases h
    · rename_i h1
      cases h
      exact mapOnce_plain hc hf h1
    · rename_i h1
      exact ih (mapOnce_plain hc hf h1) h

theorem mapTextRead_plain {lv : Dict Name Int} {full : Str} {fs : List TextField} {pos : Nat} {cur cur' : DDic} (hc : PlainD cur)
    (h : mapTextRead lv full fs pos cur = .ok cur') : PlainD cur' := by
  induction fs generalizing pos cur with
  | nil => cases h; exact hc
  | cons f fs ih =>
    have key : ∀ upper, (if upper ≤ pos then (.error .sizeMismatch : Res DDic)
        else match f.ref with
          | none => mapTextRead lv full fs upper cur
          | some r => match setVarval cur lv r (.txt (slice full pos upper)) with
            | .error e => .error e
            | .ok cur' => mapTextRead lv full fs upper cur') = .ok cur' → PlainD cur' := by
      intro upper h
      split at h
      · cases h
      · split at h
        · exact ih hc h
        · split at h
          · cases h
          · rename_i cur1 h1
            exact ih (setVarval_plain hc (.txt _) h1) h
    exact key _ h

/-! ## reading -/

theorem readFloat_plain {o : ROpts} (hp : o.preserve = false) {s : Str} {x : Num} (h : readFloat o s = .ok x) :
    (PyNum.num x).plain = true := by
  unfold readFloat fortstr2float at h
  rw [hp] at h
  dsimp only at h
  split at h
  · cases h; rfl
  · split at h
    · cases h; rfl
    · cases h

theorem mapM_all {α β : Type} {P : β → Prop} {f : α → Res β} (hf : ∀ a b, f a = .ok b → P b) {l : List α} {m : List β}
    (h : l.mapM f = .ok m) : ∀ b ∈ m, P b := by
  induction l generalizing m with
  | nil => simp only [List.mapM_nil, pure_ok] at h; subst h; simp
  | cons a l ih =>
    simp only [List.mapM_cons, bind_ok, pure_ok] at h
    obtain ⟨b, h1, m', h2, rfl⟩ := h
    intro x hx
    rcases List.mem_cons.1 hx with rfl | hx
    · exact hf _ _ h1
    · exact ih h2 x hx

theorem readNumbers_plain {o : ROpts} (hp : o.preserve = false) {lines : List Str} {num ofs : Nat} {vals : List Num} {ofs' : Nat}
    (h : readNumbers o lines num ofs = .ok (vals, ofs')) : ∀ x ∈ vals, (PyNum.num x).plain = true := by
  induction num using Nat.strong_induction_on generalizing ofs vals ofs' with
  | _ num ih =>
    rw [readNumbers] at h
    split at h
    · cases h; simp
    · rename_i h0
      simp only [bind_ok, pure_ok] at h
      obtain ⟨l, hl, v1, hv1, ⟨rest, ofs2⟩, hr, h⟩ := h
      cases h
      intro x hx
      rcases List.mem_append.1 hx with hx | hx
      · unfold readFortFloats at hv1
        exact mapM_all (P := fun x => (PyNum.num x).plain = true) (fun _ _ h => readFloat_plain hp h) hv1 x hx
      · exact ih (num - 6) (by omega) hr x hx

structure ContPlain (r : ContRec) : Prop where
  c1 : (PyNum.num r.c1).plain = true
  c2 : (PyNum.num r.c2).plain = true

theorem readCont_plain {o : ROpts} (hp : o.preserve = false) {lines : List Str} {ofs : Nat} {r : ContRec} {ofs' : Nat}
    (h : readCont o lines ofs = .ok (r, ofs')) : ContPlain r := by
  unfold readCont at h
  simp only [bind_ok, pure_ok] at h
  obtain ⟨_, _, c1, h1, c2, h2, _, _, _, _, _, _, _, _, _, _, h⟩ := h
  cases h
  exact ⟨readFloat_plain hp h1, readFloat_plain hp h2⟩

theorem slot_plain (x : Slot) : PlainV x.toVal := by
  cases x <;> exact .num rfl

theorem vals_plain {r : ContRec} (h : ContPlain r) : ∀ v ∈ r.vals, PlainV v := by
  intro v hv
  simp only [ContRec.vals, List.mem_cons, List.not_mem_nil, or_false] at hv
  rcases hv with rfl | rfl | rfl | rfl | rfl | rfl
  · exact .num h.c1
  · exact .num h.c2
  all_goals exact slot_plain _

theorem ints_plain (l : List Int) : PlainV (intsVal l) := by
  refine .lst fun x hx => ?_
  obtain ⟨_, _, rfl⟩ := List.mem_map.1 hx
  rfl

theorem nums_plain {l : List Num} (h : ∀ x ∈ l, (PyNum.num x).plain = true) : PlainV (numsVal l) := by
  refine .lst fun x hx => ?_
  obtain ⟨y, hy, rfl⟩ := List.mem_map.1 hx
  exact h y hy

theorem evens_mem {α : Type} : ∀ {l : List α} {x : α}, x ∈ evens l → x ∈ l
  | [], _, h => by simp [evens] at h
  | [a], _, h => by simpa [evens] using h
  | a :: b :: l, x, h => by
    simp only [evens, List.mem_cons] at h
    rcases h with rfl | h
    · simp
    · simp [evens_mem h]

theorem odds_mem {α : Type} : ∀ {l : List α} {x : α}, x ∈ odds l → x ∈ l
  | [], _, h => by simp [odds] at h
  | [a], _, h => by simp [odds] at h
  | a :: b :: l, x, h => by
    simp only [odds, List.mem_cons] at h
    rcases h with rfl | h
    · simp
    · simp [odds_mem h]

structure PlainRec (q : ARec) : Prop where
  flds : ∀ v ∈ q.flds, PlainV v
  tbl : ∀ v ∈ q.tbl, PlainV v

theorem readKind_plain {o : ROpts} (hp : o.preserve = false) {lines : List Str} {ofs : Nat} {k : RKind} {q : ARec} {ofs' : Nat}
    (h : readKind o lines ofs k = .ok (q, ofs')) : PlainRec q := by
  unfold readKind at h
  cases k with
  | text =>
    simp only [bind_ok, pure_ok] at h
    obtain ⟨⟨r, _⟩, _, h⟩ := h; cases h
    exact ⟨by simp only [List.mem_singleton]; rintro _ rfl; exact .txt _, by simp⟩
  | head =>
    simp only [bind_ok, pure_ok] at h
    obtain ⟨⟨r, _⟩, h1, h⟩ := h; cases h
    exact ⟨vals_plain (readCont_plain hp h1), by simp⟩
  | cont =>
    simp only [bind_ok, pure_ok] at h
    obtain ⟨⟨r, _⟩, h1, h⟩ := h; cases h
    exact ⟨vals_plain (readCont_plain hp h1), by simp⟩
  | dir =>
    simp only [bind_ok, pure_ok] at h
    obtain ⟨⟨r, _⟩, h1, h⟩ := h; cases h
    refine ⟨fun v hv => ?_, by simp⟩
    simp only [List.mem_cons, List.not_mem_nil, or_false] at hv
    rcases hv with rfl | rfl | rfl | rfl <;> exact .num rfl
  | intg n =>
    simp only [bind_ok, pure_ok] at h
    obtain ⟨⟨r, _⟩, h1, h⟩ := h; cases h
    refine ⟨fun v hv => ?_, by simp⟩
    simp only [List.mem_cons, List.not_mem_nil, or_false] at hv
    rcases hv with rfl | rfl | rfl
    · exact .num rfl
    · exact .num rfl
    · exact ints_plain _
  | tab1 =>
    simp only [bind_ok, pure_ok] at h
    obtain ⟨⟨r, _⟩, h1, h⟩ := h; cases h
    unfold readTab1 at h1
    simp only [bind_ok, pure_ok] at h1
    obtain ⟨⟨hd, _⟩, g1, ⟨v1, _⟩, g2, ⟨v2, _⟩, g3, h1⟩ := h1
    cases h1
    have hn := readNumbers_plain hp g3
    refine ⟨fun v hv => vals_plain (readCont_plain hp g1) v (List.mem_of_mem_take hv), fun v hv => ?_⟩
    simp only [List.mem_cons, List.not_mem_nil, or_false] at hv
    rcases hv with rfl | rfl | rfl | rfl
    · exact ints_plain _
    · exact ints_plain _
    · exact nums_plain fun x hx => hn x (evens_mem hx)
    · exact nums_plain fun x hx => hn x (odds_mem hx)
  | tab2 =>
    simp only [bind_ok, pure_ok] at h
    obtain ⟨⟨r, _⟩, h1, h⟩ := h; cases h
    unfold readTab2 at h1
    simp only [bind_ok, pure_ok] at h1
    obtain ⟨⟨hd, _⟩, g1, ⟨v1, _⟩, g2, h1⟩ := h1
    cases h1
    refine ⟨fun v hv => ?_, fun v hv => ?_⟩
    · rcases List.mem_append.1 hv with hv | hv
      · exact vals_plain (readCont_plain hp g1) v (List.mem_of_mem_take hv)
      · exact vals_plain (readCont_plain hp g1) v (List.mem_of_mem_drop hv)
    · simp only [List.mem_cons, List.not_mem_nil, or_false] at hv
      rcases hv with rfl | rfl <;> exact ints_plain _
  | list =>
    simp only [bind_ok, pure_ok] at h
    obtain ⟨⟨r, _⟩, h1, h⟩ := h; cases h
    unfold readList at h1
    simp only [bind_ok] at h1
    obtain ⟨⟨hd, _⟩, g1, h1⟩ := h1
    split at h1
    · cases h1
      exact ⟨vals_plain (readCont_plain hp g1), by simp only [List.mem_singleton]; rintro _ rfl; exact .lst (by simp)⟩
    · simp only [bind_ok, pure_ok] at h1
      obtain ⟨⟨v1, _⟩, g2, h1⟩ := h1
      cases h1
      refine ⟨vals_plain (readCont_plain hp g1), ?_⟩
      simp only [List.mem_singleton]
      rintro _ rfl
      exact nums_plain (readNumbers_plain hp g2)
  | send =>
    simp only [bind_ok, pure_ok] at h
    obtain ⟨⟨r, _⟩, h1, h⟩ := h; cases h
    exact ⟨by simp, by simp⟩

structure PlainS (s : RSt) : Prop where
  cur : PlainD s.cur
  ups : ∀ u ∈ s.ups, PlainD u.1

theorem PlainS.env {s : RSt} (h : PlainS s) : PlainEnv s.env :=
  ⟨h.cur, fun u hu => by
    obtain ⟨x, hx, rfl⟩ := List.mem_map.1 hu
    exact h.ups x hx⟩

theorem mapFields_plain {c : RCtx} {es : List Expr} {vals : List Val} {s s' : RSt} (hs : PlainS s) (hv : ∀ v ∈ vals, PlainV v)
    (h : mapFields c es vals s = .ok s') : PlainS s' := by
  unfold mapFields at h
  simp only [Out.lift_ok] at h
  obtain ⟨cur, h1, h⟩ := h
  cases h
  exact ⟨mapRead_plain hs.cur hv h1, hs.ups⟩

theorem subDic_plain {is : List Int} {o : Option Val} {d : DDic} (ho : ∀ u, o = some u → PlainV u) (h : subDic o is = .ok d) : PlainD d := by
  induction is generalizing o with
  | nil =>
    unfold subDic at h
    split at h
    · cases h; exact PlainD.nil
    · cases h; exact (ho _ rfl).toD
    · rename_i he; cases he
    · cases h
  | cons i is ih =>
    unfold subDic at h
    split at h
    · cases h; exact PlainD.nil
    · rename_i he; cases he
    · rename_i he
      cases he
      exact ih (fun u hu => (ho _ rfl).toD.get hu) h
    · cases h

theorem openR_plain {s s' : RSt} {r : VarRef} (hs : PlainS s) (h : openR s r = .ok s') : PlainS s' := by
  unfold openR at h
  simp only [bind_ok, pure_ok] at h
  obtain ⟨is, _, d, h2, rfl⟩ := h
  refine ⟨(subDic_plain (fun u hu => hs.cur.get hu) h2).set .mark, fun u hu => ?_⟩
  rcases List.mem_cons.1 hu with rfl | hu
  · exact hs.cur
  · exact hs.ups u hu

theorem closeR_plain {s s' : RSt} (hs : PlainS s) (h : closeR s = .ok s') : PlainS s' := by
  unfold closeR at h
  cases hu : s.ups with
  | nil => rw [hu] at h; cases h
  | cons u rest =>
    obtain ⟨outer, n, is⟩ := u
    rw [hu] at h
    simp only [bind_ok, pure_ok] at h
    obtain ⟨new, h1, rfl⟩ := h
    have ho : PlainD outer := hs.ups (outer, n, is) (by rw [hu]; simp)
    exact ⟨ho.set (setArr_plain (fun u hu => ho.get hu) (.dic hs.cur.del) h1), fun u hu' => hs.ups u (by rw [hu]; exact List.mem_cons_of_mem _ hu')⟩

theorem inTable_plain {name : Option VarRef} {s s' : RSt} {f : RSt → Out RSt}
    (hf : ∀ s s', PlainS s → f s = .ok s' → PlainS s') (hs : PlainS s) (h : inTable name s f = .ok s') : PlainS s' := by
  unfold inTable at h
  cases name with
  | none => exact hf _ _ hs h
  | some r =>
    simp only [Out.lift_ok, Out.andThen_ok] at h
    obtain ⟨s1, h1, s2, h2, s3, h3, h4⟩ := h
    cases h4
    exact closeR_plain (hf _ _ (openR_plain hs h1) h2) h3

theorem iterate_keep {σ : Type} {set : Int → σ → σ} {f : σ → Out σ} (P : σ → Prop) (hset : ∀ i s, P s → P (set i s))
    (hf : ∀ s s', P s → f s = .ok s' → P s') {is : List Int} {s s' : σ} (hs : P s) (h : iterate set f is s = .ok s') : P s' := by
  induction is generalizing s with
  | nil => cases h; exact hs
  | cons i is ih =>
    unfold iterate at h
    rw [Out.andThen_ok] at h
    obtain ⟨s1, h1, h2⟩ := h
    exact ih (hf _ _ (hset _ _ hs) h1) h2

theorem readBody_plain {c : RCtx} {vals : List PyNum} (hv : ∀ x ∈ vals, x.plain = true) {b : LBody} {l l' : LSt} (hs : PlainS l.st)
    (h : readBody c vals b l = .ok l') : PlainS l'.st := by
  induction b generalizing l l' with
  | nil => cases h; exact hs
  | seq a b iha ihb =>
    unfold readBody at h
    rw [Out.andThen_ok] at h
    obtain ⟨l1, h1, h2⟩ := h
    exact ihb (iha hs h1) h2
  | expr e =>
    unfold readBody at h
    cases hg : vals[l.pos]? with
    | none => rw [hg] at h; cases h
    | some v =>
      simp only [hg, Out.lift_ok] at h
      obtain ⟨cur, h1, h⟩ := h
      cases h
      refine ⟨mapRead_plain hs.cur ?_ h1, hs.ups⟩
      simp only [List.mem_singleton]
      rintro _ rfl
      exact .num (hv v (List.mem_of_getElem? hg))
  | pad => cases h; exact hs
  | loop v a b body ih =>
    unfold readBody at h
    simp only [Out.lift_ok, Out.andThen_ok] at h
    obtain ⟨⟨x, y⟩, _, l1, h1, h2⟩ := h
    have := iterate_keep (set := LSt.setVar v) (fun l : LSt => PlainS l.st) (fun _ _ h => ⟨h.cur, h.ups⟩) (fun _ _ hs h => ih hs h) hs h1
    cases h2
    dsimp only
    split
    · exact ⟨this.cur, this.ups⟩
    · exact this

theorem readNamedBody_plain {c : RCtx} {vals : List PyNum} (hv : ∀ x ∈ vals, x.plain = true) {b : LBody} {name : Option VarRef}
    {s : RSt} {l' : LSt} (hs : PlainS s) (h : readNamedBody c vals b name s = .ok l') : PlainS l'.st := by
  unfold readNamedBody at h
  cases name with
  | none => exact readBody_plain hv (l := ⟨0, s⟩) hs h
  | some r =>
    simp only [Out.lift_ok, Out.andThen_ok] at h
    obtain ⟨s1, h1, l2, h2, s3, h3, h4⟩ := h
    cases h4
    exact closeR_plain (readBody_plain hv (l := ⟨0, s1⟩) (openR_plain hs h1) h2) h3

theorem setCtrl_plain {k : Ctrl} {d : DDic} (h : PlainD d) : PlainD (setCtrl k d) :=
  ((h.set (.num rfl)).set (.num rfl)).set (.num rfl)

theorem useRec_plain {c : RCtx} {a : Act} {q : ARec} {s s' : RSt} (hq : PlainRec q) (hl : s.look = none) (hs : PlainS s)
    (h : useRec c a q s = .ok s') : PlainS s' := by
  cases a with
  | text k fs =>
    simp only [useRec, Out.lift_ok, logRec] at h
    obtain ⟨_, h1, _, h2, h3⟩ := h
    cases h3
    exact ⟨setCtrl_plain (mapTextRead_plain hs.cur h2), hs.ups⟩
  | cont ih k fs =>
    simp only [useRec, Out.lift_ok, Out.andThen_ok, logRec] at h
    obtain ⟨_, h1, s1, h2, h3⟩ := h
    have hp := mapFields_plain hs hq.flds h2
    cases h3
    split
    · exact ⟨setCtrl_plain hp.cur, hp.ups⟩
    · exact ⟨hp.cur, hp.ups⟩
  | dir k fs =>
    simp only [useRec, Out.lift_ok, Out.andThen_ok, logRec] at h
    obtain ⟨_, h1, s1, h2, h3⟩ := h
    have hp := mapFields_plain hs hq.flds h2
    cases h3
    exact ⟨hp.cur, hp.ups⟩
  | intg k fs nd =>
    simp only [useRec, Out.lift_ok, Out.andThen_ok, logRec] at h
    obtain ⟨_, h1, s1, h2, h3⟩ := h
    have hp := mapFields_plain hs hq.flds h2
    cases h3
    exact ⟨hp.cur, hp.ups⟩
  | tab1 k fs x y name =>
    simp only [useRec, Out.lift_ok, Out.andThen_ok] at h
    obtain ⟨_, h1, s1, h2, h3⟩ := h
    rw [proceed_idle ((mapFields_fix h2).2.2.trans hl)] at h3
    simp only [Out.andThen_ok, logRec] at h3
    obtain ⟨s2, h3, h4⟩ := h3
    have hp := inTable_plain (fun _ _ hs h => mapFields_plain hs hq.tbl h) (mapFields_plain hs hq.flds h2) h3
    cases h4
    exact ⟨hp.cur, hp.ups⟩
  | tab2 k fs name =>
    simp only [useRec, Out.lift_ok, Out.andThen_ok] at h
    obtain ⟨_, h1, s1, h2, h3⟩ := h
    rw [proceed_idle ((mapFields_fix h2).2.2.trans hl)] at h3
    simp only [Out.andThen_ok, logRec] at h3
    obtain ⟨s2, h3, h4⟩ := h3
    have hp := inTable_plain (fun _ _ hs h => mapFields_plain hs hq.tbl h) (mapFields_plain hs hq.flds h2) h3
    cases h4
    exact ⟨hp.cur, hp.ups⟩
  | list k fs body name =>
    simp only [useRec, Out.lift_ok, Out.andThen_ok] at h
    obtain ⟨_, h1, s1, h2, h3⟩ := h
    rw [proceed_idle ((mapFields_fix h2).2.2.trans hl)] at h3
    dsimp only at h3
    split at h3
    · cases h3
    · rename_i l hb
      have := readNamedBody_plain (s := s1) (l' := l) ?_ (mapFields_plain hs hq.flds h2) hb
      · by_cases hlt : l.pos < (match q.tbl with | [.lst vals] => vals | _ => []).length
        · have h3' := (if_pos hlt).symm.trans h3
          cases h3'
        · have h3' := (if_neg hlt).symm.trans h3
          unfold logRec at h3'
          cases h3'
          exact ⟨this.cur, this.ups⟩
      · split
        · rename_i vals ht
          have := hq.tbl (.lst vals) (by rw [ht]; simp)
          cases this with
          | lst h => exact h
        · simp
  | send =>
    simp only [useRec, logRec] at h
    cases h
    exact ⟨hs.cur, hs.ups⟩
  | stop => cases h

theorem readAct_plain {c : RCtx} (hp : c.ro.preserve = false) {a : Act} {s s' : RSt} (hl : s.look = none) (hs : PlainS s)
    (h : readAct c a s = .ok s') : PlainS s' := by
  by_cases hi : ∃ k fs nd, a = .intg k fs nd
  · obtain ⟨k, fs, nd, rfl⟩ := hi
    rw [readAct_intg] at h
    simp only [Out.lift_ok] at h
    obtain ⟨n, h1, h⟩ := h
    split at h
    · simp only [Out.lift_ok] at h
      obtain ⟨o1, h2, ⟨q, o2⟩, h3, h4⟩ := h
      refine useRec_plain (readKind_plain hp h3) ?_ ?_ h4
      · exact hl
      · exact ⟨hs.cur, hs.ups⟩
    · cases h
  · cases hk : a.kind with
    | none =>
      cases a <;> first | (cases hk; done) | skip
      · exact absurd ⟨_, _, _, rfl⟩ hi
      · simp only [readAct, Out.lift_ok] at h
        obtain ⟨_, _, h⟩ := h
        cases h
    | some k =>
      rw [readAct_kind c a k hk] at h
      simp only [Out.lift_ok] at h
      obtain ⟨o1, h2, ⟨q, o2⟩, h3, h4⟩ := h
      refine useRec_plain (readKind_plain hp h3) ?_ ?_ h4
      · exact hl
      · exact ⟨hs.cur, hs.ups⟩

theorem initWork_plain {d : DDic} (h : PlainD d) : PlainD (initWork d) := (h.set (.names _)).set .mark

theorem removeWork_plain {d d' : DDic} (h : PlainD d) (hr : removeWork d = .ok d') : PlainD d' := by
  unfold removeWork at hr
  split at hr
  · rename_i l _
    simp only [bind_ok, pure_ok] at hr
    obtain ⟨d1, h1, rfl⟩ := hr
    have : PlainD d1 := by
      clear * - h h1
      induction l generalizing d with
      | nil => simp only [List.foldlM_nil, pure_ok] at h1; subst h1; exact h
      | cons n l ih =>
        simp only [List.foldlM_cons, bind_ok] at h1
        obtain ⟨d2, h2, h3⟩ := h1
        unfold delVar at h2
        split at h2
        · cases h2; exact ih h.del h3
        · cases h2
    exact this.del.del
  · cases hr

theorem introAbbr_plain {d d' : DDic} {n : Name} {e : Expr} (h : PlainD d) (he : e.plain = true) (hi : introAbbr d n e = .ok d') :
    PlainD d' := by
  unfold introAbbr at hi
  dsimp only at hi
  split at hi
  · cases hi
  · cases hi
    exact (h.set (.names _)).set (.abb he)

/-- fields of records and abbreviations have no literal that keeps a text -/
def LBody.plain : LBody → Bool
  | .nil | .pad => true
  | .seq a b => a.plain && b.plain
  | .expr e => e.plain
  | .loop _ _ _ b => b.plain

def Act.plain : Act → Bool
  | .text _ _ | .send | .stop => true
  | .cont _ _ fs | .dir _ fs | .intg _ fs _ | .tab1 _ fs _ _ _ | .tab2 _ fs _ => fs.all Expr.plain
  | .list _ fs b _ => fs.all Expr.plain && b.plain

def Prog.plain : Prog → Bool
  | .skip => true
  | .seq a b => a.plain && b.plain
  | .act a => a.plain
  | .sect _ b => b.plain
  | .loop _ _ _ b => b.plain
  | .ite _ _ a b => a.plain && b.plain
  | .abbr _ e => e.plain

theorem readProg_plain {c : RCtx} (hp : c.ro.preserve = false) {p : Prog} {s s' : RSt} (hpp : p.plain = true)
    (hl : s.look = none) (hs : PlainS s) (h : readProg c p s = .ok s') : PlainS s' := by
  induction p generalizing s s' with
  | skip => cases h; exact hs
  | seq a b iha ihb =>
    unfold readProg at h
    rw [Out.andThen_ok] at h
    obtain ⟨s1, h1, h2⟩ := h
    simp only [Prog.plain, Bool.and_eq_true] at hpp
    exact ihb hpp.2 ((readProg_frame h1).look hl) (iha hpp.1 hl hs h1) h2
  | act a =>
    unfold readProg at h
    rw [proceed_idle hl] at h
    exact readAct_plain hp hl hs h
  | sect r body ih =>
    unfold readProg at h
    rw [stopped_none hl] at h
    simp only [Bool.false_eq_true, if_false, Out.lift_ok, Out.andThen_ok] at h
    obtain ⟨s1, h1, s2, h2, cur, h3, s3, h4, h5⟩ := h
    cases h5
    have g1 := openR_plain hs h1
    have g2 := ih (s := { s1 with cur := initWork s1.cur }) hpp ((openR_fix h1).2.2.trans hl) ⟨initWork_plain g1.cur, g1.ups⟩ h2
    exact closeR_plain (s := { s2 with cur := cur }) ⟨removeWork_plain g2.cur h3, g2.ups⟩ h4
  | loop v a b body ih =>
    unfold readProg at h
    rw [stopped_none hl] at h
    simp only [Bool.false_eq_true, if_false, Out.lift_ok, Out.andThen_ok] at h
    obtain ⟨⟨x, y⟩, h1, s1, h2, h3⟩ := h
    cases h3
    have := iterate_keep (set := RSt.setVar v) (f := readProg c body) (fun s : RSt => s.look = none ∧ PlainS s) (fun _ _ h => ⟨h.1, h.2.cur, h.2.ups⟩)
      (fun s s' hs h => ⟨(readProg_frame h).look hs.1, ih hpp hs.1 hs.2 h⟩) ⟨hl, hs⟩ h2
    dsimp only
    split
    · exact ⟨this.2.cur, this.2.ups⟩
    · exact this.2
  | ite cond look thn els iht ihe =>
    obtain ⟨t, h1⟩ := readProg_chooses (stopped_none hl) h
    rw [readProg_chosen (stopped_none hl) h1] at h
    simp only [Prog.plain, Bool.and_eq_true] at hpp
    cases t with
    | true => exact iht hpp.1 hl hs h
    | false => exact ihe hpp.2 hl hs h
  | abbr n e =>
    unfold readProg at h
    rw [stopped_none hl] at h
    simp only [Bool.false_eq_true, if_false, Out.lift_ok] at h
    obtain ⟨cur, h1, h2⟩ := h
    cases h2
    exact ⟨introAbbr_plain hs.cur hpp h1, hs.ups⟩

/-- without `preserve_value_strings`, no text of a number is kept in the dictionary -/
theorem readSection_plain {c : RCtx} (hp : c.ro.preserve = false) {p : Prog} {s : RSt} (hpp : p.plain = true)
    (h : readSection c false p = .ok s) : PlainD s.cur := by
  unfold readSection at h
  simp only [Out.andThen_ok, Out.lift_ok] at h
  obtain ⟨s0, h0, D, hD, h1⟩ := h
  cases h1
  exact removeWork_plain (readProg_plain (s := { cur := initWork [], ignoreAll := false }) hp hpp rfl
    ⟨initWork_plain PlainD.nil, by simp⟩ h0).cur hD

/-! ## writing -/

structure PlainW (s : WSt) : Prop where
  cur : PlainD s.cur
  ups : ∀ u ∈ s.ups, PlainD u.1
  out : ∀ q ∈ s.out, PlainRec q

theorem PlainW.env {s : WSt} (h : PlainW s) (lv : Dict Name Int) : PlainEnv ⟨s.cur, s.outer, lv⟩ :=
  ⟨h.cur, fun u hu => by
    obtain ⟨x, hx, rfl⟩ := List.mem_map.1 hu
    exact h.ups x hx⟩

theorem subDicW_plain {is : List Int} {o : Option Val} {d : DDic} (ho : ∀ u, o = some u → PlainV u) (h : subDicW o is = .ok d) : PlainD d := by
  induction is generalizing o with
  | nil =>
    unfold subDicW at h
    split at h
    · cases h
    · cases h; exact (ho _ rfl).toD
    · rename_i he; cases he
    · cases h
  | cons i is ih =>
    unfold subDicW at h
    split at h
    · cases h
    · rename_i he; cases he
    · rename_i he
      cases he
      exact ih (fun u hu => (ho _ rfl).toD.get hu) h
    · cases h

theorem openW_plain {s s' : WSt} {r : VarRef} (hs : PlainW s) (h : openW s r = .ok s') : PlainW s' := by
  unfold openW at h
  split at h
  · cases h
  · simp only [bind_ok, pure_ok] at h
    obtain ⟨is, _, d, h2, rfl⟩ := h
    refine ⟨(subDicW_plain (fun u hu => hs.cur.get hu) h2).set .mark, fun u hu => ?_, hs.out⟩
    rcases List.mem_cons.1 hu with rfl | hu
    · exact hs.cur
    · exact hs.ups u hu

theorem closeW_plain {s s' : WSt} (hs : PlainW s) (h : closeW s = .ok s') : PlainW s' := by
  unfold closeW at h
  cases hu : s.ups with
  | nil => rw [hu] at h; cases h
  | cons u rest =>
    obtain ⟨outer, n, is⟩ := u
    rw [hu] at h
    simp only [bind_ok, pure_ok] at h
    obtain ⟨new, h1, rfl⟩ := h
    have ho : PlainD outer := hs.ups (outer, n, is) (by rw [hu]; simp)
    exact ⟨ho.set (setArr_plain (fun u hu => ho.get hu) (.dic hs.cur.del) h1),
      fun u hu' => hs.ups u (by rw [hu]; exact List.mem_cons_of_mem _ hu'), hs.out⟩

theorem iterateW_keep {σ : Type} {set : Int → σ → σ} {f : σ → Res σ} (P : σ → Prop) (hset : ∀ i s, P s → P (set i s))
    (hf : ∀ s s', P s → f s = .ok s' → P s') {is : List Int} {s s' : σ} (hs : P s) (h : iterateW set f is s = .ok s') : P s' := by
  induction is generalizing s with
  | nil => cases h; exact hs
  | cons i is ih =>
    unfold iterateW at h
    rw [bind_ok] at h
    obtain ⟨s1, h1, h2⟩ := h
    exact ih (hf _ _ (hset _ _ hs) h1) h2

theorem writeBody_plain {fuel : Nat} {s : WSt} (hs : PlainW s) {b : LBody} (hb : b.plain = true) {l l' : WLSt}
    (hl : ∀ x ∈ l.vals, x.plain = true) (h : writeBody fuel s b l = .ok l') : ∀ x ∈ l'.vals, x.plain = true := by
  induction b generalizing l l' with
  | nil => cases h; exact hl
  | seq a b iha ihb =>
    simp only [writeBody, bind_ok] at h
    obtain ⟨l1, h1, h2⟩ := h
    simp only [LBody.plain, Bool.and_eq_true] at hb
    exact ihb hb.2 (iha hb.1 hl h1) h2
  | expr e =>
    simp only [writeBody, bind_ok, pure_ok] at h
    obtain ⟨v, h1, x, h2, rfl⟩ := h
    have hv := evalKnown_plain (hs.env l.lv) hb h1
    intro y hy
    rcases List.mem_append.1 hy with hy | hy
    · exact hl y hy
    · rw [List.mem_singleton] at hy
      subst hy
      cases hv with
      | num h => cases h2; exact h
      | _ => cases h2
  | pad =>
    simp only [writeBody, Except.ok.injEq] at h
    subst h
    intro y hy
    rcases List.mem_append.1 hy with hy | hy
    · exact hl y hy
    · rw [(List.mem_replicate.1 hy).2]; rfl
  | loop v a b body ih =>
    simp only [writeBody, bind_ok, pure_ok] at h
    obtain ⟨⟨x, y⟩, _, l1, h1, rfl⟩ := h
    have := iterateW_keep (set := WLSt.setVar v) (fun l : WLSt => ∀ x ∈ l.vals, x.plain = true) (fun _ _ h => h)
      (fun _ _ hs h => ih hb hs h) hl h1
    split <;> exact this

theorem mapWrite_plain {fuel : Nat} {env : Env} (he : PlainEnv env) {es : List Expr} (hp : es.all Expr.plain = true) {vs : List Val}
    (h : mapWrite fuel env es = .ok vs) : ∀ v ∈ vs, PlainV v := by
  unfold mapWrite at h
  induction es generalizing vs with
  | nil => simp only [List.mapM_nil, pure_ok] at h; subst h; simp
  | cons e es ih =>
    simp only [List.mapM_cons, bind_ok, pure_ok] at h
    obtain ⟨b, h1, m', h2, rfl⟩ := h
    simp only [List.all_cons, Bool.and_eq_true] at hp
    intro x hx
    rcases List.mem_cons.1 hx with rfl | hx
    · exact evalKnown_plain he hp.1 h1
    · exact ih hp.2 h2 x hx

theorem all_take {α : Type} {p : α → Bool} {l : List α} {n : Nat} (h : l.all p = true) : (l.take n).all p = true := by
  rw [List.all_eq_true] at h ⊢
  exact fun x hx => h x (List.mem_of_mem_take hx)

theorem all_drop {α : Type} {p : α → Bool} {l : List α} {n : Nat} (h : l.all p = true) : (l.drop n).all p = true := by
  rw [List.all_eq_true] at h ⊢
  exact fun x hx => h x (List.mem_of_mem_drop hx)

theorem inTableW_plain {α : Type} {name : Option VarRef} {s : WSt} {f : WSt → Res α} {P : α → Prop} (hs : PlainW s)
    (hf : ∀ s a, PlainW s → f s = .ok a → P a) {a : α} (h : inTableW name s f = .ok a) : P a := by
  unfold inTableW at h
  cases name with
  | none => exact hf _ _ hs h
  | some r =>
    simp only [bind_ok] at h
    obtain ⟨s1, h1, h2⟩ := h
    exact hf _ _ (openW_plain hs h1) h2

theorem writeAct_plain {fuel : Nat} {s : WSt} (hs : PlainW s) {a : Act} (ha : a.plain = true) {q : ARec}
    (h : writeAct fuel s a = .ok q) : PlainRec q := by
  cases a with
  | text k fs =>
    simp only [writeAct, bind_ok, pure_ok] at h
    obtain ⟨_, _, _, _, hl, _, rfl⟩ := h
    exact ⟨by simp only [List.mem_singleton]; rintro _ rfl; exact .txt _, by simp⟩
  | cont ih k fs =>
    simp only [writeAct, bind_ok, pure_ok] at h
    obtain ⟨_, _, _, _, vs, h1, rfl⟩ := h
    exact ⟨mapWrite_plain (hs.env _) ha h1, by simp⟩
  | dir k fs =>
    simp only [writeAct, bind_ok, pure_ok] at h
    obtain ⟨_, _, _, _, vs, h1, rfl⟩ := h
    exact ⟨mapWrite_plain (hs.env _) ha h1, by simp⟩
  | intg k fs nd =>
    simp only [writeAct, bind_ok] at h
    obtain ⟨_, _, _, _, vs, h1, n, h2, h⟩ := h
    split at h
    · cases h
      exact ⟨mapWrite_plain (hs.env _) ha h1, by simp⟩
    · cases h
  | tab1 k fs x y name =>
    simp only [writeAct, bind_ok, pure_ok] at h
    obtain ⟨_, _, _, _, vs, h1, cols, h2, rfl⟩ := h
    exact ⟨mapWrite_plain (hs.env _) (all_take ha) h1,
      inTableW_plain (P := fun cols => ∀ v ∈ cols, PlainV v) hs (fun s a hs h => mapWrite_plain (hs.env _) rfl h) h2⟩
  | tab2 k fs name =>
    simp only [writeAct, bind_ok, pure_ok] at h
    obtain ⟨_, _, _, _, vs, h1, cols, h2, rfl⟩ := h
    refine ⟨mapWrite_plain (hs.env _) ?_ h1,
      inTableW_plain (P := fun cols => ∀ v ∈ cols, PlainV v) hs (fun s a hs h => mapWrite_plain (hs.env _) rfl h) h2⟩
    rw [List.all_append, Bool.and_eq_true]
    exact ⟨all_take ha, all_drop ha⟩
  | list k fs body name =>
    simp only [writeAct, bind_ok, pure_ok] at h
    obtain ⟨_, _, _, _, vs, h1, l, h2, rfl⟩ := h
    simp only [Act.plain, Bool.and_eq_true] at ha
    refine ⟨mapWrite_plain (hs.env _) ha.1 h1, ?_⟩
    have := inTableW_plain (P := fun l : WLSt => ∀ x ∈ l.vals, x.plain = true) hs (fun s a hs h => writeBody_plain hs ha.2 (by simp) h) h2
    simp only [List.mem_singleton]
    rintro _ rfl
    exact .lst this
  | send =>
    simp only [writeAct, bind_ok, pure_ok] at h
    obtain ⟨_, _, rfl⟩ := h
    exact ⟨by simp, by simp⟩
  | stop => cases h

theorem writeProg_plain {fuel : Nat} {p : Prog} (hp : p.plain = true) {s s' : WSt} (hs : PlainW s) (h : writeProg fuel p s = .ok s') :
    PlainW s' := by
  induction p generalizing s s' with
  | skip => cases h; exact hs
  | seq a b iha ihb =>
    simp only [writeProg, bind_ok] at h
    obtain ⟨s1, h1, h2⟩ := h
    simp only [Prog.plain, Bool.and_eq_true] at hp
    exact ihb hp.2 (iha hp.1 hs h1) h2
  | act a =>
    simp only [writeProg, bind_ok, pure_ok] at h
    obtain ⟨q, h1, rfl⟩ := h
    refine ⟨hs.cur, hs.ups, fun x hx => ?_⟩
    rcases List.mem_append.1 hx with hx | hx
    · exact hs.out x hx
    · rw [List.mem_singleton] at hx
      subst hx
      exact writeAct_plain hs hp h1
  | sect r body ih =>
    simp only [writeProg, bind_ok] at h
    obtain ⟨s1, h1, s2, h2, cur, h3, h4⟩ := h
    have g1 := openW_plain hs h1
    have g2 := ih hp (s := { s1 with cur := initWork s1.cur }) ⟨initWork_plain g1.cur, g1.ups, g1.out⟩ h2
    exact closeW_plain (s := { s2 with cur := cur }) ⟨removeWork_plain g2.cur h3, g2.ups, g2.out⟩ h4
  | loop v a b body ih =>
    simp only [writeProg, bind_ok, pure_ok] at h
    obtain ⟨⟨x, y⟩, _, s1, h1, rfl⟩ := h
    have := iterateW_keep (set := WSt.setVar v) PlainW (fun _ _ h => ⟨h.cur, h.ups, h.out⟩) (fun _ _ hs h => ih hp hs h) hs h1
    split
    · exact ⟨this.cur, this.ups, this.out⟩
    · exact this
  | ite cond look thn els iht ihe =>
    simp only [writeProg, bind_ok] at h
    obtain ⟨t, _, h⟩ := h
    simp only [Prog.plain, Bool.and_eq_true] at hp
    split at h
    · exact iht hp.1 hs h
    · exact ihe hp.2 hs h
  | abbr n e =>
    simp only [writeProg, bind_ok, pure_ok] at h
    obtain ⟨cur, h1, rfl⟩ := h
    exact ⟨introAbbr_plain hs.cur hp h1, hs.ups, hs.out⟩

/-- what is written from a dictionary without such numbers -/
theorem writeSection_plain {fuel : Nat} {mf mt : Int} {p : Prog} (hp : p.plain = true) {d : DDic} (hd : PlainD d) {w : WSt}
    (h : writeSection fuel mf mt p d = .ok w) : ∀ q ∈ w.out, PlainRec q := by
  unfold writeSection at h
  have h1 : PlainD (if dHas (.var "MF") d then d else dSet (.var "MF") (.num (.int mf)) d) := by
    split
    · exact hd
    · exact hd.set (.num rfl)
  simp only [bind_ok] at h
  obtain ⟨_, _, h⟩ := h
  split at h
  · cases h
  · simp only [bind_ok] at h
    obtain ⟨_, _, h⟩ := h
    split at h
    · cases h
    · simp only [bind_ok, pure_ok] at h
      obtain ⟨s, h2, _, _, rfl⟩ := h
      refine (writeProg_plain hp ?_ h2).out
      refine ⟨initWork_plain ?_, by simp, by simp⟩
      generalize (if dHas (.var "MF") d then d else dSet (.var "MF") (.num (.int mf)) d) = d1 at h1
      split
      · exact h1
      · exact h1.set (.num rfl)

end Verif
