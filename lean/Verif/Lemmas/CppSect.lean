import Verif.Lemmas.CppEnv
import Verif.Lemmas.Level

/-! Sections: the dictionaries of the interpreter and the blocks of the compiled parser. -/

namespace Verif.CF
open Verif Spec

def OptSame : Option Val → Option Val → Prop
  | some u, some w => SameAt u w
  | none, none => True
  | _, _ => False

theorem OptSame.refl (o : Option Val) : OptSame o o := by
  cases o with
  | none => trivial
  | some v => exact sameAt_refl v

theorem optSame_get {d d' : DDic} (h : SameAt (.dic d) (.dic d')) (k : Key) : OptSame (dGet k d) (dGet k d') := by
  have := sameAt_get h k
  cases h1 : dGet k d <;> cases h2 : dGet k d' <;> rw [h1, h2] at this <;> exact this

theorem optSame_dic {d d' : DDic} (h : ∀ k, OptSame (dGet k d) (dGet k d')) : SameAt (.dic d) (.dic d') := by
  refine sameAt_dic fun k => ?_
  have := h k
  cases h1 : dGet k d <;> cases h2 : dGet k d' <;> rw [h1, h2] at this <;> exact this

theorem same_dic {d : DDic} {w : Val} (h : SameAt (.dic d) w) : ∃ d', w = .dic d' := by
  have := h []
  simp only [valAt] at this
  split at this
  · rename_i e; cases e; exact ⟨_, rfl⟩
  · cases this; exact ⟨_, rfl⟩

theorem setArr_same {is : List Int} {o o' : Option Val} {w w' n n' : Val} (ho : OptSame o o') (hw : SameAt w w')
    (h : setArr o is w = .ok n) (h' : setArr o' is w' = .ok n') : SameAt n n' := by
  induction is generalizing o o' n n' with
  | nil =>
    simp only [setArr, Except.ok.injEq] at h h'
    subst h; subst h'; exact hw
  | cons i is ih =>
    cases o with
    | none =>
      cases o' with
      | some _ => exact ho.elim
      | none =>
        simp only [setArr, bind_ok, pure_ok] at h h'
        obtain ⟨x, hx, rfl⟩ := h
        obtain ⟨x', hx', rfl⟩ := h'
        refine optSame_dic fun k => ?_
        rw [dGet_dSet, dGet_dSet]
        split
        · exact ih (OptSame.refl none) hx hx'
        · trivial
    | some v =>
      cases o' with
      | none => exact ho.elim
      | some v' =>
        cases v with
        | dic d =>
          obtain ⟨d', rfl⟩ := same_dic ho
          simp only [setArr, bind_ok, pure_ok] at h h'
          obtain ⟨x, hx, rfl⟩ := h
          obtain ⟨x', hx', rfl⟩ := h'
          refine optSame_dic fun k => ?_
          rw [dGet_dSet, dGet_dSet]
          split
          · exact ih (optSame_get ho _) hx hx'
          · exact optSame_get ho k
        | _ => cases h

theorem dGet_all_none {d : DDic} (h : ∀ k, dGet k d = none) : d = [] := by
  cases d with
  | nil => rfl
  | cons p d =>
    obtain ⟨k, v⟩ := p
    have := h k
    simp [dGet] at this

/-- a section that is opened for the first time is new for both -/
theorem subDic_same {is : List Int} {o o' : Option Val} {d : DDic} (ho : OptSame o o') (h : subDic o is = .ok []) (h' : subDic o' is = .ok d) :
    d = [] := by
  induction is generalizing o o' with
  | nil =>
    cases o with
    | none =>
      cases o' with
      | some _ => exact ho.elim
      | none => simp only [subDic, Except.ok.injEq] at h'; exact h'.symm
    | some v =>
      cases o' with
      | none => exact ho.elim
      | some v' =>
        cases v with
        | dic e =>
          obtain ⟨e', rfl⟩ := same_dic ho
          simp only [subDic, Except.ok.injEq] at h h'
          subst h; subst h'
          refine dGet_all_none fun k => ?_
          have := optSame_get ho k
          cases hk : dGet k e' with
          | none => rfl
          | some x => rw [hk] at this; exact this.elim
        | _ => cases h
  | cons i is ih =>
    cases o with
    | none =>
      cases o' with
      | some _ => exact ho.elim
      | none => simp only [subDic, Except.ok.injEq] at h'; exact h'.symm
    | some v =>
      cases o' with
      | none => exact ho.elim
      | some v' =>
        cases v with
        | dic e =>
          obtain ⟨e', rfl⟩ := same_dic ho
          simp only [subDic] at h h'
          exact ih (optSame_get ho _) h h'
        | _ => cases h

/-- control numbers of the section, in the outermost dictionary only -/
def CtlB (top : Option Ctrl) (d : DDic) (b : CScope) : Prop :=
  match top with
  | none => ∀ n ∈ ctlNames, dGet (.var n) d = none ∧ dGet (.var n) b.pd = none ∧ dGet (n, 0) b.vars = none
  | some k => ∀ n ∈ ctlNames, ∃ i : Int, dGet (.var n) (setCtrl k []) = some (.num (.int i)) ∧
      (dGet (.var n) d = none ∨ dGet (.var n) d = some (.num (.int i))) ∧ dGet (.var n) b.pd = some (.num (.int i)) ∧
      dGet (n, 0) b.vars = some (.leaf (.num (.int i)))

/-- what holds for the dictionary of the interpreter and the block of the compiled parser -/
structure Blk (Γ : Kinds) (top : Option Ctrl) (d : DDic) (b : CScope) : Prop where
  typed : TypedD Γ d
  good : GoodB Γ b
  agree : AgreeB Γ d b
  nodup : DNodup d
  keys : ∀ i, dGet (.idx i) d = none
  sect : ∀ n, Γ n = none → n ∉ ctlNames → OptSame (dGet (.var n) d) (dGet (.var n) b.pd)
  pdk : ∀ key v, dGet key b.pd = some v → ∃ n, key = .var n ∧ Γ n = none
  ctl : CtlB top d b

theorem storeVars_get {vars : Dict VKey CTree} {ks : List VKey} {d : DDic} (key : Key) :
    (∀ n, key = .var n → ∀ ar, (n, ar) ∈ ks → dGet (n, ar) vars = none) → dGet key (storeVars vars ks d) = dGet key d := by
  induction ks generalizing d with
  | nil => intro _; rfl
  | cons k ks ih =>
    intro h
    simp only [storeVars]
    rw [ih (fun n hn ar ha => h n hn ar (List.mem_cons_of_mem _ ha))]
    cases hv : dGet k vars with
    | none => rfl
    | some t =>
      refine dGet_dSet_ne ?_ _ _
      intro he
      have := h k.1 he.symm k.2 (by simp)
      rw [hv] at this; cases this

theorem storeVars_some {vars : Dict VKey CTree} {ks : List VKey} {d : DDic} {n : Name} {ar : Nat} {t : CTree}
    (hm : (n, ar) ∈ ks) (ht : dGet (n, ar) vars = some t) (hu : ∀ a, a ≠ ar → dGet (n, a) vars = none) :
    dGet (.var n) (storeVars vars ks d) = some t.toPy := by
  induction ks generalizing d with
  | nil => cases hm
  | cons k ks ih =>
    simp only [storeVars]
    by_cases hk : (n, ar) ∈ ks
    · exact ih hk
    · rcases List.mem_cons.1 hm with rfl | hm
      · rw [storeVars_get, ht]
        · exact dGet_dSet_self _ _ _
        · intro m hm a ha
          cases hm
          exact hu a (fun e => by subst e; exact hk ha)
      · exact absurd hm hk

theorem ctl_cases {n : Name} (h : n ∈ ctlNames) : n = "MAT" ∨ n = "MF" ∨ n = "MT" := by
  simpa [ctlNames] using h

/-- both dictionaries at the end of a section are the same -/
theorem blk_same {Γ : Kinds} (hΓ : ∀ n ∈ ctlNames, Γ n = none) {top : Option Ctrl} {d : DDic} {b : CScope} (h : Blk Γ top d b)
    (hkeys : ∀ key, (∀ n, key ≠ .var n) → dGet key d = none)
    (hctl : top.isSome = true → ∀ n ∈ ctlNames, dGet (.var n) d ≠ none) :
    SameAt (.dic d) (.dic (storeVars b.vars b.defs b.pd)) := by
  refine optSame_dic fun key => ?_
  cases key with
  | var n =>
    cases hn : Γ n with
    | some x =>
      obtain ⟨k, ar⟩ := x
      have hother : ∀ a, a ≠ ar → dGet (n, a) b.vars = none := by
        intro a ha
        cases hv : dGet (n, a) b.vars with
        | none => rfl
        | some t =>
          have := (h.good _ _ hv).2
          simp only [hn] at this
          exact absurd this.1.symm ha
      have hpd : dGet (.var n) b.pd = none := by
        cases hv : dGet (.var n) b.pd with
        | none => rfl
        | some v =>
          obtain ⟨m, hm, hm'⟩ := h.pdk _ _ hv
          cases hm; rw [hn] at hm'; cases hm'
      cases hv : dGet (n, ar) b.vars with
      | none =>
        rw [storeVars_get, hpd]
        · have : dGet (.var n) d = none := by
            cases hd : dGet (.var n) d with
            | none => rfl
            | some v =>
              obtain ⟨is, w, hl, hw⟩ := deep_some (h.typed n k ar v hn hd)
              have : look d n is = some w := by unfold look; rw [hd]; exact hw
              rw [h.agree n k ar hn is hl] at this
              unfold clook at this
              rw [hv] at this; cases this
          rw [this]; trivial
        · intro m hm a _
          cases hm
          by_cases ha : a = ar
          · rw [ha]; exact hv
          · exact hother a ha
      | some t =>
        obtain ⟨hdef, hg⟩ := h.good _ _ hv
        simp only [hn] at hg
        rw [storeVars_some hdef hv hother]
        obtain ⟨is, w, hl, hw⟩ := deep_some hg.2.2
        have hc : clook b n ar is = some w := by unfold clook; rw [hv]; exact hw
        rw [← h.agree n k ar hn is hl] at hc
        cases hd : dGet (.var n) d with
        | none => unfold look at hc; rw [hd] at hc; cases hc
        | some v =>
          refine deep_same (h.typed n k ar v hn hd) hg.2.2 fun is hl => ?_
          have := h.agree n k ar hn is hl
          unfold look clook at this
          rw [hd, hv] at this
          exact this
    | none =>
      by_cases hc : n ∈ ctlNames
      · have hother : ∀ a, a ≠ 0 → dGet (n, a) b.vars = none := by
          intro a ha
          cases hv : dGet (n, a) b.vars with
          | none => rfl
          | some t =>
            have := (h.good _ _ hv).2
            simp only [hn] at this
            rcases ctl_cases hc with rfl | rfl | rfl <;> simp at this <;> exact absurd this ha
        have hctlb := h.ctl
        unfold CtlB at hctlb
        cases top with
        | none =>
          obtain ⟨h1, h2, h3⟩ := hctlb n hc
          rw [storeVars_get, h1, h2]
          · trivial
          · intro m hm a _
            cases hm
            by_cases ha : a = 0
            · rw [ha]; exact h3
            · exact hother a ha
        | some k =>
          obtain ⟨i, _, h1, h2, h3⟩ := hctlb n hc
          rw [storeVars_some (h.good _ _ h3).1 h3 hother]
          rcases h1 with h1 | h1
          · exact absurd h1 (hctl rfl n hc)
          · rw [h1]; exact sameAt_refl _
      · rw [storeVars_get]
        · exact h.sect n hn hc
        · intro m hm a _
          cases hm
          cases hv : dGet (n, a) b.vars with
          | none => rfl
          | some t =>
            have := (h.good _ _ hv).2
            simp only [hn] at this
            refine absurd ?_ hc
            simp at this
            rcases this with this | this | this <;> rw [this.1] <;> simp [ctlNames]
  | idx i =>
    rw [h.keys i, storeVars_get _ (fun n hn => by cases hn)]
    cases hv : dGet (.idx i) b.pd with
    | none => trivial
    | some v => obtain ⟨m, hm, _⟩ := h.pdk _ _ hv; cases hm
  | up =>
    rw [hkeys .up (by simp), storeVars_get _ (fun n hn => by cases hn)]
    cases hv : dGet .up b.pd with
    | none => trivial
    | some v => obtain ⟨m, hm, _⟩ := h.pdk _ _ hv; cases hm
  | abbrevs =>
    rw [hkeys .abbrevs (by simp), storeVars_get _ (fun n hn => by cases hn)]
    cases hv : dGet .abbrevs b.pd with
    | none => trivial
    | some v => obtain ⟨m, hm, _⟩ := h.pdk _ _ hv; cases hm
  | startidcs =>
    rw [hkeys .startidcs (by simp), storeVars_get _ (fun n hn => by cases hn)]
    cases hv : dGet .startidcs b.pd with
    | none => trivial
    | some v => obtain ⟨m, hm, _⟩ := h.pdk _ _ hv; cases hm

/-- a change of entries without a meaning for the compiled parser -/
theorem Blk.frame {Γ : Kinds} {top : Option Ctrl} {d d' : DDic} {b : CScope} (h : Blk Γ top d b) (hn : DNodup d')
    (hk : ∀ i, dGet (.idx i) d' = none) (hv : ∀ n, dGet (.var n) d' = dGet (.var n) d) : Blk Γ top d' b where
  typed := fun n k ar v hn hd => h.typed n k ar v hn (by rw [← hv]; exact hd)
  good := h.good
  agree := fun n k ar hn is hl => by unfold look; rw [hv]; exact h.agree n k ar hn is hl
  nodup := hn
  keys := hk
  sect := fun n h1 h2 => by rw [hv]; exact h.sect n h1 h2
  pdk := h.pdk
  ctl := by
    have := h.ctl
    unfold CtlB at this ⊢
    cases top with
    | none => intro n hn; rw [hv]; exact this n hn
    | some k => intro n hn; rw [hv]; exact this n hn

theorem blk_dSet {Γ : Kinds} {top : Option Ctrl} {d : DDic} {b : CScope} (h : Blk Γ top d b) {key : Key} (v : Val)
    (hk : ∀ n, key ≠ .var n) (hi : ∀ i, key ≠ .idx i) : Blk Γ top (dSet key v d) b :=
  h.frame (dSet_nodup h.nodup) (fun i => by rw [dGet_dSet_ne (hi i)]; exact h.keys i) fun n => dGet_dSet_ne (hk n) _ _

theorem blk_dDel {Γ : Kinds} {top : Option Ctrl} {d : DDic} {b : CScope} (h : Blk Γ top d b) {key : Key}
    (hk : ∀ n, key ≠ .var n) : Blk Γ top (dDel key d) b :=
  h.frame (dDel_nodup h.nodup) (fun i => by rw [dGet_dDel h.nodup]; split <;> [rfl; exact h.keys i]) fun n => by
    rw [dGet_dDel h.nodup, if_neg (hk n)]

/-- the new block of a section -/
theorem blk_new (Γ : Kinds) (defs : List VKey) : Blk Γ none [] ⟨defs, [], []⟩ where
  typed := fun n k ar v _ h => by simp [dGet] at h
  good := fun k t h => by simp [dGet] at h
  agree := fun n k ar _ is _ => by simp [look, clook, dGet, find]
  nodup := by simp [DNodup, dKeys]
  keys := fun i => rfl
  sect := fun n _ _ => trivial
  pdk := fun k v h => by simp [dGet] at h
  ctl := fun n _ => ⟨rfl, rfl, rfl⟩

/-- the types in `M` are those in `Γ` -/
def SubK (M Γ : Kinds) : Prop := ∀ n x, M n = some x → Γ n = some x

theorem subK_meet (M Γ : Kinds) : SubK (meet M Γ) Γ ∧ SubK (meet M Γ) M := by
  refine ⟨fun n x h => ?_, fun n x h => ?_⟩ <;> unfold meet at h <;> split at h
  · rename_i e; rw [e]; exact h
  · cases h
  · exact h
  · cases h

/-- all levels, innermost first; `k` are the control numbers, `Γ` the types of the innermost block, `M` types in all blocks -/
inductive Lvls (M : Kinds) (k : Ctrl) : Kinds → DDic → CScope → List (DDic × Name × List Int) → List (CScope × Name × List Int) → Prop
  | top {Γ d b} : Blk Γ (some k) d b → SubK M Γ → Lvls M k Γ d b [] []
  | inner {Γ Γ' d b d' b' us us' n is} : Blk Γ none d b → SubK M Γ → dHas .up d = true → Lvls M k Γ' d' b' us us' →
      Lvls M k Γ d b ((d', n, is) :: us) ((b', n, is) :: us')

theorem Lvls.mono {M M' : Kinds} {k : Ctrl} {Γ : Kinds} {d : DDic} {b : CScope} {us us'} (hm : SubK M' M) (h : Lvls M k Γ d b us us') :
    Lvls M' k Γ d b us us' := by
  induction h with
  | top h1 h2 => exact .top h1 fun n x hx => h2 n x (hm n x hx)
  | inner h1 h2 h3 _ ih => exact .inner h1 (fun n x hx => h2 n x (hm n x hx)) h3 ih

theorem Lvls.sub {M : Kinds} {k : Ctrl} {Γ : Kinds} {d : DDic} {b : CScope} {us us'} (h : Lvls M k Γ d b us us') : SubK M Γ := by
  cases h with
  | top _ h => exact h
  | inner _ h => exact h

def topOf (k : Ctrl) : List (DDic × Name × List Int) → Option Ctrl
  | [] => some k
  | _ => none

theorem Lvls.blk {Γ M : Kinds} {k : Ctrl} {d : DDic} {b : CScope} {us us'} (h : Lvls M k Γ d b us us') : Blk Γ (topOf k us) d b := by
  cases h with
  | top h => exact h
  | inner h => exact h

theorem Lvls.set {Γ M : Kinds} {k : Ctrl} {d d' : DDic} {b b' : CScope} {us us'} (h : Lvls M k Γ d b us us')
    (hb : Blk Γ (topOf k us) d' b') (hu : dGet .up d' = dGet .up d) : Lvls M k Γ d' b' us us' := by
  cases h with
  | top h h2 => exact .top hb h2
  | inner h1 h2 h3 h4 => exact .inner hb h2 (by unfold dHas at h3 ⊢; rw [hu]; exact h3) h4

/-- pairs of dictionaries and blocks -/
def pairsOf (d : DDic) (b : CScope) (us : List (DDic × Name × List Int)) (us' : List (CScope × Name × List Int)) :
    List (DDic × CScope) := (d, b) :: (us.map Prod.fst).zip (us'.map Prod.fst)

theorem Lvls.length {Γ M : Kinds} {k : Ctrl} {d : DDic} {b : CScope} {us us'} (h : Lvls M k Γ d b us us') : us.length = us'.length := by
  induction h with
  | top h => rfl
  | inner _ _ _ _ ih => simp [ih]

theorem Blk.weak {Γ M : Kinds} {top : Option Ctrl} {d : DDic} {b : CScope} (hs : SubK M Γ) (h : Blk Γ top d b) :
    TypedD M d ∧ GoodV M b ∧ AgreeB M d b :=
  ⟨fun n k ar v hn => h.typed n k ar v (hs _ _ hn), fun n k ar t hn => h.good.vars n k ar t (hs _ _ hn), fun n k ar hn => h.agree n k ar (hs _ _ hn)⟩

theorem Lvls.pairs {Γ M : Kinds} {k : Ctrl} {d : DDic} {b : CScope} {us us'} (h : Lvls M k Γ d b us us') :
    Pairs M (pairsOf d b us us') ∧ Linked (d :: us.map Prod.fst) := by
  induction h with
  | top h hs =>
    refine ⟨?_, trivial⟩
    intro p hp
    simp only [pairsOf, List.map_nil, List.zip_nil_left, List.mem_singleton] at hp
    subst hp
    exact h.weak hs
  | inner h1 h2 h3 h4 ih =>
    refine ⟨?_, h3, ih.2⟩
    intro p hp
    rcases List.mem_cons.1 hp with rfl | hp
    · exact h1.weak h2
    · exact ih.1 p hp

/-- a control number, once it is stored, is the same for both parsers, and in the outermost dictionary only -/
theorem Lvls.ctlPairs {Γ M : Kinds} {k : Ctrl} {d : DDic} {b : CScope} {us us'} (h : Lvls M k Γ d b us us') {n : Name} (hn : n ∈ ctlNames)
    (hk : dGet (.var n) (((us.map Prod.fst).getLast?).getD d) ≠ none) :
    ∀ p ∈ pairsOf d b us us', (dGet (.var n) p.1 = none ∧ dGet (n, 0) p.2.vars = none) ∨
      ∃ i : Int, dGet (.var n) p.1 = some (.num (.int i)) ∧ dGet (n, 0) p.2.vars = some (.leaf (.num (.int i))) ∧ (n, 0) ∈ p.2.defs := by
  induction h with
  | top h hs =>
    intro p hp
    simp only [pairsOf, List.map_nil, List.zip_nil_left, List.mem_singleton] at hp
    subst hp
    obtain ⟨i, _, h2, _, h4⟩ := h.ctl n hn
    rcases h2 with h2 | h2
    · exact absurd h2 hk
    · exact .inr ⟨i, h2, h4, (h.good _ _ h4).1⟩
  | @inner Γ Γ' d b d' b' us us' m is h1 h2 h3 h4 ih =>
    intro p hp
    rcases List.mem_cons.1 hp with rfl | hp
    · obtain ⟨a1, _, a3⟩ := h1.ctl n hn
      exact .inl ⟨a1, a3⟩
    · refine ih ?_ p hp
      cases hu : us.map Prod.fst with
      | nil => simpa [hu] using hk
      | cons a l =>
        have e1 : ((a :: l).getLast?).getD d' = ((d' :: a :: l).getLast?).getD d := by
          rw [List.getLast?_cons_cons]
          cases hl : (a :: l).getLast? with
          | none => rw [List.getLast?_eq_none_iff] at hl; cases hl
          | some x => rfl
        rw [e1]
        simpa only [List.map_cons, hu] using hk

theorem ctl_pair {d : DDic} {b : CScope} {n : Name} (h : (dGet (.var n) d = none ∧ dGet (n, 0) b.vars = none) ∨
      ∃ i : Int, dGet (.var n) d = some (.num (.int i)) ∧ dGet (n, 0) b.vars = some (.leaf (.num (.int i))) ∧ (n, 0) ∈ b.defs) :
    (∀ v, dGet (.var n) d = some v → DeepT .int 0 v) ∧
    (∀ t, dGet (n, 0) b.vars = some t → (n, 0) ∈ b.defs ∧ GoodT 0 t ∧ DeepT .int 0 t.toPy) ∧
    ∀ is, is.length = 0 → look d n is = clook b n 0 is := by
  rcases h with ⟨h1, h2⟩ | ⟨i, h1, h2, h3⟩
  · rw [h1, h2]
    refine ⟨(fun _ h => by cases h), (fun _ h => by cases h), fun is _ => ?_⟩
    unfold look clook
    rw [h1, h2]
    rfl
  · rw [h1, h2]
    refine ⟨(fun _ h => by cases h; exact ⟨_, rfl⟩), (fun _ h => by cases h; exact ⟨h3, trivial, ⟨_, rfl⟩⟩), fun is hl => ?_⟩
    have : is = [] := List.length_eq_zero_iff.1 hl
    subst this
    unfold look clook
    rw [h1, h2]
    rfl

/-- the environments of conditions and loop bounds -/
theorem Lvls.envs {Γ M : Kinds} {k : Ctrl} {L : List Name} {d : DDic} {us} {cs : FunSt} (h : Lvls M k Γ d cs.cur us cs.ups) (hL : LvOk L cs.lv) :
    Envs M L (pairsOf d cs.cur us cs.ups) d (us.map Prod.fst) cs where
  pairs := h.pairs.1
  fst := by
    simp only [pairsOf, List.map_cons, List.cons.injEq, true_and]
    rw [List.map_fst_zip]
    simp [h.length]
  snd := by
    simp only [pairsOf, List.map_cons, FunSt.blocks, List.cons.injEq, true_and]
    rw [List.map_snd_zip]
    simp [h.length]
  lnk := h.pairs.2
  lv := hL

theorem pairsOf_defs {Γ M : Kinds} {k : Ctrl} {d : DDic} {b : CScope} {us us'} (h : Lvls M k Γ d b us us') :
    (pairsOf d b us us').map (fun p => p.2.defs) = b.defs :: us'.map fun p => p.1.defs := by
  simp only [pairsOf, List.map_cons, List.cons.injEq, true_and]
  have := List.map_snd_zip (l₁ := us.map Prod.fst) (l₂ := us'.map Prod.fst) (by simp [h.length])
  rw [show (fun p : DDic × CScope => p.2.defs) = (fun b : CScope => b.defs) ∘ Prod.snd from rfl, ← List.map_map, this, List.map_map]
  rfl

/-- a section is opened; in the new block there may be other types -/
theorem open_agree {Γ Γ' M M' : Kinds} {k : Ctrl} {s s1 : RSt} {cs cs1 : FunSt} {r : VarRef} {defs : List VKey} (hlv : s.lv = cs.lv)
    (h : Lvls M k Γ s.cur cs.cur s.ups cs.ups) (hM : SubK M' M) (hM' : SubK M' Γ') (hn : Γ r.name = none) (hc : r.name ∉ ctlNames)
    (hfresh : ∀ is, r.idx.mapM (idxVal s.lv) = .ok is → subDic (dGet (.var r.name) s.cur) is = .ok [])
    (ho : openR s r = .ok s1) (hoc : openC cs r defs = .ok cs1) :
    ∃ is, s1 = { s with cur := [(.up, .mark)], ups := (s.cur, r.name, is) :: s.ups } ∧
      cs1 = { cs with cur := ⟨defs, [], []⟩, ups := (cs.cur, r.name, is) :: cs.ups } ∧
      Lvls M' k Γ' s1.cur cs1.cur s1.ups cs1.ups := by
  unfold openR at ho
  simp only [bind_ok, pure_ok] at ho
  obtain ⟨is, his, d, hd, rfl⟩ := ho
  rw [hfresh is his] at hd
  cases hd
  unfold openC at hoc
  simp only [cbind_ok'] at hoc
  obtain ⟨is', his', hoc⟩ := hoc
  rw [cIdxs_ok, ← hlv, his] at his'
  cases his'
  split at hoc
  · cases hoc
  · rename_i d' hd'
    cases hoc
    have := subDic_same (h.blk.sect _ hn hc) (hfresh is his) hd'
    subst this
    refine ⟨is, rfl, rfl, .inner ?_ hM' (by simp [dHas, dSet, dGet]) (h.mono hM)⟩
    exact blk_dSet (blk_new Γ' defs) .mark (by simp) (by simp)

/-- a section is closed -/
theorem close_agree {Γ Γ' : Kinds} {top : Option Ctrl} (hΓ : ∀ n ∈ ctlNames, Γ' n = none) {s s1 : RSt} {cs cs1 : FunSt} {d : DDic} {b : CScope}
    {n : Name} {is : List Int} {us us'} (hs : s.ups = (d, n, is) :: us) (hcs : cs.ups = (b, n, is) :: us') (h3 : Γ n = none) (h4 : n ∉ ctlNames)
    (hb : Blk Γ top d b) (h1 : Blk Γ' none s.cur cs.cur)
    (hkeys : ∀ key, (∀ n, key ≠ .var n) → key ≠ .up → dGet key s.cur = none)
    (hc : closeR s = .ok s1) (hcc : closeC cs = .ok cs1) :
    ∃ new new', s1 = { s with cur := dSet (.var n) new d, ups := us } ∧
      cs1 = { cs with cur := { b with pd := dSet (.var n) new' b.pd }, ups := us' } ∧ Blk Γ top s1.cur cs1.cur := by
  unfold closeR at hc
  rw [hs] at hc
  simp only [bind_ok, pure_ok] at hc
  obtain ⟨new, hnew, rfl⟩ := hc
  unfold closeC at hcc
  rw [hcs] at hcc
  dsimp only at hcc
  split at hcc
  · cases hcc
  · rename_i new' hnew'
    cases hcc
    · refine ⟨new, new', rfl, rfl, ?_⟩
      have hin : SameAt (.dic (dDel .up s.cur)) (.dic (storeVars cs.cur.vars cs.cur.defs cs.cur.pd)) := by
        refine blk_same hΓ (top := none) (blk_dDel h1 (by simp)) ?_ (by simp)
        intro key hk
        rw [dGet_dDel h1.nodup]
        split
        · rfl
        · rename_i hne; exact hkeys key hk (Ne.symm hne)
      have hsame := setArr_same (hb.sect n h3 h4) hin hnew hnew'
      have hne : ∀ m, Γ m ≠ none → (Key.var n) ≠ .var m := by
        rintro m hm he; cases he; exact hm h3
      exact {
        typed := fun m kk ar v hm hd => hb.typed m kk ar v hm (by rwa [dGet_dSet_ne (hne m (by rw [hm]; simp))] at hd)
        good := hb.good
        agree := fun m kk ar hm js hl => by
          unfold look
          rw [dGet_dSet_ne (hne m (by rw [hm]; simp))]
          exact hb.agree m kk ar hm js hl
        nodup := dSet_nodup hb.nodup
        keys := fun i => by rw [dGet_dSet_ne (by simp)]; exact hb.keys i
        sect := fun m hm hmc => by
          rw [dGet_dSet, dGet_dSet]
          split
          · exact hsame
          · exact hb.sect m hm hmc
        pdk := fun key v hv => by
          rw [dGet_dSet] at hv
          split at hv
          · rename_i he; exact ⟨n, he.symm, h3⟩
          · exact hb.pdk key v hv
        ctl := by
          have hcm : ∀ m ∈ ctlNames, Key.var n ≠ .var m := by rintro m hm he; cases he; exact h4 hm
          have := hb.ctl
          cases top with
          | none =>
            intro m hm
            rw [dGet_dSet_ne (hcm m hm), dGet_dSet_ne (hcm m hm)]
            exact this m hm
          | some kk =>
            intro m hm
            rw [dGet_dSet_ne (hcm m hm), dGet_dSet_ne (hcm m hm)]
            exact this m hm }

end Verif.CF
