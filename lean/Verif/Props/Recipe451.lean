import Verif.Model.Recipe451
import Verif.Props.Directory
import Verif.Lemmas.InterpWrite

/-! C52: the number of lines the recipe of MF1/MT451 produces, and the directory of a tape written with it. -/

namespace Verif
open Spec

/-- records that are a single line -/
def oneLine : RKind → Bool
  | .text | .head | .cont | .dir | .send => true
  | _ => false

theorem writeCont_one {o : WOpts} {r : ContRec} {ls : List Str} (h : writeCont o r = .ok ls) : ls.length = 1 := by
  simp only [writeCont, bind_ok, pure_ok] at h
  obtain ⟨_, _, _, _, _, _, _, _, _, _, _, _, rfl⟩ := h
  rfl

theorem renderRec_one {o : WOpts} {zab : Bool} {r : ARec} {ls : List Str} (hk : oneLine r.kind = true)
    (h : renderRec o zab r = .ok ls) : ls.length = 1 := by
  unfold renderRec at h
  split at h
  · cases h; rfl
  · obtain ⟨_, _, h⟩ := bind_ok.mp h
    exact writeCont_one h
  · obtain ⟨_, _, h⟩ := bind_ok.mp h
    exact writeCont_one h
  · simp only [bind_ok, pure_ok] at h
    obtain ⟨_, _, _, _, _, _, _, _, rfl⟩ := h
    rfl
  · rename_i heq _; rw [heq] at hk; cases hk
  · rename_i heq _; rw [heq] at hk; cases hk
  · rename_i heq _; rw [heq] at hk; cases hk
  · rename_i heq _; rw [heq] at hk; cases hk
  · simp only [writeSend, bind_ok, pure_ok] at h
    obtain ⟨_, _, rfl⟩ := h
    rfl
  · cases h

theorem mapM_one {f : ARec → Res (List Str)} {rs : List ARec} {ls : List (List Str)}
    (hf : ∀ r ∈ rs, ∀ l, f r = .ok l → l.length = 1) (h : rs.mapM f = .ok ls) : ls.flatten.length = rs.length := by
  induction rs generalizing ls with
  | nil => cases h; rfl
  | cons r rs ih =>
    rw [List.mapM_cons] at h
    obtain ⟨l, hl, h⟩ := bind_ok.mp h
    obtain ⟨ls', hls, h⟩ := bind_ok.mp h
    cases h
    rw [List.flatten_cons, List.length_append, hf r List.mem_cons_self l hl,
      ih (fun r hr => hf r (List.mem_cons_of_mem _ hr)) hls, List.length_cons, Nat.add_comm]

/-- a step that leaves the dictionary alone and appends `n` single lines -/
structure Emits (n : Nat) (s s' : WSt) : Prop where
  cur : s'.cur = s.cur
  ups : s'.ups = s.ups
  lv : s'.lv = s.lv
  out : ∃ rs : List ARec, s'.out = s.out ++ rs ∧ rs.length = n ∧ ∀ r ∈ rs, oneLine r.kind = true

theorem Emits.trans {m n : Nat} {s s1 s2 : WSt} (h : Emits m s s1) (h' : Emits n s1 s2) : Emits (m + n) s s2 := by
  obtain ⟨a, ha, hm, hr⟩ := h.out
  obtain ⟨b, hb, hn, hr'⟩ := h'.out
  refine ⟨h'.cur.trans h.cur, h'.ups.trans h.ups, h'.lv.trans h.lv, a ++ b, ?_, ?_, ?_⟩
  · rw [hb, ha, List.append_assoc]
  · rw [List.length_append, hm, hn]
  · intro r hm
    rcases List.mem_append.mp hm with h | h
    · exact hr r h
    · exact hr' r h

/-- actions of single lines -/
def oneAct : Act → Bool
  | .text .. | .cont .. | .dir .. | .send => true
  | _ => false

theorem writeAct_kind {fuel : Nat} {s : WSt} {a : Act} {r : ARec} (ha : oneAct a = true)
    (h : writeAct fuel s a = .ok r) : oneLine r.kind = true := by
  rcases a with _ | ⟨b, _, _⟩ | _ | _ | _ | _ | _ | _ | _ <;> simp only [oneAct, Bool.false_eq_true] at ha
  · simp only [writeAct, bind_ok, pure_ok] at h
    obtain ⟨_, _, _, _, _, _, rfl⟩ := h
    rfl
  · simp only [writeAct, bind_ok, pure_ok] at h
    obtain ⟨_, _, _, _, _, _, rfl⟩ := h
    cases b <;> rfl
  · simp only [writeAct, bind_ok, pure_ok] at h
    obtain ⟨_, _, _, _, _, _, rfl⟩ := h
    rfl
  · simp only [writeAct, bind_ok, pure_ok] at h
    obtain ⟨_, _, rfl⟩ := h
    rfl

theorem act_emits {fuel : Nat} {s s' : WSt} {a : Act} (ha : oneAct a = true) (h : writeProg fuel (.act a) s = .ok s') :
    Emits 1 s s' := by
  simp only [writeProg, bind_ok, pure_ok] at h
  obtain ⟨r, hr, rfl⟩ := h
  refine ⟨rfl, rfl, rfl, [r], rfl, rfl, ?_⟩
  intro r' hm
  rw [List.mem_singleton.mp hm]
  exact writeAct_kind ha hr

theorem seq_ok {fuel : Nat} {a b : Prog} {s s' : WSt} (h : writeProg fuel (.seq a b) s = .ok s') :
    ∃ s1, writeProg fuel a s = .ok s1 ∧ writeProg fuel b s1 = .ok s' := by
  simp only [writeProg, bind_ok] at h
  exact h

theorem iter_emits {fuel : Nat} {v : Name} {a : Act} (ha : oneAct a = true) {is : List Int} {s s' : WSt}
    (h : iterateW (WSt.setVar v) (writeProg fuel (.act a)) is s = .ok s') :
    s'.cur = s.cur ∧ s'.ups = s.ups ∧
      ∃ rs : List ARec, s'.out = s.out ++ rs ∧ rs.length = is.length ∧ ∀ r ∈ rs, oneLine r.kind = true := by
  induction is generalizing s with
  | nil => cases h; exact ⟨rfl, rfl, [], (List.append_nil _).symm, rfl, by simp⟩
  | cons i is ih =>
    simp only [iterateW, bind_ok] at h
    obtain ⟨s1, h1, h2⟩ := h
    have e := act_emits ha h1
    obtain ⟨rs, ho, hl, hr⟩ := e.out
    obtain ⟨hc, hu, rs', ho', hl', hr'⟩ := ih h2
    refine ⟨hc.trans e.cur, hu.trans e.ups, rs ++ rs', ?_, ?_, ?_⟩
    · rw [ho', ho, List.append_assoc]; rfl
    · rw [List.length_append, hl, hl', List.length_cons, Nat.add_comm]
    · intro r hm
      rcases List.mem_append.mp hm with h | h
      · exact hr r h
      · exact hr' r h

theorem loop_emits {fuel : Nat} {v : Name} {x y : Expr} {a : Act} (ha : oneAct a = true) {s s' : WSt} {m n : Int}
    (hh : loopHead fuel s.env v x y = .ok (m, n)) (h : writeProg fuel (.loop v x y (.act a)) s = .ok s') :
    Emits (n + 1 - m).toNat s s' := by
  have hf := writeProg_frame h
  have hlv : s'.lv = s.lv := hf.lv
  simp only [writeProg, hh, bind_ok, pure_ok] at h
  obtain ⟨_, hp, s1, h1, h2⟩ := h
  cases hp
  obtain ⟨hc, hu, rs, ho, hl, hr⟩ := iter_emits ha h1
  have hlen : (intRange m n).length = (n + 1 - m).toNat := by simp [intRange]
  rw [hlen] at hl
  subst h2
  refine ⟨?_, ?_, hlv, rs, ?_, hl, hr⟩
  · split <;> exact hc
  · split <;> exact hu
  · split <;> exact ho

/-- the value of a plain integer variable of the section -/
theorem getVarval_int {s : WSt} {n : Name} {i : Int} (hlv : s.lv = [])
    (h : dGet (.var n) s.cur = some (.num (.int i))) : getVarval s.env true ⟨n, []⟩ = .ok (.num (.int i)) := by
  have hh : dHas (.var n) s.cur = true := by simp [dHas, h]
  have hfs : ∀ us, findScope true n s.cur us = some s.cur := by
    intro us; cases us <;> simp [findScope, hh]
  simp only [getVarval, WSt.env, hlv]
  simp [dHas, dGet, hfs, h, getArr]

theorem evalKnown_int {fuel : Nat} {s : WSt} {n : Name} {i : Int} (hlv : s.lv = [])
    (h : dGet (.var n) s.cur = some (.num (.int i))) : evalKnown fuel s.env true true (pv n) = .ok (.num (.int i)) := by
  have hg := getVarval_int hlv h
  cases fuel <;> simp [evalKnown, evalExpr, evalWith, pv, evalVar, hg]

theorem loopBound_int (i : Int) : loopBound (.num (.int i)) = .ok i := by
  simp [loopBound, PyNum.val, truncRat_int]

theorem loopHead_int {fuel : Nat} {s : WSt} {v : Name} {x y : Expr} {m n : Int} (hlv : s.lv = [])
    (hx : evalKnown fuel s.env true true x = .ok (.num (.int m)))
    (hy : evalKnown fuel s.env true true y = .ok (.num (.int n))) : loopHead fuel s.env v x y = .ok (m, n) := by
  simp only [loopHead, hx, hy]
  have : dHas v s.env.lv = false := by simp [WSt.env, hlv, dHas, dGet]
  simp [bind, Except.bind, loopBound_int, this]
  rfl

theorem evalKnown_num (fuel : Nat) (env : Env) (i : Int) :
    evalKnown fuel env true true (.num (.int i)) = .ok (.num (.int i)) := by
  cases fuel <;> rfl

theorem evalKnown_sub {fuel : Nat} {s : WSt} {n : Name} {i k : Int} (hlv : s.lv = [])
    (h : dGet (.var n) s.cur = some (.num (.int i))) :
    evalKnown fuel s.env true true (.sub (pv n) (.num (.int k))) = .ok (.num (.int (i - k))) := by
  have hg := getVarval_int hlv h
  cases fuel <;> simp [evalKnown, evalExpr, evalWith, pv, evalVar, hg, linAddSub, Lin.unk, Val.scalar, pSub, bind,
    Except.bind, pure, Except.pure, PyNum.val]

/-- the lines of the recipe -/
theorem recipe451_emits {fuel : Nat} {s s' : WSt} (hlv : s.lv = []) {nwd nxc : Int}
    (hw : dGet (.var "NWD") s.cur = some (.num (.int nwd))) (hx : dGet (.var "NXC") s.cur = some (.num (.int nxc)))
    (h : writeProg fuel recipe451 s = .ok s') :
    Emits (4 + (5 + ((nwd - 5).toNat + (nxc.toNat + 1)))) s s' := by
  obtain ⟨s4, a, h⟩ := seq_ok h
  obtain ⟨s5, b, h⟩ := seq_ok h
  obtain ⟨s6, c, h⟩ := seq_ok h
  obtain ⟨s7, d, e⟩ := seq_ok h
  have ea : Emits 4 s s4 := by
    obtain ⟨_, a1, a⟩ := seq_ok a
    obtain ⟨_, a2, a⟩ := seq_ok a
    obtain ⟨_, a3, a4⟩ := seq_ok a
    exact (act_emits rfl a1).trans ((act_emits rfl a2).trans ((act_emits rfl a3).trans (act_emits rfl a4)))
  have eb : Emits 5 s4 s5 := by
    obtain ⟨t1, b1, b⟩ := seq_ok b
    obtain ⟨t2, b2, b3⟩ := seq_ok b
    have e1 := act_emits rfl b1
    have e2 := act_emits rfl b2
    have hl : t2.lv = [] := e2.lv.trans (e1.lv.trans (ea.lv.trans hlv))
    have e3 := loop_emits rfl (loopHead_int hl (evalKnown_num fuel t2.env 1) (evalKnown_num fuel t2.env 3)) b3
    exact e1.trans (e2.trans e3)
  have eab := ea.trans eb
  have ec := loop_emits rfl (loopHead_int (eab.lv.trans hlv) (evalKnown_num fuel s5.env 1)
    (evalKnown_sub (k := 5) (eab.lv.trans hlv) (by rw [eab.cur]; exact hw))) c
  have eabc := eab.trans ec
  have ed := loop_emits rfl (loopHead_int (eabc.lv.trans hlv) (evalKnown_num fuel s6.env 1)
    (evalKnown_int (eabc.lv.trans hlv) (by rw [eabc.cur]; exact hx))) d
  have := eabc.trans (ed.trans (act_emits rfl e))
  have hn : 4 + 5 + (nwd - 5 + 1 - 1).toNat + ((nxc + 1 - 1).toNat + 1) =
      4 + (5 + ((nwd - 5).toNat + (nxc.toNat + 1))) := by omega
  rw [← hn]
  exact this

theorem dGet_initWork (n : Name) (d : DDic) : dGet (.var n) (initWork d) = dGet (.var n) d := by
  unfold initWork
  rw [dGet_dSet_ne (by simp), dGet_dSet_ne (by simp)]

/-- **C52** number of lines: whenever MF1/MT451 is written with its recipe, there are four leading records, five fixed
text lines, NWD - 5 lines of description, NXC lines of directory and the SEND record. -/
theorem C52_lines {fuel : Nat} {o : WOpts} {zab : Bool} {d : DDic} {ls : List Str} {c : Ctrl} {nwd nxc : Int}
    (hw : dGet (.var "NWD") d = some (.num (.int nwd))) (hx : dGet (.var "NXC") d = some (.num (.int nxc)))
    (h : sectionLines fuel o zab 1 451 recipe451 d = .ok (ls, c)) :
    ls.length = 4 + 5 + (nwd - 5).toNat + nxc.toNat + 1 := by
  simp only [sectionLines, bind_ok, pure_ok] at h
  obtain ⟨s, hs, rs, hr, c', hc, he⟩ := h
  cases he
  have key : ∀ d1 : DDic, (∀ n, n ≠ "MF" → n ≠ "MT" → dGet (.var n) d1 = dGet (.var n) d) → ∀ s1,
      writeProg fuel recipe451 { cur := initWork d1 } = .ok s1 →
      (s1.out.length = 4 + 5 + (nwd - 5).toNat + nxc.toNat + 1 ∧ ∀ r ∈ s1.out, oneLine r.kind = true) := by
    intro d1 hd s1 h1
    have e := recipe451_emits rfl (nwd := nwd) (nxc := nxc) (by rw [dGet_initWork, hd _ (by decide) (by decide)]; exact hw)
      (by rw [dGet_initWork, hd _ (by decide) (by decide)]; exact hx) h1
    obtain ⟨rs, ho, hl, hk⟩ := e.out
    rw [List.nil_append] at ho
    rw [ho]
    exact ⟨by omega, hk⟩
  have hd : ∀ (m : Name) (v : Val) (d0 : DDic), (∀ n, n ≠ "MF" → n ≠ "MT" → dGet (.var n) d0 = dGet (.var n) d) →
      (m = "MF" ∨ m = "MT") → ∀ n, n ≠ "MF" → n ≠ "MT" →
      dGet (.var n) (if dHas (.var m) d0 then d0 else dSet (.var m) v d0) = dGet (.var n) d := by
    intro m v d0 h0 hm n h1 h2
    split
    · exact h0 n h1 h2
    · rw [dGet_dSet_ne, h0 n h1 h2]
      intro hc
      cases hc
      rcases hm with rfl | rfl
      · exact h1 rfl
      · exact h2 rfl
  simp only [writeSection, bind_ok] at hs
  obtain ⟨_, _, hs⟩ := hs
  split at hs
  · cases hs
  · obtain ⟨_, _, hs⟩ := bind_ok.mp hs
    split at hs
    · cases hs
    · simp only [bind_ok, pure_ok] at hs
      obtain ⟨s1, h1, _, _, rfl⟩ := hs
      obtain ⟨k1, k2⟩ := key _ (hd _ _ _ (hd _ _ _ (fun _ _ _ => rfl) (.inl rfl)) (.inr rfl)) s1 h1
      rw [mapM_one (fun r hr l hl => renderRec_one (k2 r hr) hl) hr]
      exact k1

theorem intArr_arrVal (a : Dict Int Int) : intArr (arrVal a) = a := by
  unfold arrVal intArr
  induction a with
  | nil => rfl
  | cons p a ih => simp only [List.map_cons, List.filterMap_cons]; simp [ih]

/-- storing a directory and looking at the section again gives it back -/
theorem sec451_put451 (s : Sec451) (d : DDic) :
    sec451 (put451 s d) = { s with nwd := intOf "NWD" d, descr := (sec451 d).descr, mfx := some (s.mfx.getD []) } := by
  simp [sec451, put451, intOf, dGet_dSet, intArr_arrVal]

/-- **C52** `update_directory` for a dictionary with a section MF1/MT451 that is written with its recipe: after the
update the directory has the lines 1 to NXC and lists exactly the sections found in the lines written for the updated
dictionary, each once, with the number of lines it has there; updating again changes nothing.  The number NWD must
count the five fixed text lines, `NWD ≥ 5`: see `C52_nwd_fails`. -/
theorem C52_recipe (e : WriteEnv DDic) (hr : e.r.width = e.o.width) (hw : 9 ≤ e.o.width)
    (hsel : e.excl = none ∧ e.incl = none) (fuel : Nat)
    (hren : ∀ d, e.render 1 451 d = some (sectionLines fuel e.o e.zab 1 451 recipe451 d)) (mat : Int)
    (dic : Dict Int (Dict Int (SecVal DDic))) (f1 : Dict Int (SecVal DDic)) (x : DDic)
    (hf1 : dGet 1 dic = some f1) (hx : dGet 451 f1 = some (.data x))
    (hok : FilesOk e mat dic) (hh : TapeHeadOk e dic) (nwd : Int)
    (hnwd : dGet (.var "NWD") x = some (.num (.int nwd))) (h5 : 5 ≤ nwd)
    (out : List Str) (hout : writeTape e dic = .ok out) (s1 : Sec451)
    (hup : updateDirectory { fields := e.r } out (sec451 x) = .ok s1)
    (dic1 : Dict Int (Dict Int (SecVal DDic))) (hdic1 : dic1 = dSet 1 (dSet 451 (.data (put451 s1 x)) f1) dic)
    (hok1 : FilesOk e mat dic1) :
    ∃ out1 d1, writeTape e dic1 = .ok out1 ∧ splitSections { fields := e.r, ignoreTpid := true } out1 = .ok d1 ∧
      (∀ i, (dirRow s1 i).isSome ↔ 1 ≤ i ∧ i ≤ s1.nxc) ∧
      (∀ i j r r', dirRow s1 i = some r → dirRow s1 j = some r' → r.mf = r'.mf → r.mt = r'.mt → i = j) ∧
      (∀ mf mt nc, (∃ i m, dirRow s1 i = some ⟨mf, mt, nc, m⟩) ↔
        mf ≠ 0 ∧ mt ≠ 0 ∧ ∃ ls, secOf d1 mf mt = some ls ∧ nc = (ls.length : Int)) ∧
      updateDirectory { fields := e.r } out1 (sec451 (put451 s1 x)) = .ok s1 := by
  have hs : 0 ≤ s1.nxc ∧ s1.nwd = nwd ∧ s1.descr = (sec451 x).descr ∧ s1.mfx = some (s1.mfx.getD []) := by
    simp only [updateDirectory, updateDirWith, bind_ok, pure_ok] at hup
    obtain ⟨_, _, _, _, _, _, rfl⟩ := hup
    refine ⟨Int.natCast_nonneg _, ?_, rfl, rfl⟩
    simp [sec451, intOf, hnwd]
  have heq : sec451 (put451 s1 x) = s1 := by
    rw [sec451_put451]
    have h1 : intOf "NWD" x = s1.nwd := by rw [hs.2.1]; simp [intOf, hnwd]
    rw [h1, ← hs.2.2.1, ← hs.2.2.2]
  have hlen : ∀ ls c, e.render 1 451 (put451 s1 x) = some (.ok (ls, c)) → (ls.length : Int) = 4 + s1.nwd + s1.nxc + 1 := by
    intro ls c h
    rw [hren, Option.some.injEq] at h
    have := C52_lines (nwd := nwd) (nxc := s1.nxc) (by simp [put451, dGet_dSet, hnwd]) (by simp [put451, dGet_dSet]) h
    rw [this, hs.2.1]
    have := hs.1
    omega
  rw [heq]
  exact C52_partial e hr hw hsel mat sec451 put451 dic f1 x hf1 hx hok hh out hout s1 hup hlen dic1 hdic1 hok1

/-! ### A case meeting the assumptions -/

/-- the assumptions on a section as a check -/
def dataOkB (e : WriteEnv DDic) (mat mf mt : Int) (l : Str) : Bool :=
  decide (6 * e.o.width + 9 ≤ l.length) && decide (strip l ≠ []) &&
    (readCtrl e.r.width l).toOption == some ⟨mat, mf, mt⟩

def endOkB (r : ROpts) (mat mf : Int) (l : Str) : Bool :=
  decide (strip l ≠ []) && (readCtrl r.width l).toOption == some ⟨mat, mf, 0⟩ &&
    match readCont r [l] 0 with
    | .ok (x, _) => decide (x.c1.val = 0) && decide (x.c2.val = 0) && decide (x.l1 = .int 0) && decide (x.l2 = .int 0) &&
        decide (x.n1 = .int 0) && decide (x.n2 = .int 0)
    | .error _ => false

def secOkB (e : WriteEnv DDic) (mat mf mt : Int) (v : SecVal DDic) : Bool :=
  decide (mat ≠ 0) && decide (mf ≠ 0) && decide (mt ≠ 0) && !(secText e mf mt v).isEmpty &&
  (secText e mf mt v).all (dataOkB e mat mf mt) &&
  match v with
  | .verb _ => true
  | .data x =>
    match e.render mf mt x with
    | some (.ok (ls, c)) => c == ⟨mat, mf, mt⟩ &&
      match ls.getLast? with
      | some l => endOkB e.r mat mf l
      | none => false
    | _ => false

theorem toOption_ok {α : Type} {x : Res α} {a : α} (h : x.toOption = some a) : x = .ok a := by
  cases x with
  | error _ => cases h
  | ok b => cases h; rfl

theorem secOkB_sound {e : WriteEnv DDic} {mat mf mt : Int} {v : SecVal DDic} (h : secOkB e mat mf mt v = true) :
    SecOk e mat mf mt v := by
  simp only [secOkB, Bool.and_eq_true, decide_eq_true_eq, List.all_eq_true] at h
  obtain ⟨⟨⟨⟨⟨h1, h2⟩, h3⟩, h4⟩, h5⟩, h6⟩ := h
  refine ⟨fun hc => by simp [hc] at h4, ?_, ?_⟩
  · intro l hl
    have := h5 l hl
    simp only [dataOkB, Bool.and_eq_true, decide_eq_true_eq, beq_iff_eq] at this
    obtain ⟨⟨a, b⟩, c⟩ := this
    exact ⟨a, b, theReader_ctrl.mpr (toOption_ok c), h1, h2, h3⟩
  · cases v with
    | verb ls => trivial
    | data x =>
      dsimp only at h6 ⊢
      split at h6
      · rename_i ls c hren
        simp only [Bool.and_eq_true, beq_iff_eq] at h6
        obtain ⟨hc, h6⟩ := h6
        split at h6
        · rename_i l hl
          refine ⟨ls.dropLast, l, ?_, ?_⟩
          · rw [hren, hc, List.dropLast_append_getLast? _ hl]
          · simp only [endOkB, Bool.and_eq_true, decide_eq_true_eq, beq_iff_eq] at h6
            obtain ⟨⟨a, b⟩, c⟩ := h6
            refine ⟨a, theReader_ctrl.mpr (toOption_ok b), ?_⟩
            split at c
            · rename_i y n hy
              simp only [Bool.and_eq_true, decide_eq_true_eq] at c
              obtain ⟨⟨⟨⟨⟨c1, c2⟩, c3⟩, c4⟩, c5⟩, c6⟩ := c
              exact ⟨y, n, hy, c1, c2, c3, c4, c5, c6⟩
            · cases c
        · cases h6
      · cases h6

def filesOkB (e : WriteEnv DDic) (mat : Int) (dic : Dict Int (Dict Int (SecVal DDic))) : Bool :=
  decide ((dKeys dic).Nodup) && dic.all (fun p => decide ((dKeys p.2).Nodup) && decide (0 ≤ p.1) &&
    (decide (p.1 = 0) || p.2.all fun q => decide (-1000 < mat) && decide (mat < 10000) && decide (-10 < p.1) &&
      decide (p.1 < 100) && decide (-100 < q.1) && decide (q.1 < 1000) && secOkB e mat p.1 q.1 q.2)) &&
  match dGet 1 dic with
  | some f => (dGet 451 f).isSome
  | none => false

theorem filesOkB_sound {e : WriteEnv DDic} (hs : e.excl = none ∧ e.incl = none) {mat : Int}
    {dic : Dict Int (Dict Int (SecVal DDic))} (h : filesOkB e mat dic = true) : FilesOk e mat dic := by
  simp only [filesOkB, Bool.and_eq_true, decide_eq_true_eq, List.all_eq_true, Bool.or_eq_true] at h
  obtain ⟨⟨h1, h2⟩, h3⟩ := h
  refine ⟨h1, ?_, ?_, ?_, ?_⟩
  · intro mf d hd; exact (h2 _ (dGet_mem hd)).1.1
  · intro mf d hd; exact (h2 _ (dGet_mem hd)).1.2
  · intro mf d mt v hd hv hmf _
    rcases (h2 _ (dGet_mem hd)).2 with h | h
    · exact absurd h hmf
    · obtain ⟨⟨⟨⟨⟨⟨a, b⟩, c⟩, d⟩, f⟩, g⟩, s⟩ := h _ (dGet_mem hv)
      exact ⟨⟨⟨a, b⟩, ⟨c, d⟩, f, g⟩, secOkB_sound s⟩
  · split at h3
    · rename_i f hf
      obtain ⟨v, hv⟩ := Option.isSome_iff_exists.mp h3
      exact ⟨1, f, 451, v, hf, hv, by decide, by rw [hs.1, hs.2]; rfl⟩
    · cases h3

namespace Example

/-- a dictionary of MF1/MT451 with a given NWD, one line of description and an empty directory -/
def sec (nwd : Int) : DDic :=
  let int (n : Name) (i : Int) : Key × Val := (.var n, .num (.int i))
  let txt (n : Name) (t : String) : Key × Val := (.var n, .txt t.toList)
  [int "MAT" 125, int "MF" 1, int "MT" 451, int "ZA" 1001, int "AWR" 1, int "LRP" 0, int "LFI" 0, int "NLIB" 0,
   int "NMOD" 0, int "ELIS" 0, int "STA" 0, int "LIS" 0, int "LISO" 0, int "NFOR" 6, int "AWI" 1, int "EMAX" 20,
   int "LREL" 0, int "NSUB" 10, int "NVER" 8, int "TEMP" 0, int "LDRV" 0, int "NWD" nwd, int "NXC" 0,
   txt "ZSYMAM" "  1-H -  1 ", txt "ALAB" "LAB        ", txt "EDATE" "EVAL-OCT05",
   (.var "AUTH", .txt (ljust "A. Author".toList 33)),
   (.var "REF", .txt (ljust "Report".toList 21)), txt "DDATE" "DIST-DEC06", txt "RDATE" "REV1-DEC06", txt "ENDATE" "20061213",
   (.var "HSUB", .dic [(.idx 1, .txt "----ENDF/B".toList), (.idx 2, .txt "-----NEUTRON".toList),
     (.idx 3, .txt "------ENDF-6".toList)]),
   (.var "DESCRIPTION", .dic [(.idx 1, .txt "about this".toList)])]

/-- settings of the parser: MF1/MT451 has its recipe, the other sections are not parsed -/
def env : WriteEnv DDic :=
  { render := fun mf mt d =>
      if mf = 1 ∧ mt = 451 then some (sectionLines 0 {} false 1 451 recipe451 d) else none }

/-- a tape with MF1/MT451 and a section of two lines -/
def tape (x : DDic) : Dict Int (Dict Int (SecVal DDic)) :=
  [(1, [(451, .data x)]), (3, [(102, .verb [exLine "a" 125 3 102, exLine "b" 125 3 102])])]

/-- the directory the update gives -/
def newDir (nwd : Int) : Sec451 :=
  { sec451 (sec nwd) with
    nxc := 2, mfx := some [(1, 1), (2, 3)], mtx := [(1, 451), (2, 102)], ncx := [(1, 6 + nwd), (2, 2)]
    mod := [(1, 0), (2, 0)] }

/-- the number of lines of MF1/MT451 in the written tape and the number the directory gives -/
def own451 (nwd : Int) : Option (Nat × Option Int) :=
  match writeTape env (tape (sec nwd)) with
  | .ok out =>
    match updateDirectory {} out (sec451 (sec nwd)) with
    | .ok s1 =>
      match writeTape env (tape (put451 s1 (sec nwd))) with
      | .ok out1 =>
        match splitSections { ignoreTpid := true } out1 with
        | .ok d1 => (secOf d1 1 451).map fun ls => (ls.length, dGet 1 s1.ncx)
        | .error _ => none
      | .error _ => none
    | .error _ => none
  | .error _ => none

/-- the assumptions of `C52_recipe` hold for this tape; its own entry is 12 lines and it has 12 lines -/
example : filesOkB env 125 (tape (sec 6)) = true ∧ filesOkB env 125 (tape (put451 (newDir 6) (sec 6))) = true ∧
    own451 6 = some (12, some 12) := by decide +kernel

/-- **C52** `update_directory` assumes that NWD counts the five text lines every material has: with NWD = 0 the recipe
writes eleven lines and the directory says six. -/
theorem C52_nwd_fails : own451 0 = some (11, some 6) := by decide +kernel

end Example

end Verif
