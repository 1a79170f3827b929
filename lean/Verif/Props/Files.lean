import Verif.Model.Files
import Verif.Lemmas.Level

/-! C58–C60: the recipe cache, `writefile` and the backups of the command line tools. -/

namespace Verif

/-- every name belongs to an inode -/
structure FS.Ok (fs : FS) : Prop where
  nodup : DNodup fs.names
  lt : ∀ n i, dGet n fs.names = some i → i < fs.inodes.length

theorem has_iff {fs : FS} {n : Str} : fs.has n = true ↔ ∃ i, dGet n fs.names = some i := by
  unfold FS.has dHas
  rw [Option.isSome_iff_exists]

theorem not_has_iff {fs : FS} {n : Str} : fs.has n = false ↔ dGet n fs.names = none := by
  unfold FS.has dHas
  cases dGet n fs.names <;> simp

theorem has_of_content {fs : FS} {n c : Str} (h : fs.content n = some c) : fs.has n = true := by
  unfold FS.content at h
  cases hg : dGet n fs.names with
  | none => rw [hg] at h; cases h
  | some i => exact has_iff.mpr ⟨i, hg⟩

theorem FS.Ok.content {fs : FS} (h : fs.Ok) {n : Str} (hn : fs.has n = true) : ∃ c, fs.content n = some c := by
  obtain ⟨i, hi⟩ := has_iff.mp hn
  refine ⟨fs.inodes[i]'(h.lt n i hi), ?_⟩
  unfold FS.content
  rw [hi, Option.bind_some, List.getElem?_eq_getElem (h.lt n i hi)]

/-! ### links -/

theorem link_spec {fs fs' : FS} (hw : fs.Ok) {src dst : Str} (h : fs.link src dst = some fs') :
    fs'.Ok ∧ fs.has dst = false ∧ fs.has src = true ∧ fs'.content dst = fs.content src ∧
      (∀ n, n ≠ dst → fs'.content n = fs.content n ∧ fs'.has n = fs.has n) ∧ fs'.has dst = true := by
  unfold FS.link at h
  cases hs : dGet src fs.names with
  | none => rw [hs] at h; cases h
  | some i =>
    rw [hs] at h
    dsimp only at h
    split at h
    · cases h
    · rename_i hd
      simp only [Option.some.injEq] at h
      subst h
      refine ⟨⟨dSet_nodup hw.nodup, ?_⟩, by simpa using hd, has_iff.mpr ⟨i, hs⟩, ?_, ?_, ?_⟩
      · intro n j hj
        rw [dGet_dSet] at hj
        split at hj
        · simp only [Option.some.injEq] at hj; subst hj; exact hw.lt _ _ hs
        · exact hw.lt _ _ hj
      · unfold FS.content; simp only [dGet_dSet_self, hs]
      · intro n hn
        unfold FS.content FS.has dHas
        simp only [dGet_dSet_ne (Ne.symm hn), and_self]
      · exact has_iff.mpr ⟨i, dGet_dSet_self _ _ _⟩

theorem unlink_spec {fs fs' : FS} (hw : fs.Ok) {f : Str} (h : fs.unlink f = some fs') :
    fs'.Ok ∧ fs'.has f = false ∧ ∀ n, n ≠ f → fs'.content n = fs.content n ∧ fs'.has n = fs.has n := by
  unfold FS.unlink at h
  split at h
  · simp only [Option.some.injEq] at h
    subst h
    refine ⟨⟨dDel_nodup hw.nodup, ?_⟩, ?_, ?_⟩
    · intro n i hi
      dsimp only at hi
      rw [dGet_dDel hw.nodup] at hi
      split at hi
      · cases hi
      · exact hw.lt _ _ hi
    · rw [not_has_iff]; dsimp only; rw [dGet_dDel hw.nodup, if_pos rfl]
    · intro n hn
      unfold FS.content FS.has dHas
      dsimp only
      rw [dGet_dDel hw.nodup, if_neg (Ne.symm hn)]
      exact ⟨rfl, rfl⟩
  · cases h

theorem rename_spec {fs fs' : FS} {src dst : Str} (h : fs.rename src dst = some fs') :
    ∃ fs1, fs.link src dst = some fs1 ∧ fs1.unlink src = some fs' := by
  unfold FS.rename at h
  unfold FS.link
  cases hs : dGet src fs.names with
  | none => rw [hs] at h; cases h
  | some i =>
    rw [hs] at h
    dsimp only at h ⊢
    split at h
    · cases h
    · rename_i hd
      rw [if_neg hd]
      simp only [Option.some.injEq] at h
      refine ⟨_, rfl, ?_⟩
      unfold FS.unlink
      have : (FS.mk (dSet dst i fs.names) fs.inodes).has src = true := by
        rw [has_iff]
        dsimp only
        by_cases he : dst = src
        · exact ⟨i, by rw [he, dGet_dSet_self]⟩
        · exact ⟨i, by rw [dGet_dSet_ne he, hs]⟩
      rw [if_pos this]
      exact congrArg some h

/-! ### writing a new file -/

theorem save_new {fs : FS} {n : Str} (h : fs.has n = false) (c : Str) (st : FS) (hst : st ∈ fs.save n c) :
    ∃ x, st = ⟨dSet n fs.inodes.length fs.names, fs.inodes ++ [x]⟩ := by
  have ho : fs.openW n = ⟨dSet n fs.inodes.length fs.names, fs.inodes ++ [[]]⟩ := by
    unfold FS.openW; rw [not_has_iff.mp h]
  unfold FS.save at hst
  rw [ho] at hst
  rcases List.mem_cons.mp hst with rfl | hst
  · exact ⟨[], rfl⟩
  · obtain ⟨k, _, rfl⟩ := List.mem_map.mp hst
    refine ⟨c.take (k + 1), ?_⟩
    unfold FS.put
    simp only [dGet_dSet_self, List.set_append_right _ _ (le_refl _), Nat.sub_self, List.set_cons_zero]

theorem new_spec {fs : FS} (hw : fs.Ok) (n x : Str) :
    (FS.mk (dSet n fs.inodes.length fs.names) (fs.inodes ++ [x])).Ok ∧
      (∀ m, m ≠ n → (FS.mk (dSet n fs.inodes.length fs.names) (fs.inodes ++ [x])).content m = fs.content m ∧
        (FS.mk (dSet n fs.inodes.length fs.names) (fs.inodes ++ [x])).has m = fs.has m) ∧
      (FS.mk (dSet n fs.inodes.length fs.names) (fs.inodes ++ [x])).has n = true := by
  refine ⟨⟨dSet_nodup hw.nodup, ?_⟩, ?_, has_iff.mpr ⟨_, dGet_dSet_self _ _ _⟩⟩
  · intro m i hi
    dsimp only at hi ⊢
    rw [dGet_dSet] at hi
    rw [List.length_append, List.length_singleton]
    split at hi
    · simp only [Option.some.injEq] at hi; omega
    · have := hw.lt _ _ hi; omega
  · intro m hm
    unfold FS.content FS.has dHas
    dsimp only
    rw [dGet_dSet_ne (Ne.symm hm)]
    refine ⟨?_, rfl⟩
    cases hg : dGet m fs.names with
    | none => rfl
    | some i =>
      rw [Option.bind_some, Option.bind_some, List.getElem?_append_left (hw.lt _ _ hg)]

theorem save_ne_nil (fs : FS) (n c : Str) : fs.save n c ≠ [] := by unfold FS.save; simp

/-! ### runs -/

theorem final_mem {fs : FS} {s : Steps} (h : s.states ≠ []) : s.final fs ∈ s.states := by
  unfold Steps.final
  rw [List.getLast?_eq_some_getLast h, Option.getD_some]
  exact List.getLast_mem h

theorem final_append (fs : FS) (a b : List FS) (x y z : Bool) :
    Steps.final fs ⟨a ++ b, x⟩ = Steps.final (Steps.final fs ⟨a, y⟩) ⟨b, z⟩ := by
  unfold Steps.final
  dsimp only
  rw [List.getLast?_append]
  cases b.getLast? <;> simp

/-! ## C60 -/

/-- The promise: the content of every file of `fs0` is still there in `st`: unchanged under its name, or, for files to be
edited, under a backup name that was not in use. -/
def Kept (fs0 : FS) (files : List Str) (st : FS) : Prop :=
  ∀ q c, fs0.content q = some c → ∃ k, k ≤ 10 ∧ (0 < k → q ∈ files ∧ fs0.has (bakName q k) = false) ∧
    st.content (bakName q k) = some c

/-- all files of `fs0` exist in `st`, perhaps without `f` -/
def AllBut (fs0 : FS) (f : Option Str) (st : FS) : Prop := ∀ q, fs0.has q = true → some q ≠ f → st.has q = true

structure CacheGood (fs0 : FS) (files : List Str) (f : Option Str) (st : FS) : Prop where
  ok : st.Ok
  kept : Kept fs0 files st
  all : AllBut fs0 f st

theorem CacheGood.weaken {fs0 : FS} {files : List Str} {f : Option Str} {st : FS} (h : CacheGood fs0 files none st) : CacheGood fs0 files f st :=
  ⟨h.ok, h.kept, fun q hq _ => h.all q hq (by simp)⟩

theorem bakName_length (f : Str) (k : Nat) : (bakName f k).length = f.length + 4 * k := by
  induction k with
  | zero => rfl
  | succ k ih => simp only [bakName, List.length_append, ih, bakSuffix]; simp; omega

theorem atomicRename_good {fs0 : FS} {files : List Str} {f : Str} (hf : f ∈ files) (hf0 : fs0.has f = true) {win : Bool}
    {st : FS} (h : CacheGood fs0 files none st) {k : Nat} (hk : 0 < k) (hk2 : k ≤ 10) (o : OsFail) :
    (∀ s ∈ (atomicRename win st f (bakName f k) o).states, CacheGood fs0 files (some f) s) ∧
    ((atomicRename win st f (bakName f k) o).ok = false →
      CacheGood fs0 files none ((atomicRename win st f (bakName f k) o).final st)) ∧
    ((atomicRename win st f (bakName f k) o).ok = true →
      CacheGood fs0 files (some f) ((atomicRename win st f (bakName f k) o).final st) ∧
      ((atomicRename win st f (bakName f k) o).final st).has f = false) := by
  have hne : bakName f k ≠ f := by
    intro hc
    have := congrArg List.length hc
    rw [bakName_length] at this
    omega
  -- the states after the link and after unlinking
  have hlink : ∀ s1, st.link f (bakName f k) = some s1 → CacheGood fs0 files none s1 := by
    intro s1 hl
    obtain ⟨a1, a2, a3, a4, a5, a6⟩ := link_spec h.ok hl
    refine ⟨a1, ?_, ?_⟩
    · intro q c hq
      obtain ⟨j, hj, hj1, hj2⟩ := h.kept q c hq
      refine ⟨j, hj, hj1, ?_⟩
      have : bakName q j ≠ bakName f k := by
        intro hc
        rw [hc] at hj2
        rw [has_of_content hj2] at a2
        cases a2
      rw [(a5 _ this).1]
      exact hj2
    · intro q hq _
      by_cases hc : q = bakName f k
      · rw [hc]; exact a6
      · rw [(a5 q hc).2]; exact h.all q hq (by simp)
  have hunlink : ∀ s1 s2, st.link f (bakName f k) = some s1 → s1.unlink f = some s2 →
      CacheGood fs0 files (some f) s2 ∧ s2.has f = false := by
    intro s1 s2 hl hu
    have g1 := hlink s1 hl
    obtain ⟨a1, a2, a3, a4, a5, a6⟩ := link_spec h.ok hl
    obtain ⟨b1, b2, b3⟩ := unlink_spec g1.ok hu
    refine ⟨⟨b1, ?_, ?_⟩, b2⟩
    · intro q c hq
      obtain ⟨j, hj, hj1, hj2⟩ := g1.kept q c hq
      by_cases hc : bakName q j = f
      · have hj0 : j = 0 := by
          by_contra hcj
          have := (hj1 (by omega)).2
          rw [hc, hf0] at this
          cases this
        subst hj0
        have hqf : q = f := hc
        subst hqf
        refine ⟨k, hk2, fun _ => ⟨hf, ?_⟩, ?_⟩
        · by_contra hcc
          rw [h.all _ (by simpa using hcc) (by simp)] at a2
          cases a2
        · rw [(b3 _ hne).1, a4, ← (a5 q (Ne.symm hne)).1]
          exact hj2
      · exact ⟨j, hj, hj1, by rw [(b3 _ hc).1]; exact hj2⟩
    · intro q hq hqf
      have : q ≠ f := fun e => hqf (by rw [e])
      rw [(b3 q this).2]
      exact g1.all q hq (by simp)
  unfold atomicRename
  cases win with
  | true =>
    simp only [if_true]
    cases hr : st.rename f (bakName f k) with
    | none => exact ⟨fun s hs => by simp at hs, fun _ => h, fun hc => by cases hc⟩
    | some fs' =>
      obtain ⟨s1, r1, r2⟩ := rename_spec hr
      have := hunlink s1 fs' r1 r2
      dsimp only
      split
      · exact ⟨fun s hs => by simp at hs, fun _ => h, fun hc => by cases hc⟩
      · refine ⟨?_, fun hc => (by cases hc), fun _ => this⟩
        intro s hs
        rw [List.mem_singleton] at hs
        subst hs
        exact this.1
  | false =>
    simp only [Bool.false_eq_true, if_false]
    cases hl : st.link f (bakName f k) with
    | none => exact ⟨fun s hs => by simp at hs, fun _ => h, fun hc => by cases hc⟩
    | some s1 =>
      dsimp only
      have g1 := hlink s1 hl
      split
      · exact ⟨fun s hs => by simp at hs, fun _ => h, fun hc => by cases hc⟩
      · have hone : (∀ s ∈ (Steps.mk [s1] false).states, CacheGood fs0 files (some f) s) ∧
            ((Steps.mk [s1] false).ok = false → CacheGood fs0 files none ((Steps.mk [s1] false).final st)) ∧
            ((Steps.mk [s1] false).ok = true → CacheGood fs0 files (some f) ((Steps.mk [s1] false).final st) ∧
              ((Steps.mk [s1] false).final st).has f = false) := by
          refine ⟨?_, fun _ => g1, fun hc => (by cases hc)⟩
          intro s hs
          rw [List.mem_singleton] at hs
          subst hs
          exact g1.weaken
        cases hu : s1.unlink f with
        | none => exact hone
        | some s2 =>
          have := hunlink s1 s2 hl hu
          dsimp only
          split
          · exact hone
          · refine ⟨?_, fun hc => (by cases hc), fun _ => this⟩
            intro s hs
            rcases List.mem_cons.mp hs with rfl | hs
            · exact g1.weaken
            · rw [List.mem_singleton] at hs
              subst hs
              exact this.1

theorem backupLoop_good {fs0 : FS} {files : List Str} {f : Str} (hf : f ∈ files) (hf0 : fs0.has f = true) {win : Bool}
    (fails : Nat → OsFail) (t : Nat) : ∀ (k : Nat) (st : FS), t + k = 10 → CacheGood fs0 files none st →
    (∀ s ∈ (backupLoop win fails f t st (bakName f k)).states, CacheGood fs0 files (some f) s) ∧
    ((backupLoop win fails f t st (bakName f k)).ok = true →
      CacheGood fs0 files (some f) ((backupLoop win fails f t st (bakName f k)).final st) ∧
      ((backupLoop win fails f t st (bakName f k)).final st).has f = false) := by
  induction t with
  | zero =>
    intro k st _ h
    exact ⟨fun s hs => by simp [backupLoop] at hs, fun hc => by cases hc⟩
  | succ t ih =>
    intro k st hk h
    have hn : bakName f k ++ bakSuffix = bakName f (k + 1) := rfl
    obtain ⟨a1, a2, a3⟩ := atomicRename_good hf hf0 (win := win) h (k := k + 1) (by omega) (by omega) (fails t)
    simp only [backupLoop, hn]
    by_cases hok : (atomicRename win st f (bakName f (k + 1)) (fails t)).ok = true
    · rw [if_pos hok]
      exact ⟨a1, fun _ => a3 hok⟩
    · rw [if_neg hok]
      obtain ⟨b1, b2⟩ := ih (k + 1) _ (by omega) (a2 (by simpa using hok))
      refine ⟨?_, ?_⟩
      · intro s hs
        rcases List.mem_append.mp hs with hs | hs
        · exact a1 s hs
        · exact b1 s hs
      · intro hc
        have := b2 hc
        rw [final_append st _ _ _ (atomicRename win st f (bakName f (k + 1)) (fails t)).ok
          (backupLoop win fails f t _ (bakName f (k + 1))).ok]
        exact this

theorem new_good {fs0 : FS} {files : List Str} {f : Str} {st : FS} (h : CacheGood fs0 files (some f) st) (hn : st.has f = false)
    {c : Str} {s : FS} (hs : s ∈ st.save f c) : CacheGood fs0 files none s := by
  obtain ⟨x, rfl⟩ := save_new hn c s hs
  obtain ⟨a1, a2, a3⟩ := new_spec h.ok f x
  refine ⟨a1, ?_, ?_⟩
  · intro q d hq
    obtain ⟨j, hj, hj1, hj2⟩ := h.kept q d hq
    refine ⟨j, hj, hj1, ?_⟩
    have : bakName q j ≠ f := by
      intro hc
      rw [hc] at hj2
      rw [has_of_content hj2] at hn
      cases hn
    rw [(a2 _ this).1]
    exact hj2
  · intro q hq _
    by_cases hc : q = f
    · rw [hc]; exact a3
    · rw [(a2 q hc).2]
      exact h.all q hq (by simpa using hc)

theorem editWrite_good {fs0 : FS} {files : List Str} {f : Str} {st : FS} (h : CacheGood fs0 files (some f) st)
    (hn : st.has f = false) (e : OsEnv) (res : EditRes) :
    (∀ s ∈ (editWrite e true st f res).states, CacheGood fs0 files none s) ∧
      ((editWrite e true st f res).ok = true → (editWrite e true st f res).states ≠ []) := by
  have hsave : ∀ c (b : Bool), (∀ s ∈ (Steps.mk (st.save f c) b).states, CacheGood fs0 files none s) ∧
      ((Steps.mk (st.save f c) b).ok = true → (Steps.mk (st.save f c) b).states ≠ []) :=
    fun c b => ⟨fun s hs => new_good h hn hs, fun _ => save_ne_nil _ _ _⟩
  have hempty : (∀ s ∈ (Steps.mk [] false).states, CacheGood fs0 files none s) ∧
      ((Steps.mk [] false).ok = true → (Steps.mk [] false).states ≠ []) :=
    ⟨fun s hs => by simp at hs, fun hc => by cases hc⟩
  cases res with
  | early => exact hempty
  | py conv =>
    simp only [editWrite, pyWritefile, hn, Bool.false_and, Bool.false_eq_true, if_false]
    cases conv with
    | none => exact hempty
    | some lines =>
      dsimp only
      cases he : e.enc (List.intercalate ['\n'] lines) with
      | none =>
        refine ⟨fun s hs => ?_, fun hc => by cases hc⟩
        rw [List.mem_singleton] at hs
        subst hs
        exact new_good h hn (c := []) (by unfold FS.save; simp)
      | some bytes => exact hsave _ _
  | cpp conv =>
    simp only [editWrite, cppWritefile, hn, Bool.false_and, Bool.false_eq_true, if_false]
    exact hsave _ _

theorem editFile_good {fs0 : FS} {files : List Str} {f : Str} (hf : f ∈ files) (hf0 : fs0.has f = true) {st : FS}
    (h : CacheGood fs0 files none st) (e : OsEnv) (fails : Nat → OsFail) (res : EditRes) :
    (∀ s ∈ (editFile e true fails st f res).states, CacheGood fs0 files (some f) s) ∧
    ((editFile e true fails st f res).ok = true → CacheGood fs0 files none ((editFile e true fails st f res).final st)) := by
  have hmain : (∀ s ∈ (if !(createBackup e.win fails st f).ok then createBackup e.win fails st f else
        ⟨(createBackup e.win fails st f).states ++ (editWrite e true ((createBackup e.win fails st f).final st) f res).states,
          (editWrite e true ((createBackup e.win fails st f).final st) f res).ok⟩ : Steps).states, CacheGood fs0 files (some f) s) ∧
      ((if !(createBackup e.win fails st f).ok then createBackup e.win fails st f else
        ⟨(createBackup e.win fails st f).states ++ (editWrite e true ((createBackup e.win fails st f).final st) f res).states,
          (editWrite e true ((createBackup e.win fails st f).final st) f res).ok⟩ : Steps).ok = true →
        CacheGood fs0 files none (Steps.final st (if !(createBackup e.win fails st f).ok then createBackup e.win fails st f else
        ⟨(createBackup e.win fails st f).states ++ (editWrite e true ((createBackup e.win fails st f).final st) f res).states,
          (editWrite e true ((createBackup e.win fails st f).final st) f res).ok⟩))) := by
    obtain ⟨a1, a2⟩ := backupLoop_good hf hf0 (win := e.win) fails 10 0 st rfl h
    change (∀ s ∈ (createBackup e.win fails st f).states, _) at a1
    change ((createBackup e.win fails st f).ok = true → CacheGood fs0 files (some f) ((createBackup e.win fails st f).final st) ∧
      ((createBackup e.win fails st f).final st).has f = false) at a2
    cases hok : (createBackup e.win fails st f).ok with
    | false =>
      simp only [Bool.not_false, if_true]
      exact ⟨a1, fun hc => by rw [hok] at hc; cases hc⟩
    | true =>
      obtain ⟨g1, g2⟩ := a2 hok
      obtain ⟨b1, b2⟩ := editWrite_good g1 g2 e res
      simp only [Bool.not_true, Bool.false_eq_true, if_false]
      refine ⟨?_, ?_⟩
      · intro s hs
        rcases List.mem_append.mp hs with hs | hs
        · exact a1 s hs
        · exact (b1 s hs).weaken
      · intro hc
        rw [final_append st _ _ _ (createBackup e.win fails st f).ok
          (editWrite e true ((createBackup e.win fails st f).final st) f res).ok]
        exact b1 _ (final_mem (s := editWrite e true ((createBackup e.win fails st f).final st) f res) (b2 hc))
  cases res with
  | early => exact ⟨fun s hs => by simp [editFile] at hs, fun hc => by cases hc⟩
  | py conv => exact hmain
  | cpp conv => exact hmain

theorem editFiles_good {fs0 : FS} {files : List Str} (e : OsEnv) (fails : Nat → Nat → OsFail) (edit : FS → Str → EditRes)
    (rest : List Str) : ∀ (n : Nat) (st : FS), (∀ f ∈ rest, f ∈ files ∧ fs0.has f = true) → CacheGood fs0 files none st →
    ∀ s ∈ (editFiles e true fails edit n st rest).states, s.Ok ∧ Kept fs0 files s := by
  induction rest with
  | nil => intro n st _ _ s hs; simp [editFiles] at hs
  | cons f rest ih =>
    intro n st hr h s hs
    obtain ⟨a1, a2⟩ := editFile_good (hr f List.mem_cons_self).1 (hr f List.mem_cons_self).2 h e (fails n) (edit st f)
    simp only [editFiles] at hs
    cases hok : (editFile e true (fails n) st f (edit st f)).ok with
    | false =>
      rw [hok] at hs
      simp only [Bool.not_false, if_true] at hs
      exact ⟨(a1 s hs).ok, (a1 s hs).kept⟩
    | true =>
      rw [hok] at hs
      simp only [Bool.not_true, Bool.false_eq_true, if_false] at hs
      rcases List.mem_append.mp hs with hs | hs
      · exact ⟨(a1 s hs).ok, (a1 s hs).kept⟩
      · exact ih (n + 1) _ (fun g hg => hr g (List.mem_cons_of_mem _ hg)) (a2 hok) s hs

/-- **C60** Editing commands with backups enabled, for any number of files (also repeated ones, or ones that are backups of
others), any file system, any system calls that fail, any outcome of the conversions, on Windows and elsewhere: at every
point where the command may be killed, the content of every file is still there.  Files that are not edited are unchanged,
and edited ones are found under their name or under a backup name that did not exist before. -/
theorem C60 (e : OsEnv) (fails : Nat → Nat → OsFail) (edit : FS → Str → EditRes) (fs : FS) (hw : fs.Ok) (files : List Str)
    (hex : ∀ f ∈ files, fs.has f = true) (st : FS) (hst : st ∈ (editFiles e true fails edit 0 fs files).states) (q c : Str)
    (hq : fs.content q = some c) :
    (q ∉ files → st.content q = some c) ∧
    (q ∈ files → st.content q = some c ∨
      ∃ k, 1 ≤ k ∧ k ≤ 10 ∧ fs.has (bakName q k) = false ∧ st.content (bakName q k) = some c) := by
  have h0 : CacheGood fs files none fs :=
    ⟨hw, fun q c hq => ⟨0, by omega, fun h => absurd h (by omega), hq⟩, fun q hq _ => hq⟩
  obtain ⟨_, hk⟩ := editFiles_good e fails edit files 0 fs (fun f hf => ⟨hf, hex f hf⟩) h0 st hst
  obtain ⟨k, k1, k2, k3⟩ := hk q c hq
  rcases Nat.eq_zero_or_pos k with rfl | hpos
  · exact ⟨fun _ => k3, fun _ => Or.inl k3⟩
  · exact ⟨fun hc => absurd (k2 hpos).1 hc, fun _ => Or.inr ⟨k, hpos, k1, (k2 hpos).2, k3⟩⟩

/-! ### Examples -/

/-- a tape with an older backup and another file -/
def exFS : FS := ⟨[("t.endf".toList, 0), ("t.endf.bak".toList, 1), ("u".toList, 2)], ["old".toList, "older".toList, "x".toList]⟩

def exEnv (win : Bool) : OsEnv := ⟨win, some⟩

def noFail : Nat → Nat → OsFail := fun _ _ => ⟨false, false⟩

theorem exFS_ok : exFS.Ok := ⟨by unfold DNodup; decide +kernel, by
  intro n i h
  have hm := dGet_mem h
  simp only [exFS, List.mem_cons, List.not_mem_nil, or_false, Prod.mk.injEq] at hm
  rcases hm with ⟨_, rfl⟩ | ⟨_, rfl⟩ | ⟨_, rfl⟩ <;> decide⟩

/-- the states of the original name and of the two backup names while `t.endf` is edited: linked, unlinked, created empty,
three characters written -/
example : ((editFiles (exEnv false) true noFail (fun _ _ => .py (some ["new".toList])) 0 exFS ["t.endf".toList]).states.map
      fun st => [st.content "t.endf".toList, st.content "t.endf.bak".toList, st.content "t.endf.bak.bak".toList]) =
    [[some "old".toList, some "older".toList, some "old".toList], [none, some "older".toList, some "old".toList],
     [some [], some "older".toList, some "old".toList], [some "n".toList, some "older".toList, some "old".toList],
     [some "ne".toList, some "older".toList, some "old".toList], [some "new".toList, some "older".toList, some "old".toList]] := by
  decide +kernel

/-- **C60** What the statement does not promise: if the conversion fails, the file is gone under its own name and is found
under the backup name only. -/
theorem C60_name_gone : ∃ st, (editFiles (exEnv false) true noFail (fun _ _ => .py none) 0 exFS ["t.endf".toList]).states.getLast? =
    some st ∧ st.content "t.endf".toList = none ∧ st.content "t.endf.bak.bak".toList = some "old".toList :=
  ⟨_, rfl, by decide +kernel, by decide +kernel⟩

/-- **C60** With backups disabled and the C++ parser, a conversion that fails destroys the file. -/
theorem C60_no_backup_cpp : ∃ st, (editFiles (exEnv false) false noFail (fun _ _ => .cpp ("n".toList, false)) 0 exFS
    ["t.endf".toList]).states.getLast? = some st ∧ st.content "t.endf".toList = some "n".toList :=
  ⟨_, rfl, by decide +kernel⟩

/-! ## C59 -/

theorem save_keeps {fs : FS} (hw : fs.Ok) {n : Str} (hn : fs.has n = false) {c : Str} {st : FS} (hst : st ∈ fs.save n c) {q : Str}
    {d : Str} (hq : fs.content q = some d) : st.content q = some d := by
  obtain ⟨x, rfl⟩ := save_new hn c st hst
  have hne : q ≠ n := by
    rintro rfl
    rw [has_of_content hq] at hn
    cases hn
  rw [((new_spec hw n x).2.1 q hne).1]
  exact hq

/-- **C59** (partial) `writefile` of the Python parser.  Without `overwrite=True`, no existing file is changed at any
moment, whatever happens; with `overwrite=True`, a conversion that raises an exception changes nothing at all.  Missing:
text that cannot be encoded, see `C59_encode_fails`. -/
theorem C59_partial (enc : Str → Option Str) (fs : FS) (hw : fs.Ok) (name : Str) (conv : Option (List Str)) :
    (∀ st ∈ (pyWritefile enc fs name false conv).states, ∀ q c, fs.content q = some c → st.content q = some c) ∧
    (fs.has name = true → pyWritefile enc fs name false conv = ⟨[], false⟩) ∧
    (∀ overwrite, pyWritefile enc fs name overwrite none = ⟨[], false⟩) := by
  refine ⟨?_, ?_, ?_⟩
  · intro st hst q c hq
    unfold pyWritefile at hst
    cases hn : fs.has name with
    | true => rw [hn] at hst; simp at hst
    | false =>
      rw [hn] at hst
      simp only [Bool.false_and, Bool.false_eq_true, if_false] at hst
      cases conv with
      | none => simp at hst
      | some lines =>
        dsimp only at hst
        cases he : enc (List.intercalate ['\n'] lines) with
        | none =>
          rw [he] at hst
          rw [List.mem_singleton] at hst
          subst hst
          exact save_keeps hw hn (c := []) (by unfold FS.save; simp) hq
        | some bytes =>
          rw [he] at hst
          exact save_keeps hw hn hst hq
  · intro h
    unfold pyWritefile
    rw [h]
    rfl
  · intro overwrite
    unfold pyWritefile
    split <;> rfl

/-- **C59** When `writefile` succeeds, the file holds the encoded text, also if it existed. -/
theorem C59_writes (enc : Str → Option Str) (fs : FS) (hw : fs.Ok) (name : Str) (overwrite : Bool) (lines : List Str)
    (h : (pyWritefile enc fs name overwrite (some lines)).ok = true) :
    ((pyWritefile enc fs name overwrite (some lines)).final fs).content name = enc (List.intercalate ['\n'] lines) := by
  unfold pyWritefile at h ⊢
  split at h
  · cases h
  · rename_i hc
    rw [if_neg hc]
    dsimp only at h ⊢
    cases he : enc (List.intercalate ['\n'] lines) with
    | none => rw [he] at h; cases h
    | some bytes =>
      dsimp only
      have hopen : ∃ i, dGet name (fs.openW name).names = some i ∧ i < (fs.openW name).inodes.length ∧
          (fs.openW name).inodes[i]? = some [] := by
        unfold FS.openW
        cases hg : dGet name fs.names with
        | none => exact ⟨fs.inodes.length, dGet_dSet_self _ _ _, by simp, by simp⟩
        | some i => exact ⟨i, hg, by simpa using hw.lt _ _ hg, by simp [hw.lt _ _ hg]⟩
      obtain ⟨i, h1, h2, h3⟩ := hopen
      unfold Steps.final FS.save
      cases bytes with
      | nil =>
        simp only [List.length_nil, List.range_zero, List.map_nil, List.getLast?_singleton, Option.getD_some]
        unfold FS.content
        rw [h1, Option.bind_some, h3]
      | cons b bs =>
        have hl : (List.range (b :: bs).length).map (fun k => (fs.openW name).put name ((b :: bs).take (k + 1))) ≠ [] := by simp
        rw [List.getLast?_eq_some_getLast (List.cons_ne_nil _ _), Option.getD_some, List.getLast_cons hl, List.getLast_map]
        simp only [List.length_cons, List.getLast_range, Nat.add_sub_cancel]
        unfold FS.content FS.put
        rw [h1]
        dsimp only
        rw [h1, Option.bind_some, List.getElem?_set_self h2, List.take_of_length_le (by simp)]

/-- **C59** Text that cannot be encoded (for example a lone surrogate in a description): with `overwrite=True` an existing file is
left empty. -/
theorem C59_encode_fails (enc : Str → Option Str) (lines : List Str) (h : enc (List.intercalate ['\n'] lines) = none) :
    (pyWritefile enc exFS "t.endf".toList true (some lines)).ok = false ∧
      ((pyWritefile enc exFS "t.endf".toList true (some lines)).final exFS).content "t.endf".toList = some [] ∧
      exFS.content "t.endf".toList = some "old".toList := by
  unfold pyWritefile
  simp only [h]
  decide +kernel

example : ∃ enc : Str → Option Str, enc (List.intercalate ['\n'] ["é".toList]) = none :=
  ⟨fun s => if s.all (fun c => decide (c.toNat < 128)) then some s else none, by decide +kernel⟩

/-- **C59** The C++ parsers: without `overwrite=True` no existing file is changed. -/
theorem C59_cpp_partial (fs : FS) (hw : fs.Ok) (name : Str) (conv : Str × Bool) :
    (∀ st ∈ (cppWritefile fs name false conv).states, ∀ q c, fs.content q = some c → st.content q = some c) ∧
    (fs.has name = true → cppWritefile fs name false conv = ⟨[], false⟩) := by
  refine ⟨?_, fun h => by unfold cppWritefile; rw [h]; rfl⟩
  intro st hst q c hq
  unfold cppWritefile at hst
  cases hn : fs.has name with
  | true => rw [hn] at hst; simp at hst
  | false =>
    rw [hn] at hst
    exact save_keeps hw hn hst hq

theorem save_final_content {fs : FS} (hw : fs.Ok) (n c : Str) (b : Bool) :
    (Steps.final fs ⟨fs.save n c, b⟩).content n = some c := by
  have h := C59_writes some fs hw n true [c] (by unfold pyWritefile; simp)
  unfold pyWritefile at h
  have e : List.intercalate ['\n'] [c] = c := by simp [List.intercalate]
  simp only [Bool.not_true, Bool.and_false, Bool.false_eq_true, if_false, e] at h
  exact h

/-- **C59** The C++ parsers with `overwrite=True`: whenever the conversion fails, the file holds what has been emitted until
then instead of the old content. -/
theorem C59_cpp_fails (fs : FS) (hw : fs.Ok) (name emitted : Str) :
    (cppWritefile fs name true (emitted, false)).ok = false ∧
      ((cppWritefile fs name true (emitted, false)).final fs).content name = some emitted := by
  have e : cppWritefile fs name true (emitted, false) = ⟨fs.save name emitted, false⟩ := by
    unfold cppWritefile; simp
  rw [e]
  exact ⟨rfl, save_final_content hw name emitted false⟩

/-- the assumptions hold for a file with content -/
example : exFS.Ok ∧ exFS.content "t.endf".toList = some "old".toList := ⟨exFS_ok, by decide +kernel⟩

/-! ## C58 -/

variable {τ : Type}

/-- the cache directory after a sequence of completed runs, each for a grammar and a recipe -/
def Cache.after (c : Cache τ) (fs : FS) : List (Str × Str) → FS
  | [] => fs
  | (g, r) :: H => c.after (Steps.final fs ⟨(c.get fs g r).1, true⟩) H

/-- no two of the strings that are hashed for these grammars and recipes have the same hash, and hashes have the length of an
MD5 digest -/
structure Cache.NoCollision (c : Cache τ) (H : List (Str × Str)) : Prop where
  len : ∀ x, (c.hash x).length = 32
  inj : ∀ p ∈ H, ∀ q ∈ H, (c.hash p.1 = c.hash q.1 → p.1 = q.1) ∧ (c.hash p.2 = c.hash q.2 → p.2 = q.2) ∧
    (c.hash (c.hash p.1 ++ c.hash p.2) = c.hash (c.hash q.1 ++ c.hash q.2) →
      c.hash p.1 ++ c.hash p.2 = c.hash q.1 ++ c.hash q.2)

theorem Cache.NoCollision.file {c : Cache τ} {H : List (Str × Str)} (h : c.NoCollision H) {p q : Str × Str} (hp : p ∈ H) (hq : q ∈ H)
    (he : c.file p.1 p.2 = c.file q.1 q.2) : p = q := by
  unfold Cache.file at he
  have h1 := List.append_cancel_right he
  have h2 := (h.inj p hp q hq).2.2 h1
  obtain ⟨h3, h4⟩ := List.append_inj h2 (by rw [h.len, h.len])
  exact Prod.ext ((h.inj p hp q hq).1 h3) ((h.inj p hp q hq).2.1 h4)

/-- all files of the cache that belong to these grammars and recipes are complete -/
def Cache.Sound (c : Cache τ) (H : List (Str × Str)) (fs : FS) : Prop :=
  ∀ p ∈ H, fs.has (c.file p.1 p.2) = true → ∃ t, c.parse p.1 p.2 = some t ∧ fs.content (c.file p.1 p.2) = some (c.dump t)

theorem Cache.get_sound {c : Cache τ} (hld : ∀ t, c.load (c.dump t) = some t) {H : List (Str × Str)} (hc : c.NoCollision H) {fs : FS}
    (hw : fs.Ok) (hs : c.Sound H fs) {p : Str × Str} (hp : p ∈ H) :
    (c.get fs p.1 p.2).2 = c.parse p.1 p.2 ∧ (Steps.final fs ⟨(c.get fs p.1 p.2).1, true⟩).Ok ∧
      c.Sound H (Steps.final fs ⟨(c.get fs p.1 p.2).1, true⟩) := by
  unfold Cache.get
  cases hh : fs.has (c.file p.1 p.2) with
  | true =>
    obtain ⟨t, h1, h2⟩ := hs p hp hh
    simp only [Bool.not_true, Bool.false_eq_true, if_false, h2, Option.bind_some, hld, h1, true_and]
    exact ⟨hw, hs⟩
  | false =>
    simp only [Bool.not_false, if_true]
    cases hpp : c.parse p.1 p.2 with
    | none => exact ⟨rfl, hw, hs⟩
    | some t =>
      dsimp only
      have hmem := final_mem (fs := fs) (s := ⟨fs.save (c.file p.1 p.2) (c.dump t), true⟩) (save_ne_nil _ _ _)
      have hcont := save_final_content hw (c.file p.1 p.2) (c.dump t) true
      obtain ⟨x, hx⟩ := save_new hh _ _ hmem
      obtain ⟨a1, a2, a3⟩ := new_spec hw (c.file p.1 p.2) x
      refine ⟨rfl, ?_, ?_⟩
      · rw [hx]; exact a1
      · intro q hq hqh
        by_cases he : c.file q.1 q.2 = c.file p.1 p.2
        · have := hc.file hq hp he
          subst this
          exact ⟨t, hpp, hcont⟩
        · rw [hx] at hqh ⊢
          rw [(a2 _ he).2] at hqh
          rw [(a2 _ he).1]
          exact hs q hq hqh

/-- **C58** (partial) Histories of runs that are not killed while they write: with the cache directory each recipe gives the
same tree (or the same failure) as without.  A run that is killed before it opens the file or after the last character has
been written counts as no run or as a completed run.  Missing: runs killed in between, see `C58_crash_fails`. -/
theorem C58_partial (c : Cache τ) (hld : ∀ t, c.load (c.dump t) = some t) (H : List (Str × Str)) (g r : Str)
    (hc : c.NoCollision ((g, r) :: H)) (fs : FS) (hw : fs.Ok) (hempty : ∀ p ∈ (g, r) :: H, fs.has (c.file p.1 p.2) = false) :
    (c.get (c.after fs H) g r).2 = c.parse g r := by
  have key : ∀ (L : List (Str × Str)) (st : FS), (∀ p ∈ L, p ∈ (g, r) :: H) → st.Ok → c.Sound ((g, r) :: H) st →
      (c.after st L).Ok ∧ c.Sound ((g, r) :: H) (c.after st L) := by
    intro L
    induction L with
    | nil => intro st _ h1 h2; exact ⟨h1, h2⟩
    | cons p L ih =>
      intro st hL h1 h2
      obtain ⟨_, b1, b2⟩ := Cache.get_sound hld hc h1 h2 (hL p List.mem_cons_self)
      exact ih _ (fun q hq => hL q (List.mem_cons_of_mem _ hq)) b1 b2
  obtain ⟨a1, a2⟩ := key H fs (fun p hp => List.mem_cons_of_mem _ hp) hw (by
    intro p hp hh
    rw [hempty p hp] at hh
    cases hh)
  exact (Cache.get_sound hld hc a1 a2 (p := (g, r)) List.mem_cons_self).1

/-- **C58** A run killed right after the file has been created: from then on every run fails for this recipe, whatever other
runs do, although the recipe can be parsed. -/
theorem C58_crash_fails (c : Cache τ) (hload : c.load [] = none) (g r : Str) (t : τ) (hp : c.parse g r = some t) (fs : FS) (hw : fs.Ok)
    (hn : fs.has (c.file g r) = false) : ∃ st ∈ (c.get fs g r).1, ∀ H, (c.get (c.after st H) g r).2 = none ∧
      c.parse g r ≠ none := by
  have hget : (c.get fs g r).1 = fs.save (c.file g r) (c.dump t) := by
    unfold Cache.get
    rw [hn]
    simp only [Bool.not_false, if_true, hp]
  refine ⟨fs.openW (c.file g r), by rw [hget]; unfold FS.save; simp, ?_⟩
  have hopen : fs.openW (c.file g r) = ⟨dSet (c.file g r) fs.inodes.length fs.names, fs.inodes ++ [[]]⟩ := by
    unfold FS.openW; rw [not_has_iff.mp hn]
  have hcont : (fs.openW (c.file g r)).content (c.file g r) = some [] := by
    rw [hopen]
    unfold FS.content
    simp only [dGet_dSet_self, Option.bind_some, List.getElem?_concat_length]
  have hok : (fs.openW (c.file g r)).Ok := by rw [hopen]; exact (new_spec hw _ _).1
  have key : ∀ (H : List (Str × Str)) (st : FS), st.Ok → st.content (c.file g r) = some [] →
      (c.after st H).content (c.file g r) = some [] := by
    intro H
    induction H with
    | nil => intro st _ h; exact h
    | cons p H ih =>
      intro st h1 h2
      obtain ⟨g', r'⟩ := p
      simp only [Cache.after]
      have hstep : (Steps.final st ⟨(c.get st g' r').1, true⟩).Ok ∧
          (Steps.final st ⟨(c.get st g' r').1, true⟩).content (c.file g r) = some [] := by
        unfold Cache.get
        cases hh : st.has (c.file g' r') with
        | true => exact ⟨h1, h2⟩
        | false =>
          simp only [Bool.not_false, if_true]
          cases c.parse g' r' with
          | none => exact ⟨h1, h2⟩
          | some t' =>
            dsimp only
            have hmem := final_mem (fs := st) (s := ⟨st.save (c.file g' r') (c.dump t'), true⟩) (save_ne_nil _ _ _)
            obtain ⟨x, hx⟩ := save_new hh _ _ hmem
            refine ⟨?_, save_keeps h1 hh hmem h2⟩
            rw [hx]
            exact (new_spec h1 _ _).1
      exact ih _ hstep.1 hstep.2
  intro H
  have := key H _ hok hcont
  refine ⟨?_, by rw [hp]; simp⟩
  unfold Cache.get
  rw [has_of_content this]
  simp only [Bool.not_true, Bool.false_eq_true, if_false, this, Option.bind_some, hload]

/-- a small cache: trees are texts, a pickle ends with a full stop -/
def exCache : Cache Str where
  hash := fun s => ljust ((s.filter fun c => c != ' ').take 32) 32
  parse := fun _ r => if r = [] then none else some r
  dump := fun t => t ++ ['.']
  load := fun b => if b.getLast? = some '.' then some b.dropLast else none

/-- two recipes, and the assumptions of the theorems above -/
example : exCache.NoCollision [("g".toList, "a".toList), ("g".toList, "b".toList)] ∧
    (∀ t, exCache.load (exCache.dump t) = some t) ∧ exCache.load [] = none ∧
    (exCache.get (exCache.after ⟨[], []⟩ [("g".toList, "a".toList)]) "g".toList "b".toList).2 = some "b".toList := by
  refine ⟨⟨?_, ?_⟩, ?_, by decide +kernel, by decide +kernel⟩
  · intro x
    simp only [exCache, ljust, List.length_append, List.length_replicate, List.length_take]
    omega
  · decide +kernel
  · intro t
    simp [exCache]

/-- **C58** The file name does not depend on the version of the library that parses recipes: after an update that changes the
trees, the cache still gives the old ones. -/
theorem C58_version_fails : ∃ (c c' : Cache Str) (fs : FS) (g r : Str), c'.hash = c.hash ∧ c'.dump = c.dump ∧ c'.load = c.load ∧
    fs = c.after ⟨[], []⟩ [(g, r)] ∧ (c'.get fs g r).2 ≠ c'.parse g r :=
  ⟨exCache, { exCache with parse := fun _ r => some ('v' :: r) }, _, "g".toList, "a".toList, rfl, rfl, rfl, rfl, by decide +kernel⟩

end Verif
