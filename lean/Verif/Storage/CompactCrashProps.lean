import Verif.Storage.CompactCrash

/-!
# C91: a crash in the middle of a compaction
-/

namespace OptiPrism.Storage

variable {R K : Type}

theorem last_rename_split (b : List COp) (h : ¬ NoRename b) :
    ∃ b1 s t b2, b = b1 ++ .rename s t :: b2 ∧ NoRename b2 := by
  induction b with
  | nil => exact absurd (fun s t hm => by cases hm) h
  | cons op b ih =>
    by_cases hb : NoRename b
    · cases op with
      | rename s t => exact ⟨[], s, t, b, rfl, hb⟩
      | delete p =>
        exfalso
        apply h
        intro s t hm
        rcases List.mem_cons.mp hm with e | hm
        · cases e
        · exact hb s t hm
    · obtain ⟨b1, s, t, b2, rfl, h2⟩ := ih hb
      exact ⟨op :: b1, s, t, b2, rfl, h2⟩

/-- C91 as stated: whatever the options, the table and the crash point. -/
def C91_full (R K : Type) (le : K → K → Prop) [DecidableRel le] (key : R → K) : Prop :=
  ∀ (o : CompOpts) (merge : List (List R) → Option (List (MOut R K))), IsMerge le key merge →
    ∀ (cnt : Cnt) (d : Disk R K) (p : Proc R K) (t : ATbl R), Clean le key d p → viewOf d p = some t →
    ∀ st, compact le o merge d.parts cnt p.md.levels = some (some st) →
    ∀ d', CompactCrash d p st d' → Recovers t.rows d'

/-- C91, exactly (for `l0_max_parts ≥ 1` and rounds which choose no part twice, see C17): the rows
are found again after a crash while parts are merged, and after a crash while old parts are deleted;
not after one inside the manifest, and not as long as a part is recorded at its new place and
not yet renamed. -/
theorem C91_partial [DecidableEq R] {le : K → K → Prop} [DecidableRel le] {key : R → K} {o : CompOpts}
    (ho : 1 ≤ o.l0MaxParts) {merge : List (List R) → Option (List (MOut R K))} (hm : IsMerge le key merge)
    {d : Disk R K} {p : Proc R K} (hc : Clean le key d p) (cnt : Cnt) {st : CState R K}
    (hs : compact le o merge d.parts cnt p.md.levels = some (some st))
    (hnd : ∀ c ∈ st.picks, c.Nodup) {t : ATbl R} (ht : viewOf d p = some t) :
    (∀ f : Files R, (∀ l i, f l i = d.parts l i ∨
        (st.files l i ≠ d.parts l i ∧ (f l i = none ∨ f l i = some .torn ∨ f l i = st.files l i))) →
      Recovers t.rows { d with parts := f }) ∧
    ¬ Recovers (K := K) t.rows { d with manifest := none, parts := st.files } ∧
    ∀ a b, st.ops = a ++ b → ∃ f c, execOps st.files st.cnt a = some (f, c) ∧
      (Recovers t.rows { d with manifest := some (install p.md st), parts := f } ↔ NoRename b) := by
  obtain ⟨d1, p1, t0, t1, hrun, _, hmem, hlv, hlog, _, _, _, v0, v1, hperm, _⟩ := compaction_clean ho hm hc cnt hs
  rw [ht] at v0
  injection v0 with v0
  subst v0
  have hs' := hs
  unfold compact at hs
  split at hs
  · simp at hs
  have hinv : CrashInv le key p.md.levels d.parts st := by
    refine crashInv_loop hm _ ?_ hs
    exact ⟨⟨_, clean_inv hc cnt⟩, fun _ h => h, fun _ _ => rfl, fun a s t b he => by simp at he⟩
  -- the result of the whole round
  unfold runCompaction at hrun
  rw [hs'] at hrun
  dsimp only at hrun
  cases hx : execOps st.files st.cnt st.ops with
  | none => rw [hx] at hrun; simp at hrun
  | some Dc =>
    obtain ⟨D, c'⟩ := Dc
    rw [hx] at hrun
    simp only [Option.some.injEq, Prod.mk.injEq] at hrun
    obtain ⟨rfl, rfl⟩ := hrun
    simp only at hlv hlog
    have hD : partsOf D 0 (install p.md st).levels = some t1.parts ∧ t1.mem = p.mem := by
      unfold viewOf at v1
      simp only at v1
      cases hp : partsOf D 0 (install p.md st).levels with
      | none => rw [hp] at v1; simp at v1
      | some x =>
        rw [hp] at v1
        simp only [Option.map_some, Option.some.injEq] at v1
        rw [← v1]; exact ⟨rfl, rfl⟩
    refine ⟨?_, ?_, ?_⟩
    · intro f hf
      refine ⟨p, t, ?_, ?_, List.Perm.refl _⟩
      · have := hc.log
        simp only [reopen, hc.manifest, hc.logs, maxLog]
        cases p; simp_all
      · rw [← ht]
        unfold viewOf
        simp only
        congr 1
        apply partsOf_congr
        intro l lv hl x hxm
        simp only [Nat.zero_add]
        have hb : bound p.md.levels (l, x.id) := by
          have hmem : (l, x.id) ∈ pathsOf 0 p.md.levels := mem_pathsOf.mpr ⟨l, lv, x, hl, hxm, by simp⟩
          exact (clean_inv hc cnt).bd _ hmem
        rcases hf l x.id with h | ⟨h, _⟩
        · exact h
        · exact absurd (hinv.old _ hb) h
    · rintro ⟨p', t', h1, _⟩
      simp [reopen] at h1
    · intro a b hab
      rw [hab, execOps_append] at hx
      cases ha : execOps st.files st.cnt a with
      | none => rw [ha] at hx; simp at hx
      | some fc =>
        obtain ⟨f, c⟩ := fc
        rw [ha] at hx
        simp only [Option.bind_some] at hx
        refine ⟨f, c, rfl, ?_, ?_⟩
        · rintro ⟨p', t', h1, h2, _⟩
          apply Classical.byContradiction
          intro hb
          obtain ⟨b1, s, tt, b2, rfl, hn2⟩ := last_rename_split b hb
          obtain ⟨l1, l2, l3⟩ := hinv.last (a ++ b1) s tt b2 (by rw [hab, List.append_assoc]) hn2
          have hft : f tt.1 tt.2 = none := by
            rw [execOps_other _ _ _ _ _ ha (fun hmm => l3 (by
              rw [List.flatMap_append]; exact List.mem_append.mpr (.inl hmm)))]
            exact l2
          simp only [reopen, hc.logs, maxLog, Except.ok.injEq] at h1
          subst h1
          unfold viewOf at h2
          simp only at h2
          cases hp : partsOf f 0 (install p.md st).levels with
          | none => rw [hp] at h2; simp at h2
          | some x => exact partsOf_files hp tt (by rw [hlv]; exact l1) hft
        · intro hn
          refine ⟨⟨install p.md st, p.mem, p.md.logId⟩, t1, ?_, ?_, ?_⟩
          · simp only [reopen, hc.logs, maxLog]
          · unfold viewOf
            simp only
            have : partsOf f 0 (install p.md st).levels = partsOf D 0 (install p.md st).levels := by
              apply partsOf_congr
              intro l lv hl x hxm
              have := partsOf_files hD.1 (l, x.id) (mem_pathsOf.mpr ⟨l, lv, x, hl, hxm, by simp⟩)
              simp only [Nat.zero_add] at this ⊢
              cases hd : D l x.id with
              | none => exact absurd hd this
              | some y => exact execOps_noRename b hn hx l x.id y hd
            rw [this, hD.1]
            simp only [Option.map_some, Option.some.injEq]
            cases t1
            simp only at hD ⊢
            rw [hD.2]
          · exact hperm hnd

/-! ### concrete cases -/

/-- The state of the demo table before its first compaction: two flushed parts and a row in memory. -/
def demoState (e : Env DRow (Int × Int)) : Option (Disk DRow (Int × Int) × Proc DRow (Int × Int)) :=
  hrun lexLe e (createDisk 4, createProc 4) demoHist

/-- What the compactor computes for it. -/
def demoRound (e : Env DRow (Int × Int)) : Option (CState DRow (Int × Int)) :=
  (demoState e).bind fun s => (compact lexLe e.opts e.merge s.1.parts noneOpen s.2.md.levels).bind id

/-- A round with a merge only, and one whose merged part is moved on. -/
theorem demo_ops :
    (demoRound (demoEnv 1 100 100)).map CState.ops = some [.delete (0, 0), .delete (0, 1)] ∧
    (demoRound (demoEnv 1 1 100)).map CState.ops =
      some [.delete (0, 0), .delete (0, 1), .rename (1, 1) (2, 1)] := by decide +kernel

theorem demo_picks :
    (demoRound (demoEnv 1 1 100)).map CState.picks = some [[(0, 0), (0, 1)], [(1, 1)]] := by decide +kernel

/-- The disk after the manifest was written and the two old parts were deleted, before the rename. -/
def demoCrash : Option (Disk DRow (Int × Int)) :=
  (demoState (demoEnv 1 1 100)).bind fun s => (demoRound (demoEnv 1 1 100)).bind fun st =>
    (execOps st.files st.cnt (st.ops.take 2)).map fun fc =>
      { s.1 with manifest := some (install s.2.md st), parts := fc.1 }

/-- Everything the part files of the disk hold, on the places that were ever used. -/
def heldRows (d : Disk DRow (Int × Int)) : List DRow :=
  ([(0, 0), (0, 1), (1, 0), (1, 1), (2, 0), (2, 1)] : List (Nat × Nat)).flatMap fun x => diskRows d.parts x

/-- Before the round the rows are seen; after the crash reopening works but the table cannot be read,
and the first garbage collection removes the only file which still has the rows. -/
theorem C91_rows_lost :
    ((demoState (demoEnv 1 1 100)).bind fun s => (viewOf s.1 s.2).map ATbl.rows) =
      some [((1, 1), 7), ((0, 1), 8), ((5, 5), 9)] ∧
    (demoCrash.bind fun d => (reopen d).toOption.map fun p => ((viewOf d p).map ATbl.rows, heldRows d)) =
      some (none, [((0, 1), 8), ((1, 1), 7)]) ∧
    (demoCrash.bind fun d => (reopen d).toOption.map fun p => heldRows (gcPass (fun _ _ => false) d p.md)) =
      some [] := by decide +kernel

theorem C91_violated : ¬ C91_full DRow (Int × Int) lexLe Prod.fst := by
  intro hfull
  have h1 := demo_ops.2
  have h2 := demo_picks
  have h3 := C91_rows_lost.1
  unfold demoRound at h1 h2
  cases hs : demoState (demoEnv 1 1 100) with
  | none => rw [hs] at h1; simp at h1
  | some s =>
    rw [hs] at h1 h2 h3
    simp only [Option.bind_some] at h1 h2 h3
    cases hcm : compact lexLe (demoEnv 1 1 100).opts (demoEnv 1 1 100).merge s.1.parts noneOpen s.2.md.levels with
    | none => rw [hcm] at h1; simp at h1
    | some r =>
      cases r with
      | none => rw [hcm] at h1; simp at h1
      | some st =>
        rw [hcm] at h1 h2
        simp only [Option.bind_some, id, Option.map_some, Option.some.injEq] at h1 h2
        obtain ⟨hc, _, _⟩ := hrun_clean lexTotOrd (demoEnv_ok 1 1 100 (by omega)) demoHist
          (create_clean lexLe Prod.fst 4) (by simp [createProc]) hs
        cases hv : viewOf s.1 s.2 with
        | none => rw [hv] at h3; simp at h3
        | some t =>
          have hmerge := (demoEnv_ok 1 1 100 (by omega)).merges
          obtain ⟨_, _, hx⟩ := C91_partial (o := (demoEnv 1 1 100).opts) (by decide) hmerge hc noneOpen hcm
            (by rw [h2]; decide) hv
          obtain ⟨f, c, hf, hiff⟩ := hx [.delete (0, 0), .delete (0, 1)] [.rename (1, 1) (2, 1)] h1
          have := hfull _ _ hmerge noneOpen s.1 s.2 t hc hv st hcm _
            (.cleaning [.delete (0, 0), .delete (0, 1)] [.rename (1, 1) (2, 1)] f c h1 hf)
          exact hiff.mp this (1, 1) (2, 1) (by simp)

/-- The hypotheses of `C91_partial` are met by the demo table, with a crash after the first deletion. -/
example : ∃ s st t, demoState (demoEnv 1 100 100) = some s ∧
    compact lexLe (demoEnv 1 100 100).opts (demoEnv 1 100 100).merge s.1.parts noneOpen s.2.md.levels =
      some (some st) ∧ Clean lexLe Prod.fst s.1 s.2 ∧ viewOf s.1 s.2 = some t ∧ t.rows.length = 3 ∧
    ∃ f c, execOps st.files st.cnt [.delete (0, 0)] = some (f, c) ∧
      Recovers t.rows { s.1 with manifest := some (install s.2.md st), parts := f } := by
  have h1 := demo_ops.1
  have h2 : (demoRound (demoEnv 1 100 100)).map CState.picks = some [[(0, 0), (0, 1)]] := by decide +kernel
  have h3 : ((demoState (demoEnv 1 100 100)).bind fun s => (viewOf s.1 s.2).map fun t => t.rows.length) = some 3 := by
    decide +kernel
  unfold demoRound at h1 h2
  cases hs : demoState (demoEnv 1 100 100) with
  | none => rw [hs] at h1; simp at h1
  | some s =>
    rw [hs] at h1 h2 h3
    simp only [Option.bind_some] at h1 h2 h3
    cases hcm : compact lexLe (demoEnv 1 100 100).opts (demoEnv 1 100 100).merge s.1.parts noneOpen s.2.md.levels with
    | none => rw [hcm] at h1; simp at h1
    | some r =>
      cases r with
      | none => rw [hcm] at h1; simp at h1
      | some st =>
        rw [hcm] at h1 h2
        simp only [Option.bind_some, id, Option.map_some, Option.some.injEq] at h1 h2
        obtain ⟨hc, _, _⟩ := hrun_clean lexTotOrd (demoEnv_ok 1 100 100 (by omega)) demoHist
          (create_clean lexLe Prod.fst 4) (by simp [createProc]) hs
        cases hv : viewOf s.1 s.2 with
        | none => rw [hv] at h3; simp at h3
        | some t =>
          rw [hv] at h3
          obtain ⟨_, _, hx⟩ := C91_partial (o := (demoEnv 1 100 100).opts) (by decide)
            (demoEnv_ok 1 100 100 (by omega)).merges hc noneOpen hcm (by rw [h2]; decide) hv
          obtain ⟨f, c, hf, hiff⟩ := hx [.delete (0, 0)] [.delete (0, 1)] h1
          exact ⟨s, st, t, rfl, hcm, hc, hv, by simpa using h3, f, c, hf, hiff.mpr (by intro a b hm; simp at hm)⟩

end OptiPrism.Storage
