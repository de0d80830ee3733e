import Verif.Storage.CompactProps

/-!
# Dying in the middle of a compaction

Model of the file operations of one round of the compactor (compaction.rs 87-195, 255-400,
parquet_merger.rs 868-1025) and what is on disk when the process dies between or inside them. The
merged parts are written first, then the manifest is rewritten in place, then the old parts are
deleted and the moved ones renamed.
-/

namespace OptiPrism.Storage

variable {R K : Type}

/-- The states the disk can be in when the process dies during the round which computed `st`.

* `merging`: the merger is writing its outputs (compaction.rs 334-375, `File::create` at
  parquet_merger.rs 887): each of them may be missing, cut off or complete.
* `manifest`: inside `write_metadata` (compaction.rs 155; db.rs 281-296 rewinds and overwrites).
* `cleaning`: the manifest is written and some of the renames and deletions are done
  (compaction.rs 158-176). -/
inductive CompactCrash (d : Disk R K) (p : Proc R K) (st : CState R K) : Disk R K → Prop where
  | merging (f : Files R)
      (h : ∀ l i, f l i = d.parts l i ∨
        (st.files l i ≠ d.parts l i ∧ (f l i = none ∨ f l i = some .torn ∨ f l i = st.files l i))) :
      CompactCrash d p st { d with parts := f }
  | manifest : CompactCrash d p st { d with manifest := none, parts := st.files }
  | cleaning (a b : List COp) (f : Files R) (c : Cnt) (h : st.ops = a ++ b)
      (hx : execOps st.files st.cnt a = some (f, c)) :
      CompactCrash d p st { d with manifest := some (install p.md st), parts := f }

/-! ### following the loop -/

theorem compactLoop_ind {le : K → K → Prop} [DecidableRel le] {o : CompOpts}
    {merge : List (List R) → Option (List (MOut R K))} (P : CState R K → Prop)
    (hmark : ∀ st tcs, P st → P { st with done := true, picks := st.picks ++ [tcs] })
    (hmove : ∀ st st' lvl b tc, P st → st.levels[lvl + 1]? = some b →
      (0 < lvl ∨ o.l0MaxParts = 0) → moveStep lvl tc b st = some st' → P st')
    (hmerge : ∀ st st' lvl tcs, P st → lvl + 1 < st.levels.length →
      (∀ p ∈ tcs, p ∈ pathsOf 0 st.levels) → mergeStep merge lvl tcs st = some st' → P st')
    (lvls : List Nat) : ∀ {st st' : CState R K}, P st →
    compactLoop le o merge lvls st = some (some st') → P st' := by
  induction lvls with
  | nil =>
    intro st st' h hs
    simp only [compactLoop, Option.some.injEq] at hs
    exact hs ▸ h
  | cons lvl lvls ih =>
    intro st st' h hs
    unfold compactLoop at hs
    cases ha : st.levels[lvl]? with
    | none => rw [ha] at hs; simp at hs
    | some a =>
      cases hb : st.levels[lvl + 1]? with
      | none => rw [ha, hb] at hs; simp at hs
      | some b =>
        rw [ha, hb] at hs
        dsimp only at hs
        cases hdet : determine le o lvl a b with
        | none =>
          rw [hdet] at hs
          dsimp only at hs
          split at hs
          · simp only [Option.some.injEq] at hs
            exact hs ▸ h
          · simp at hs
        | some tcs =>
          rw [hdet] at hs
          dsimp only at hs
          have hsub := determine_sub ha hb hdet
          have h0 := hmark st tcs h
          rcases tcs with _ | ⟨tc, _ | ⟨y, zs⟩⟩
          · dsimp only at hs
            cases hst : mergeStep merge lvl [] { st with done := true, picks := st.picks ++ [[]] } with
            | none => rw [hst] at hs; simp at hs
            | some st1 =>
              rw [hst] at hs
              exact ih (hmerge _ _ _ _ h0 (List.getElem?_eq_some_iff.mp hb).1 hsub hst) hs
          · dsimp only at hs
            cases hst : moveStep lvl tc.2 b { st with done := true, picks := st.picks ++ [[tc]] } with
            | none => rw [hst] at hs; simp at hs
            | some st1 =>
              rw [hst] at hs
              refine ih (hmove _ _ _ _ _ h0 hb ?_ hst) hs
              rcases Nat.eq_zero_or_pos lvl with rfl | h'
              · rcases Nat.eq_zero_or_pos o.l0MaxParts with h'' | h''
                · exact .inr h''
                · have := determine_level0 h'' hdet
                  simp at this
              · exact .inl h'
          · dsimp only at hs
            cases hst : mergeStep merge lvl (tc :: y :: zs)
                { st with done := true, picks := st.picks ++ [tc :: y :: zs] } with
            | none => rw [hst] at hs; simp at hs
            | some st1 =>
              rw [hst] at hs
              exact ih (hmerge _ _ _ _ h0 (List.getElem?_eq_some_iff.mp hb).1 hsub hst) hs

/-- No rename is among the operations. -/
def NoRename (ops : List COp) : Prop := ∀ s t, COp.rename s t ∉ ops

/-- The target of the last rename is a recorded part whose file does not exist before it. -/
def LastRename (st : CState R K) : Prop :=
  ∀ a s t b, st.ops = a ++ .rename s t :: b → NoRename b →
    t ∈ pathsOf 0 st.levels ∧ st.files t.1 t.2 = none ∧ t ∉ a.flatMap COp.paths

theorem addOuts_frame {k : Nat} (hk : 1 ≤ k) (outs : List (MOut R K)) : ∀ (st : CState R K),
    k < st.levels.length →
    (∀ p, bound st.levels p → (outs.foldl (addOut k) st).files p.1 p.2 = st.files p.1 p.2) ∧
    (∀ p ∈ pathsOf 0 st.levels, p ∈ pathsOf 0 (outs.foldl (addOut k) st).levels) ∧
    (∀ p, bound st.levels p → bound (outs.foldl (addOut k) st).levels p) ∧
    (outs.foldl (addOut k) st).ops = st.ops := by
  induction outs with
  | nil => intro st _; exact ⟨fun _ _ => rfl, fun _ h => h, fun _ h => h, rfl⟩
  | cons o outs ih =>
    intro st hlen
    obtain ⟨b, hb⟩ : ∃ b, st.levels[k]? = some b := ⟨_, List.getElem?_eq_getElem hlen⟩
    have e : addOut k st o = { st with
        levels := st.levels.modify k (pushPart ⟨b.partId + 1, o.size, o.values, o.min, o.max⟩)
        files := setPart st.files k (b.partId + 1) (some (.full o.rows))
        cnt := (st.cnt.open (k, b.partId + 1)).open (k, b.partId + 1) } := by
      simp only [addOut, hb]
    obtain ⟨h1, h2, h3, h4⟩ := ih (addOut k st o) (by rw [e]; simpa using hlen)
    have hnb := not_bound_next hb hk
    have hbp : ∀ p, bound st.levels p → bound (addOut k st o).levels p := by
      intro p hp; rw [e]; exact bound_push hp
    simp only [List.foldl_cons]
    refine ⟨?_, ?_, fun p hp => h3 p (hbp p hp), by rw [h4, e]⟩
    · intro p hp
      rw [h1 p (hbp p hp), e]
      apply setPart_ne
      rintro ⟨e1, e2⟩
      apply hnb
      have : p = (k, b.partId + 1) := Prod.ext e1 e2
      rw [← this]; exact hp
    · intro p hp
      apply h2
      rw [e]
      exact (pathsOf_pushPart 0 k _ st.levels hlen).mem_iff.mpr (List.mem_append.mpr (.inl hp))

theorem mergeStep_frame {merge : List (List R) → Option (List (MOut R K))} {st st' : CState R K} {lvl : Nat}
    {tcs : List (Nat × Nat)} (hlen : lvl + 1 < st.levels.length) (hs : mergeStep merge lvl tcs st = some st') :
    (∀ p, bound st.levels p → st'.files p.1 p.2 = st.files p.1 p.2) ∧
    (∀ p ∈ pathsOf 0 st.levels, p ∉ tcs → p ∈ pathsOf 0 st'.levels) ∧
    (∀ p, bound st.levels p → bound st'.levels p) ∧
    st'.ops = st.ops ++ tcs.map .delete ∧ (∀ p ∈ tcs, st.files p.1 p.2 ≠ none) := by
  unfold mergeStep at hs
  cases hin : tcs.mapM (fun tc => fileRows st.files tc.1 tc.2) with
  | none => rw [hin] at hs; simp at hs
  | some ins =>
    rw [hin] at hs
    dsimp only at hs
    cases ho : merge ins with
    | none => rw [ho] at hs; simp at hs
    | some outs =>
      rw [ho] at hs
      simp only [Option.some.injEq] at hs
      obtain ⟨h1, h2, h3, h4⟩ := addOuts_frame (k := lvl + 1) (by omega) outs
        { st with levels := tcs.foldl (fun ls tc => ls.modify tc.1 (dropId tc.2)) st.levels }
        (by simpa [dropAll_length] using hlen)
      refine ⟨?_, ?_, ?_, ?_, ?_⟩
      · intro p hp
        rw [← hs]
        exact h1 p (bound_dropAll.mpr hp)
      · intro p hp hn
        rw [← hs]
        apply h2
        rw [pathsOf_dropAll]
        exact List.mem_filter.mpr ⟨hp, by simpa using hn⟩
      · intro p hp
        rw [← hs]
        exact h3 p (bound_dropAll.mpr hp)
      · rw [← hs]; simp only; rw [h4]
      · have : ∀ (l : List (Nat × Nat)) r, l.mapM (fun tc => fileRows st.files tc.1 tc.2) = some r →
            ∀ p ∈ l, st.files p.1 p.2 ≠ none := by
          intro l
          induction l with
          | nil => intro r _ p hp; cases hp
          | cons x l ih =>
            intro r hr p hp
            rw [List.mapM_cons] at hr
            cases hx : fileRows st.files x.1 x.2 with
            | none => rw [hx] at hr; simp at hr
            | some y =>
              rw [hx] at hr
              cases hl : l.mapM (fun tc => fileRows st.files tc.1 tc.2) with
              | none => rw [hl] at hr; simp at hr
              | some z =>
                rcases List.mem_cons.mp hp with rfl | hp
                · intro e
                  simp [fileRows, e] at hx
                · exact ih z hl p hp
        exact this tcs ins hin

theorem moveStep_frame {st st' : CState R K} {lvl id : Nat} {b : DLevel K}
    (hb : st.levels[lvl + 1]? = some b) (hs : moveStep lvl id b st = some st') :
    st'.files = st.files ∧ st'.ops = st.ops ++ [.rename (lvl, id) (lvl + 1, b.partId + 1)] ∧
    (lvl + 1, b.partId + 1) ∈ pathsOf 0 st'.levels := by
  unfold moveStep at hs
  cases ha : st.levels[lvl]? with
  | none => rw [ha] at hs; simp at hs
  | some a =>
    rw [ha] at hs
    dsimp only at hs
    cases hq : a.parts.find? (fun q => q.id == id) with
    | none => rw [hq] at hs; simp at hs
    | some q =>
      rw [hq] at hs
      simp only [Option.some.injEq] at hs
      rw [← hs]
      refine ⟨rfl, rfl, ?_⟩
      have hlen : lvl + 1 < st.levels.length := (List.getElem?_eq_some_iff.mp hb).1
      have := pathsOf_pushPart 0 (lvl + 1) ({ q with id := b.partId + 1 } : PartRef K)
        (st.levels.modify lvl fun lv => { lv with parts := lv.parts.eraseP fun q => q.id == id })
        (by rw [List.length_modify]; exact hlen)
      exact this.mem_iff.mpr (List.mem_append.mpr (.inr (by simp)))

/-- What is kept along the loop. -/
structure CrashInv (le : K → K → Prop) (key : R → K) (L0 : List (DLevel K)) (F0 : Files R)
    (st : CState R K) : Prop where
  inv : ∃ G, CInv le key G (pathsOf 0 st.levels) st
  mono : ∀ p, bound L0 p → bound st.levels p
  old : ∀ p, bound L0 p → st.files p.1 p.2 = F0 p.1 p.2
  last : LastRename st

theorem lastRename_deletes {st st' : CState R K} {tcs : List (Nat × Nat)} (h : LastRename st)
    (hops : st'.ops = st.ops ++ tcs.map .delete)
    (hp : ∀ p ∈ pathsOf 0 st.levels, p ∉ tcs → p ∈ pathsOf 0 st'.levels)
    (hb : ∀ p ∈ pathsOf 0 st.levels, st'.files p.1 p.2 = st.files p.1 p.2)
    (hf : ∀ p ∈ tcs, st.files p.1 p.2 ≠ none) : LastRename st' := by
  intro a s t b he hn
  rw [hops] at he
  -- the rename is one of the old operations
  have : ∃ b', st.ops = a ++ .rename s t :: b' ∧ NoRename b' := by
    rcases List.append_eq_append_iff.mp he with ⟨c, e1, e2⟩ | ⟨c, e1, e2⟩
    · -- st.ops is a prefix of a
      exfalso
      have : COp.rename s t ∈ tcs.map COp.delete := by rw [e2]; simp
      simp at this
    · cases c with
      | nil =>
        exfalso
        simp only [List.nil_append] at e2
        have : COp.rename s t ∈ tcs.map COp.delete := by rw [← e2]; simp
        simp at this
      | cons x c =>
        simp only [List.cons_append, List.cons.injEq] at e2
        obtain ⟨rfl, e2⟩ := e2
        refine ⟨c, e1, fun s' t' hm => hn s' t' (by rw [e2]; simp [hm])⟩
  obtain ⟨b', e, hn'⟩ := this
  obtain ⟨h1, h2, h3⟩ := h a s t b' e hn'
  refine ⟨hp t h1 (fun hm => hf t hm h2), ?_, h3⟩
  rw [hb t h1]; exact h2

theorem crashInv_loop {le : K → K → Prop} [DecidableRel le] {key : R → K} {o : CompOpts}
    {merge : List (List R) → Option (List (MOut R K))} (hm : IsMerge le key merge) (lvls : List Nat)
    {L0 : List (DLevel K)} {F0 : Files R} {st st' : CState R K} (h : CrashInv le key L0 F0 st)
    (hs : compactLoop le o merge lvls st = some (some st')) : CrashInv le key L0 F0 st' := by
  refine compactLoop_ind (CrashInv le key L0 F0) ?_ ?_ ?_ lvls h hs
  · rintro st tcs ⟨⟨G, h1⟩, h2, h3, h4⟩
    exact ⟨⟨G, h1.nd, h1.sub, h1.bd, h1.fresh, h1.ment, h1.cnt, h1.ok, h1.cons, h1.virt⟩, h2, h3, h4⟩
  · rintro st st' lvl b tc ⟨⟨G, h1⟩, h2, h3, h4⟩ hb _ hst
    obtain ⟨G', i1, _, _, i4, _⟩ := moveStep_inv h1 hb hst
    obtain ⟨f1, f2, f3⟩ := moveStep_frame hb hst
    have hlen : lvl + 1 < st.levels.length := (List.getElem?_eq_some_iff.mp hb).1
    have hnb := not_bound_next hb (by omega)
    refine ⟨⟨G', i1⟩, fun p hp => i4 p (h2 p hp), fun p hp => by rw [f1]; exact h3 p hp, ?_⟩
    intro a s t r he hn
    rw [f2] at he
    have hr : r = [] := by
      rcases List.eq_nil_or_concat r with hr | ⟨r', x, hr⟩
      · exact hr
      · exfalso
        rw [hr] at he
        have := List.append_inj_right' (s₁ := st.ops) (t₁ := [COp.rename (lvl, tc) (lvl + 1, b.partId + 1)])
          (s₂ := a ++ COp.rename s t :: r') (t₂ := [x]) (by simpa using he) rfl
        simp only [List.cons.injEq, and_true] at this
        exact hn (lvl, tc) (lvl + 1, b.partId + 1) (by rw [hr, ← this]; simp)
    subst hr
    obtain ⟨e1, e2⟩ := List.append_inj' he rfl
    simp only [List.cons.injEq, COp.rename.injEq, and_true] at e2
    obtain ⟨_, rfl⟩ := e2
    refine ⟨f3, ?_, ?_⟩
    · rw [f1]; exact h1.fresh _ _ hlen hnb
    · rw [← e1]; exact fun hmm => hnb (h1.ment _ hmm)
  · rintro st st' lvl tcs ⟨⟨G, h1⟩, h2, h3, h4⟩ hlen hsub hst
    obtain ⟨G', i1, _⟩ := mergeStep_inv hm h1 hlen hsub hst
    obtain ⟨f1, f2, f3, f4, f5⟩ := mergeStep_frame hlen hst
    exact ⟨⟨G', i1⟩, fun p hp => f3 p (h2 p hp), fun p hp => by rw [f1 p (h2 p hp)]; exact h3 p hp,
      lastRename_deletes h4 f4 f2 (fun p hp => f1 p (h1.bd p hp)) f5⟩

theorem partsOf_files {f : Files R} {n : Nat} {ls : List (DLevel K)} {r : List (List R)}
    (h : partsOf f n ls = some r) : ∀ p ∈ pathsOf n ls, f p.1 p.2 ≠ none := by
  induction ls generalizing n r with
  | nil => intro p hp; cases hp
  | cons lv ls ih =>
    rw [partsOf_cons] at h
    intro p hp
    cases h1 : lv.parts.mapM (fun q => fileRows f n q.id) with
    | none => rw [h1] at h; simp at h
    | some x =>
      cases h2 : partsOf f (n + 1) ls with
      | none => rw [h1, h2] at h; simp at h
      | some y =>
        rcases List.mem_append.mp hp with hp | hp
        · obtain ⟨q, hq, rfl⟩ := List.mem_map.mp hp
          have : ∀ (l : List (PartRef K)) x, l.mapM (fun q => fileRows f n q.id) = some x →
              ∀ q ∈ l, f n q.id ≠ none := by
            intro l
            induction l with
            | nil => intro x _ q hq; cases hq
            | cons a l ihl =>
              intro x hx q hq
              rw [List.mapM_cons] at hx
              cases ha : fileRows f n a.id with
              | none => rw [ha] at hx; simp at hx
              | some u =>
                rw [ha] at hx
                cases hl : l.mapM (fun q => fileRows f n q.id) with
                | none => rw [hl] at hx; simp at hx
                | some v =>
                  rcases List.mem_cons.mp hq with rfl | hq
                  · intro e; simp [fileRows, e] at ha
                  · exact ihl v hl q hq
          exact this _ _ h1 q hq
        · exact ih h2 p hp

/-- Deletions only remove files. -/
theorem execOps_noRename (ops : List COp) (hn : NoRename ops) : ∀ {f D : Files R} {c c' : Cnt},
    execOps f c ops = some (D, c') → ∀ l i x, D l i = some x → f l i = some x := by
  induction ops with
  | nil =>
    intro f D c c' h l i x hx
    simp only [execOps, Option.some.injEq, Prod.mk.injEq] at h
    rw [h.1]; exact hx
  | cons op ops ih =>
    intro f D c c' h l i x hx
    have hn' : NoRename ops := fun s t hm => hn s t (by simp [hm])
    cases op with
    | rename s t => exact absurd (by simp) (hn s t)
    | delete p =>
      simp only [execOps] at h
      cases hc : c.close p with
      | none => rw [hc] at h; simp at h
      | some c1 =>
        rw [hc] at h
        dsimp only at h
        split at h
        · cases hf : f p.1 p.2 with
          | none => rw [hf] at h; simp at h
          | some v =>
            rw [hf] at h
            have := ih hn' h l i x hx
            simp only [setPart] at this
            split at this
            · cases this
            · exact this
        · exact ih hn' h l i x hx

end OptiPrism.Storage
