import Verif.Storage.CompactConcInv

/-!
# C96, C97: compaction in the background

C96: whatever the interleaving of inserts, flushes, scans, garbage collection and the steps of the
compactor, no acknowledged row is lost and the compactor does not die. The full statement fails: the
compactor deletes a file in two halves, and the garbage collector may remove the file in between; the
compactor then panics, the renames it had still to do are never done, and a moved part is lost.

C97: a scan returns the rows present when it started. It fails when the compactor renames or removes a
file between the copy of the metadata and the opening of the file, or when the scan starts between the
installation and a rename.
-/

namespace OptiPrism.Storage

variable {R K : Type}

/-- C96 for one environment: every history of a table with at least one level. -/
def C96_full (R K : Type) (le : K → K → Prop) [DecidableRel le] (e : Env R K) : Prop :=
  ∀ (n : Nat) (acts : List (BAct R)) (s : BSt R K), 1 ≤ n → brun le e (BSt.init n) acts = some s → s.fine →
    s.phase ≠ .dead ∧
    (NoRename s.phase.todo → ∃ p' t, reopen s.d = .ok p' ∧ viewOf s.d s.p = some t ∧
      viewOf s.d p' = some t ∧ t.rows.Perm (acts.flatMap BAct.rows))

/-- C96 when the garbage collector never runs between the two halves of a deletion: the compactor does
not die, and whenever no rename is outstanding the table and the table as found by a restart contain
exactly the inserted rows. What is missing: histories in which the garbage collector does that
(`C96_violated`), and compactions that choose a part twice (`C17_violated`). -/
theorem C96_partial [DecidableEq R] {le : K → K → Prop} [DecidableRel le] (ho : TotOrd le) {e : Env R K}
    {sort : List R → List R} (he : EnvOk le sort e) {n : Nat} (hn : 1 ≤ n) (acts : List (BAct R))
    {s : BSt R K} (hcalm : Calm le e (BSt.init n) acts) (hs : brun le e (BSt.init n) acts = some s)
    (hf : s.fine) :
    s.phase ≠ .dead ∧
    (NoRename s.phase.todo → ∃ p' t, reopen s.d = .ok p' ∧ viewOf s.d s.p = some t ∧
      viewOf s.d p' = some t ∧ t.rows.Perm (acts.flatMap BAct.rows)) := by
  have h := binv_run ho he acts (binv_init hn) hcalm hs
  rw [List.nil_append] at h
  have hre : reopen s.d = .ok s.p := by
    unfold reopen
    rw [h.mani, h.logs]
    simp only [maxLog]
    rw [← h.log]
  have view : ∀ {G : Nat × Nat → List R},
      (∀ x ∈ pathsOf 0 s.p.md.levels, s.d.parts x.1 x.2 = some (.full (G x))) →
      ((pathsOf 0 s.p.md.levels).flatMap G ++ s.p.mem).Perm (acts.flatMap BAct.rows) →
      ∃ p' t, reopen s.d = .ok p' ∧ viewOf s.d s.p = some t ∧ viewOf s.d p' = some t ∧
        t.rows.Perm (acts.flatMap BAct.rows) := by
    intro G h1 h2
    have hv : viewOf s.d s.p = some ⟨s.p.mem, (pathsOf 0 s.p.md.levels).map G⟩ := by
      unfold viewOf
      rw [partsOf_paths h1]
      rfl
    refine ⟨s.p, _, hre, hv, hv, ?_⟩
    simpa [ATbl.rows, List.flatMap_def] using h2
  cases h.ph with
  | idle h1 h2 =>
    refine ⟨by rw [h1]; simp, fun hr => ?_⟩
    obtain ⟨G, i1, i2⟩ := h2.inv
    exact view (i1.files (by intro a b hm; cases hm)) (i2 hf)
  | fin pend ops h1 h2 =>
    refine ⟨by rw [h1]; simp, fun hr => ?_⟩
    obtain ⟨G, i1, i2⟩ := h2.inv
    rw [h1] at hr
    exact view (i1.files hr) (i2 hf)
  | merg st h1 h2 =>
    refine ⟨by rw [h1]; simp, fun _ => ?_⟩
    obtain ⟨G, i1, i2⟩ := h2.cur
    exact view i1 (i2 hf)

/-! ### C97 -/

theorem lookup_drop {l : List (Nat × Sc R)} {t u : Nat} (h : t ≠ u) :
    (dropScan u l).lookup t = l.lookup t := by
  induction l with
  | nil => rfl
  | cons a l ih =>
    obtain ⟨v, sv⟩ := a
    unfold dropScan at ih ⊢
    rw [List.filter_cons]
    by_cases e1 : v = u
    · subst e1
      have : (t == v) = false := by simpa using h
      simp [List.lookup_cons, this, ih]
    · have : (v != u) = true := by simpa using e1
      rw [if_pos this, List.lookup_cons, List.lookup_cons, ih]

theorem lookup_drop_self {l : List (Nat × Sc R)} {t : Nat} : (dropScan t l).lookup t = none := by
  rw [List.lookup_eq_none_iff]
  intro x hx
  have := (List.mem_filter.mp hx).2
  simp at this ⊢
  exact fun e => this e.symm

/-- Steps other than the file operations of the compactor keep the files a scan may still want. -/
theorem keeps_files [DecidableEq R] {le : K → K → Prop} [DecidableRel le] (ho : TotOrd le) {e : Env R K}
    {sort : List R → List R} (he : EnvOk le sort e) {ins : List R} {s s' : BSt R K} (h : BInv le e ins s)
    {a : BAct R} (ha : a ≠ .op) (hs : bstep le e s a = some s') {x : Nat × Nat} {v : PFile R}
    (hv : s.d.parts x.1 x.2 = some v)
    (hx : x ∈ pathsOf 0 s.p.md.levels ∨ 1 ≤ mentions s.phase.todo x) :
    s'.d.parts x.1 x.2 = some v ∧ (x ∈ pathsOf 0 s'.p.md.levels ∨ 1 ≤ mentions s'.phase.todo x) := by
  cases a with
  | op => exact absurd rfl ha
  | insert r =>
    simp only [bstep, Option.some.injEq] at hs
    subst hs
    exact ⟨hv, hx⟩
  | flush =>
    simp only [bstep] at hs
    cases hf : flush e.key e.toBlock e.size s.d s.p with
    | none => rw [hf] at hs; simp at hs
    | some y =>
      obtain ⟨d, p⟩ := y
      rw [hf] at hs
      simp only [Option.some.injEq] at hs
      subst hs
      unfold flush at hf
      split at hf
      · simp only [Option.some.injEq, Prod.mk.injEq] at hf
        obtain ⟨rfl, rfl⟩ := hf
        exact ⟨hv, hx⟩
      · rename_i hlen
        have hne : s.p.mem ≠ [] := fun e => hlen (by rw [e]; rfl)
        cases hl : s.p.md.levels with
        | nil => exact absurd hl h.lv
        | cons l0 ls =>
          unfold flushPlan at hf
          rw [he.blocks _ hne, hl] at hf
          simp only [List.head?_cons] at hf
          cases hq : mkPart e.key e.size l0.partId (sort s.p.mem) with
          | none => rw [hq] at hf; simp at hf
          | some q =>
            rw [hq] at hf
            simp only [Md.flushed, hl, Disk.applyAll, Disk.apply] at hf
            cases hfree : s.d.parts 0 l0.partId with
            | some w => rw [hfree] at hf; simp at hf
            | none =>
              rw [hfree] at hf
              simp only [h.logs] at hf
              simp at hf
              obtain ⟨rfl, rfl⟩ := hf
              refine ⟨?_, ?_⟩
              · have hne' : ¬ (x.1 = 0 ∧ x.2 = l0.partId) := by
                  rintro ⟨e1, e2⟩
                  rw [e1, e2, hfree] at hv
                  cases hv
                simp only
                rw [setPart_ne _ _ hne', setPart_ne _ _ hne']
                exact hv
              · rcases hx with hx | hx
                · left
                  rw [hl] at hx
                  have := pathsOf_pushPart 0 0 q (l0 :: ls) (by simp)
                  exact this.mem_iff.mpr (List.mem_append.mpr (.inl hx))
                · exact .inr hx
  | compute =>
    simp only [bstep] at hs
    cases h.ph with
    | fin pend ops h1 _ => simp only [h1] at hs; simp at hs
    | merg st h1 _ => simp only [h1] at hs; simp at hs
    | idle h1 h2 =>
      simp only [h1] at hs
      cases hcp : compact le e.opts e.merge s.d.parts s.cnt s.p.md.levels with
      | none => rw [hcp] at hs; simp at hs
      | some o =>
        rw [hcp] at hs
        cases o with
        | none =>
          simp only [Option.some.injEq] at hs
          subst hs
          exact ⟨hv, hx⟩
        | some st =>
          simp only [Option.some.injEq] at hs
          obtain ⟨⟨G, i1, i2⟩, hacc, _⟩ := h2
          obtain ⟨G', c1, c2, c3, c4, c5, c6⟩ := compute_spec he i1 hcp
          subst hs
          rw [h1] at hx
          have hx' : x ∈ pathsOf 0 s.p.md.levels := by
            rcases hx with hx | hx
            · exact hx
            · simp [Phase.todo, mentions] at hx
          exact ⟨by simp only; rw [c4 x hx']; exact hv, .inl hx'⟩
  | install =>
    simp only [bstep] at hs
    cases h.ph with
    | fin pend ops h1 _ => simp only [h1] at hs; simp at hs
    | idle h1 _ => simp only [h1] at hs; simp at hs
    | merg st h1 h2 =>
      simp only [h1, Option.some.injEq] at hs
      subst hs
      rw [h1] at hx
      have hx' : x ∈ pathsOf 0 s.p.md.levels := by
        rcases hx with hx | hx
        · exact hx
        · simp [Phase.todo, mentions] at hx
      exact ⟨hv, h2.cover x hx'⟩
  | gc =>
    simp only [bstep, Option.some.injEq] at hs
    subst hs
    refine ⟨?_, hx⟩
    rcases gc_files (busy := fun l i => s.cnt l i != 0) (d := s.d) (md := s.p.md) x.1 x.2 with hh | ⟨_, g2, g3⟩
    · exact hh.trans hv
    · exfalso
      rcases hx with hx | hx
      · exact g2 hx
      · have h0 : s.cnt x.1 x.2 = 0 := by simpa using g3
        have : mentions s.phase.todo x ≤ s.cnt x.1 x.2 := by
          cases h.ph with
          | idle h1 h2 => rw [h1]; simp [Phase.todo, mentions]
          | fin pend ops h1 h2 => rw [h1]; have := h2.acc x; simp only [Phase.todo]; omega
          | merg st h1 h2 => rw [h1]; simp [Phase.todo, mentions]
        omega
  | scanStart t =>
    simp only [bstep] at hs
    split at hs
    · simp at hs
    · simp only [Option.some.injEq] at hs
      subst hs
      exact ⟨hv, hx⟩
  | scanOpen t =>
    simp only [bstep] at hs
    split at hs
    · split at hs
      · simp only [Option.some.injEq] at hs
        subst hs
        exact ⟨hv, hx⟩
      · simp only [Option.some.injEq] at hs
        subst hs
        exact ⟨hv, hx⟩
    · simp at hs
  | scanEnd t =>
    simp only [bstep] at hs
    split at hs
    · split at hs
      · simp at hs
      · simp only [Option.some.injEq] at hs
        subst hs
        exact ⟨hv, hx⟩
    · simp at hs

/-- What is known about scan `t`, started when the table contained `rows0` and `out0` had ended. -/
structure Track (s : BSt R K) (t : Nat) (rows0 : List R) (out0 : List (Nat × Option (List R))) : Prop where
  ended : ∃ new, s.out = out0 ++ new ∧ ∀ r, (t, r) ∈ new → ∃ rows, r = some rows ∧ rows.Perm rows0
  running : ∀ sc, scanOf s t = some sc → ∃ G : Nat × Nat → List R,
    (∀ x ∈ sc.todo, s.d.parts x.1 x.2 = some (.full (G x)) ∧
      (x ∈ pathsOf 0 s.p.md.levels ∨ 1 ≤ mentions s.phase.todo x)) ∧
    (sc.rows ++ sc.todo.flatMap G).Perm rows0

theorem scans_other {le : K → K → Prop} [DecidableRel le] {e : Env R K} {s s' : BSt R K} {a : BAct R}
    (hs : bstep le e s a = some s') (h : ∀ t, a ≠ .scanStart t ∧ a ≠ .scanOpen t ∧ a ≠ .scanEnd t) :
    s'.scans = s.scans ∧ s'.out = s.out := by
  cases a with
  | insert r => simp only [bstep, Option.some.injEq] at hs; subst hs; exact ⟨rfl, rfl⟩
  | flush =>
    simp only [bstep] at hs
    split at hs
    · simp at hs
    · simp only [Option.some.injEq] at hs; subst hs; exact ⟨rfl, rfl⟩
  | compute =>
    simp only [bstep] at hs
    split at hs
    · split at hs
      · simp at hs
      · simp only [Option.some.injEq] at hs; subst hs; exact ⟨rfl, rfl⟩
      · simp only [Option.some.injEq] at hs; subst hs; exact ⟨rfl, rfl⟩
    · simp at hs
  | install =>
    simp only [bstep] at hs
    split at hs
    · simp only [Option.some.injEq] at hs; subst hs; exact ⟨rfl, rfl⟩
    · simp at hs
  | op =>
    simp only [bstep, opStep] at hs
    repeat' split at hs
    all_goals first
      | (simp only [Option.some.injEq] at hs; subst hs; exact ⟨rfl, rfl⟩)
      | simp at hs
  | gc => simp only [bstep, Option.some.injEq] at hs; subst hs; exact ⟨rfl, rfl⟩
  | scanStart t => exact absurd rfl (h t).1
  | scanOpen t => exact absurd rfl (h t).2.1
  | scanEnd t => exact absurd rfl (h t).2.2

theorem track_step [DecidableEq R] {le : K → K → Prop} [DecidableRel le] (ho : TotOrd le) {e : Env R K}
    {sort : List R → List R} (he : EnvOk le sort e) {ins : List R} {s s' : BSt R K} (h : BInv le e ins s)
    {t : Nat} {rows0 : List R} {out0 : List (Nat × Option (List R))} (ht : Track s t rows0 out0)
    {a : BAct R} (ha : a ≠ .op) (hat : a ≠ .scanStart t) (hs : bstep le e s a = some s') :
    Track s' t rows0 out0 := by
  have hk := fun {x} {v} => keeps_files (x := x) (v := v) ho he h ha hs
  -- a scan that was already running unchanged
  have same : ∀ sc, scanOf s t = some sc → ∃ G : Nat × Nat → List R,
      (∀ x ∈ sc.todo, s'.d.parts x.1 x.2 = some (.full (G x)) ∧
        (x ∈ pathsOf 0 s'.p.md.levels ∨ 1 ≤ mentions s'.phase.todo x)) ∧
      (sc.rows ++ sc.todo.flatMap G).Perm rows0 := by
    intro sc hsc
    obtain ⟨G, h1, h2⟩ := ht.running sc hsc
    exact ⟨G, fun x hx => hk (h1 x hx).1 (h1 x hx).2, h2⟩
  by_cases hother : ∀ u, a ≠ .scanStart u ∧ a ≠ .scanOpen u ∧ a ≠ .scanEnd u
  · obtain ⟨e1, e2⟩ := scans_other hs hother
    refine ⟨by rw [e2]; exact ht.ended, ?_⟩
    intro sc hsc
    exact same sc (by unfold scanOf at hsc ⊢; rw [e1] at hsc; exact hsc)
  · cases a with
    | insert r => exact absurd (fun u => ⟨by simp, by simp, by simp⟩) hother
    | flush => exact absurd (fun u => ⟨by simp, by simp, by simp⟩) hother
    | compute => exact absurd (fun u => ⟨by simp, by simp, by simp⟩) hother
    | install => exact absurd (fun u => ⟨by simp, by simp, by simp⟩) hother
    | op => exact absurd rfl ha
    | gc => exact absurd (fun u => ⟨by simp, by simp, by simp⟩) hother
    | scanStart u =>
      have hut : u ≠ t := by rintro rfl; exact hat rfl
      simp only [bstep] at hs
      cases hsc : scanOf s u with
      | some x => rw [hsc] at hs; simp at hs
      | none =>
        rw [hsc] at hs
        simp only [Option.some.injEq] at hs
        subst hs
        refine ⟨ht.ended, ?_⟩
        intro sc h1
        apply same
        simp only [scanOf, List.lookup_cons] at h1
        have : (t == u) = false := by simpa using fun e => hut e.symm
        rw [this] at h1
        exact h1
    | scanOpen u =>
      simp only [bstep] at hs
      cases hsc : scanOf s u with
      | none => rw [hsc] at hs; simp at hs
      | some sc =>
        obtain ⟨todo, opened, rows⟩ := sc
        rw [hsc] at hs
        cases todo with
        | nil => simp at hs
        | cons y todo =>
          dsimp only at hs
          by_cases hut : t = u
          · subst hut
            obtain ⟨G, g1, g2⟩ := ht.running _ hsc
            have hy := (g1 y (by simp)).1
            have hfr : fileRows s.d.parts y.1 y.2 = some (G y) := by simp [fileRows, hy]
            rw [hfr] at hs
            simp only [Option.some.injEq] at hs
            subst hs
            refine ⟨ht.ended, ?_⟩
            intro sc h1
            simp only [scanOf, List.lookup_cons, BEq.rfl, Option.some.injEq] at h1
            subst h1
            refine ⟨G, fun x hx => g1 x (List.mem_cons_of_mem _ hx), ?_⟩
            simpa using g2
          · have hb : (t == u) = false := by simpa using hut
            cases hf : fileRows s.d.parts y.1 y.2 with
            | none =>
              rw [hf] at hs
              simp only [Option.some.injEq] at hs
              subst hs
              refine ⟨?_, ?_⟩
              · obtain ⟨new, n1, n2⟩ := ht.ended
                refine ⟨new ++ [(u, none)], by simp only; rw [n1, List.append_assoc], ?_⟩
                intro r hr
                rcases List.mem_append.mp hr with hr | hr
                · exact n2 r hr
                · simp at hr; exact absurd hr.1 hut
              · intro sc h1
                apply same
                simp only [scanOf] at h1
                rw [lookup_drop hut] at h1
                exact h1
            | some r =>
              rw [hf] at hs
              simp only [Option.some.injEq] at hs
              subst hs
              refine ⟨ht.ended, ?_⟩
              intro sc h1
              apply same
              simp only [scanOf, List.lookup_cons, hb] at h1
              rw [lookup_drop hut] at h1
              exact h1
    | scanEnd u =>
      simp only [bstep] at hs
      cases hsc : scanOf s u with
      | none => rw [hsc] at hs; simp at hs
      | some sc =>
        obtain ⟨todo, opened, rows⟩ := sc
        rw [hsc] at hs
        cases todo with
        | cons y todo => simp at hs
        | nil =>
          dsimp only at hs
          cases hcl : closeAll s.cnt opened with
          | none => rw [hcl] at hs; simp at hs
          | some c =>
            rw [hcl] at hs
            simp only [Option.some.injEq] at hs
            subst hs
            obtain ⟨new, n1, n2⟩ := ht.ended
            by_cases hut : t = u
            · subst hut
              obtain ⟨G, g1, g2⟩ := ht.running _ hsc
              refine ⟨⟨new ++ [(t, some rows)], by simp only; rw [n1, List.append_assoc], ?_⟩, ?_⟩
              · intro r hr
                rcases List.mem_append.mp hr with hr | hr
                · exact n2 r hr
                · simp at hr
                  exact ⟨rows, hr, by simpa using g2⟩
              · intro sc h1
                simp only [scanOf, lookup_drop_self] at h1
                cases h1
            · refine ⟨⟨new ++ [(u, some rows)], by simp only; rw [n1, List.append_assoc], ?_⟩, ?_⟩
              · intro r hr
                rcases List.mem_append.mp hr with hr | hr
                · exact n2 r hr
                · simp at hr; exact absurd hr.1 hut
              · intro sc h1
                apply same
                simp only [scanOf] at h1
                rw [lookup_drop hut] at h1
                exact h1

/-- C97 for one environment: a scan started at any time and ended by any continuation returns the rows
inserted before it started. -/
def C97_full (R K : Type) (le : K → K → Prop) [DecidableRel le] (e : Env R K) : Prop :=
  ∀ (n : Nat) (before acts : List (BAct R)) (t : Nat) (s1 s2 : BSt R K), 1 ≤ n →
    Calm le e (BSt.init n) (before ++ .scanStart t :: acts) →
    brun le e (BSt.init n) (before ++ [.scanStart t]) = some s1 → brun le e s1 acts = some s2 → s2.fine →
    .scanStart t ∉ acts →
    ∃ new, s2.out = s1.out ++ new ∧
      ∀ r, (t, r) ∈ new → ∃ rows, r = some rows ∧ rows.Perm (before.flatMap BAct.rows)

theorem brun_append {le : K → K → Prop} [DecidableRel le] {e : Env R K} (a b : List (BAct R)) (s : BSt R K) :
    brun le e s (a ++ b) = (brun le e s a).bind fun s' => brun le e s' b := by
  induction a generalizing s with
  | nil => rfl
  | cons x a ih =>
    simp only [List.cons_append, brun]
    cases bstep le e s x with
    | none => rfl
    | some s1 => exact ih s1

theorem calm_append {le : K → K → Prop} [DecidableRel le] {e : Env R K} (a b : List (BAct R)) {s : BSt R K}
    (h : Calm le e s (a ++ b)) : Calm le e s a ∧ ∀ s', brun le e s a = some s' → Calm le e s' b := by
  induction a generalizing s with
  | nil => exact ⟨trivial, fun s' hs => by simp only [brun, Option.some.injEq] at hs; subst hs; exact h⟩
  | cons x a ih =>
    refine ⟨⟨h.1, fun s' hs => (ih (h.2 s' hs)).1⟩, ?_⟩
    intro s' hs
    simp only [brun] at hs
    cases hx : bstep le e s x with
    | none => rw [hx] at hs; simp at hs
    | some s1 =>
      rw [hx] at hs
      exact (ih (h.2 s1 hx)).2 s' hs

theorem track_run [DecidableEq R] {le : K → K → Prop} [DecidableRel le] (ho : TotOrd le) {e : Env R K}
    {sort : List R → List R} (he : EnvOk le sort e) {t : Nat} {rows0 : List R}
    {out0 : List (Nat × Option (List R))} (acts : List (BAct R)) (hop : .op ∉ acts) (hst : .scanStart t ∉ acts) :
    ∀ {ins : List R} {s s' : BSt R K}, BInv le e ins s → Calm le e s acts → Track s t rows0 out0 →
    brun le e s acts = some s' → Track s' t rows0 out0 := by
  induction acts with
  | nil =>
    intro ins s s' _ _ ht hs
    simp only [brun, Option.some.injEq] at hs
    subst hs
    exact ht
  | cons a as ih =>
    intro ins s s' h hc ht hs
    simp only [brun] at hs
    cases h1 : bstep le e s a with
    | none => rw [h1] at hs; simp at hs
    | some s1 =>
      rw [h1] at hs
      exact ih (fun hm => hop (by simp [hm])) (fun hm => hst (by simp [hm])) (binv_step ho he h hc.1 h1)
        (hc.2 s1 h1)
        (track_step ho he h ht (fun e => hop (by simp [e])) (fun e => hst (by simp [e])) h1) hs

/-- C97 when the scan starts while no rename is outstanding and the compactor executes no file
operation before the scan has ended: the scan never fails to open a file, and if it ends it returns
exactly the rows inserted before it started. Inserts, flushes, other scans, garbage collection, merging
and the installation of a compaction may happen meanwhile. What is missing: scans that overlap a file
operation (`C97_violated_delete`, `C97_violated_rename`), and compactions that choose a part twice. -/
theorem C97_partial [DecidableEq R] {le : K → K → Prop} [DecidableRel le] (ho : TotOrd le) {e : Env R K}
    {sort : List R → List R} (he : EnvOk le sort e) {n : Nat} (hn : 1 ≤ n) (before acts : List (BAct R))
    (t : Nat) {s1 s2 : BSt R K} (hcalm : Calm le e (BSt.init n) (before ++ .scanStart t :: acts))
    (h1 : brun le e (BSt.init n) (before ++ [.scanStart t]) = some s1)
    (h2 : brun le e s1 acts = some s2) (hf : s1.fine)
    (hst : .scanStart t ∉ acts) (hop : .op ∉ acts) (hren : NoRename s1.phase.todo) :
    (∃ new, s2.out = s1.out ++ new ∧
      ∀ r, (t, r) ∈ new → ∃ rows, r = some rows ∧ rows.Perm (before.flatMap BAct.rows)) ∧
    ∀ sc, scanOf s2 t = some sc → ∀ x ∈ sc.todo, ∃ rows, fileRows s2.d.parts x.1 x.2 = some rows := by
  have hcalm' : Calm le e (BSt.init n) ((before ++ [.scanStart t]) ++ acts) := by simpa using hcalm
  obtain ⟨k1, k2⟩ := calm_append _ _ hcalm'
  have hb1 := binv_run ho he _ (binv_init hn) k1 h1
  have hrows : (before ++ [BAct.scanStart t]).flatMap BAct.rows = before.flatMap BAct.rows := by
    simp [BAct.rows]
  rw [List.nil_append, hrows] at hb1
  -- the state before the start of the scan
  rw [brun_append] at h1
  cases h0 : brun le e (BSt.init n) before with
  | none => rw [h0] at h1; simp at h1
  | some s0 =>
    rw [h0] at h1
    simp only [Option.bind_some, brun, bstep] at h1
    cases hsc : scanOf s0 t with
    | some x => rw [hsc] at h1; simp at h1
    | none =>
      rw [hsc] at h1
      simp only [Option.some.injEq] at h1
      have hview : ∃ G, (∀ x ∈ pathsOf 0 s1.p.md.levels, s1.d.parts x.1 x.2 = some (.full (G x))) ∧
          ((pathsOf 0 s1.p.md.levels).flatMap G ++ s1.p.mem).Perm (before.flatMap BAct.rows) := by
        cases hb1.ph with
        | idle e1 e2 =>
          obtain ⟨G, i1, i2⟩ := e2.inv
          exact ⟨G, i1.files (by intro a b hm; cases hm), i2 hf⟩
        | fin pend ops e1 e2 =>
          obtain ⟨G, i1, i2⟩ := e2.inv
          rw [e1] at hren
          exact ⟨G, i1.files hren, i2 hf⟩
        | merg st e1 e2 =>
          obtain ⟨G, i1, i2⟩ := e2.cur
          exact ⟨G, i1, i2 hf⟩
      have ht1 : Track s1 t (before.flatMap BAct.rows) s1.out := by
        refine ⟨⟨[], by simp, fun r hr => by cases hr⟩, ?_⟩
        intro sc hsc'
        rw [← h1] at hsc'
        simp only [scanOf, List.lookup_cons, BEq.rfl, Option.some.injEq] at hsc'
        subst hsc'
        obtain ⟨G, i1, i2⟩ := hview
        refine ⟨G, ?_, ?_⟩
        · intro x hx
          have hx' : x ∈ pathsOf 0 s1.p.md.levels := by rw [← h1]; exact hx
          exact ⟨i1 x hx', .inl hx'⟩
        · refine List.perm_append_comm.trans ?_
          have e1 : s0.p = s1.p := by rw [← h1]
          simp only
          rw [e1]
          exact i2
      have ht2 := track_run ho he acts hop hst hb1 (k2 s1 (by
        rw [brun_append, h0]
        simp only [Option.bind_some, brun, bstep, hsc, h1])) ht1 h2
      refine ⟨ht2.ended, ?_⟩
      intro sc hsc' x hx
      obtain ⟨G, g1, _⟩ := ht2.running sc hsc'
      exact ⟨G x, by simp [fileRows, (g1 x hx).1]⟩

/-! ### concrete cases and violations -/

theorem calm_of_no_gc {le : K → K → Prop} [DecidableRel le] {e : Env R K} (acts : List (BAct R))
    (h : BAct.gc ∉ acts) : ∀ s : BSt R K, Calm le e s acts := by
  induction acts with
  | nil => intro s; trivial
  | cons a as ih =>
    intro s
    refine ⟨?_, fun s' _ => ih (fun hm => h (by simp [hm])) s'⟩
    cases a with
    | gc => exact absurd (by simp) h
    | _ => trivial

/-- What is left to see of a state: the phase, the table, the ended scans, the choices. -/
structure Seen where
  dead : Bool
  view : Option (List DRow × List (List DRow))
  out : List (Nat × Option (List DRow))
  fine : Bool
  deriving DecidableEq, Repr

def Phase.isDead : Phase R K → Bool
  | .dead => true
  | _ => false

def seen (s : BSt DRow (Int × Int)) : Seen :=
  ⟨s.phase.isDead, (viewOf s.d s.p).map fun t => (t.mem, t.parts), s.out, s.picks.all fun t => decide t.Nodup⟩

def bgRun (e : Env DRow (Int × Int)) (n : Nat) (acts : List (BAct DRow)) : Option Seen :=
  (brun lexLe e (BSt.init n) acts).map seen

/-- Two flushed parts. -/
def bgTwo : List (BAct DRow) := [.insert ((1, 1), 7), .flush, .insert ((0, 1), 8), .flush]

/-- A compaction with a flush, a scan and the garbage collector in its middle. -/
def bgGood : List (BAct DRow) :=
  bgTwo ++ [.compute, .scanStart 0, .insert ((5, 5), 9), .flush, .gc, .install, .scanOpen 0, .scanOpen 0,
    .insert ((6, 6), 1), .gc, .op, .op, .op, .op, .scanEnd 0, .op, .gc]

example : bgRun (demoEnv 1 1 1) 4 bgGood =
    some ⟨false, some ([((6, 6), 1)], [[((5, 5), 9)], [((0, 1), 8), ((1, 1), 7)]]),
      [(0, some [((1, 1), 7), ((0, 1), 8)])], true⟩ := by decide +kernel

/-- The hypotheses of `C96_partial` are met by that history. -/
example : ∃ s, brun lexLe (demoEnv 1 1 1) (BSt.init 4) bgGood = some s ∧ s.fine ∧
    EnvOk lexLe (sortRows Prod.fst) (demoEnv 1 1 1) := by
  have h : bgRun (demoEnv 1 1 1) 4 bgGood =
    some ⟨false, some ([((6, 6), 1)], [[((5, 5), 9)], [((0, 1), 8), ((1, 1), 7)]]),
      [(0, some [((1, 1), 7), ((0, 1), 8)])], true⟩ := by decide +kernel
  unfold bgRun at h
  obtain ⟨s, h1, h2⟩ := Option.map_eq_some_iff.mp h
  refine ⟨s, h1, ?_, demoEnv_ok 1 1 1 (by omega)⟩
  have := congrArg Seen.fine h2
  simp only [seen, List.all_eq_true, decide_eq_true_eq] at this
  exact this

/-- The garbage collector removes a file between the release of its count by the compactor and the
compactor's own attempt: the compactor dies, and the merged part, installed as part 1 of level 2, is
never moved there. -/
def bgLost : List (BAct DRow) := bgTwo ++ [.compute, .install, .op, .gc, .op]

theorem bgLost_seen : bgRun (demoEnv 1 1 1) 4 bgLost = some ⟨true, none, [], true⟩ := by decide +kernel

/-- C96 fails. -/
theorem C96_violated : ¬ C96_full DRow (Int × Int) lexLe (demoEnv 1 1 1) := by
  intro hfull
  have h := bgLost_seen
  unfold bgRun at h
  obtain ⟨s, h1, h2⟩ := Option.map_eq_some_iff.mp h
  have hf : s.fine := by
    have := congrArg Seen.fine h2
    simp only [seen, List.all_eq_true, decide_eq_true_eq] at this
    exact this
  have hd := congrArg Seen.dead h2
  have := (hfull 4 bgLost s (by omega) h1 hf).1
  cases hp : s.phase with
  | dead => exact this hp
  | _ => simp [seen, hp, Phase.isDead] at hd

/-- After a restart the garbage collector removes the file that was to be moved: both rows are gone
for good. -/
theorem C96_lost_for_good : (brun lexLe (demoEnv 1 1 1) (BSt.init 4) bgLost).map (fun s =>
    match reopen s.d with
    | .error _ => false
    | .ok p =>
      let d := gcPass (fun _ _ => false) s.d p.md
      p.mem.isEmpty && (viewOf d p).isNone && (d.parts 1 1).isNone && (d.parts 2 1).isNone) =
    some true := by decide +kernel

/-- The scan copies the metadata, then the compactor installs its result and removes the first of the
merged files. -/
def bgDel : List (BAct DRow) := [.install, .op, .op, .scanOpen 0]

theorem bgDel_seen : bgRun (demoEnv 1 100 100) 3 ((bgTwo ++ [.compute] ++ [.scanStart 0]) ++ bgDel) =
    some ⟨false, some ([], [[((0, 1), 8), ((1, 1), 7)]]), [(0, none)], true⟩ := by decide +kernel

/-- The scan copies the metadata after the installation and before the rename. -/
theorem bgRen_seen : bgRun (demoEnv 1 1 1) 4
    ((bgTwo ++ [.compute, .install, .op, .op, .op, .op] ++ [.scanStart 0]) ++ [.scanOpen 0]) =
    some ⟨false, none, [(0, none)], true⟩ := by decide +kernel

theorem C97_fails {e : Env DRow (Int × Int)} {n : Nat} {before acts : List (BAct DRow)}
    (hn : 1 ≤ n) (hgc : BAct.gc ∉ before ++ .scanStart 0 :: acts) (hst : BAct.scanStart 0 ∉ acts) {v}
    (h : bgRun e n ((before ++ [.scanStart 0]) ++ acts) = some ⟨false, v, [(0, none)], true⟩)
    (h0 : bgRun e n (before ++ [.scanStart 0]) ≠ none)
    (hout : ∀ x, bgRun e n (before ++ [.scanStart 0]) = some x → x.out = []) :
    ¬ C97_full DRow (Int × Int) lexLe e := by
  intro hfull
  unfold bgRun at h h0 hout
  obtain ⟨s2, h1, h2⟩ := Option.map_eq_some_iff.mp h
  rw [brun_append] at h1
  cases hs1 : brun lexLe e (BSt.init n) (before ++ [.scanStart 0]) with
  | none => rw [hs1] at h0; exact h0 rfl
  | some s1 =>
    rw [hs1] at h1
    simp only [Option.bind_some] at h1
    have hf : s2.fine := by
      have := congrArg Seen.fine h2
      simp only [seen, List.all_eq_true, decide_eq_true_eq] at this
      exact this
    obtain ⟨new, n1, n2⟩ := hfull n before acts 0 s1 s2 hn (calm_of_no_gc _ hgc _) hs1 h1 hf hst
    have ho1 : s1.out = [] := hout (seen s1) (by rw [hs1]; rfl)
    have ho2 : s2.out = [(0, none)] := congrArg Seen.out h2
    rw [ho1, ho2, List.nil_append] at n1
    obtain ⟨rows, hr, _⟩ := n2 none (by rw [← n1]; simp)
    cases hr

/-- C97 fails when a file is removed before the scan opens it. -/
theorem C97_violated_delete : ¬ C97_full DRow (Int × Int) lexLe (demoEnv 1 100 100) :=
  C97_fails (n := 3) (before := bgTwo ++ [.compute]) (acts := bgDel) (by omega) (by simp [bgTwo, bgDel])
    (by simp [bgDel]) bgDel_seen (by decide +kernel) (by
      intro x hx
      have : (bgRun (demoEnv 1 100 100) 3 (bgTwo ++ [.compute] ++ [.scanStart 0])).map (fun x => x.out.isEmpty) = some true := by
        decide +kernel
      rw [hx] at this
      simpa using this)

/-- C97 fails when the scan starts before a moved file is at its place. -/
theorem C97_violated_rename : ¬ C97_full DRow (Int × Int) lexLe (demoEnv 1 1 1) :=
  C97_fails (n := 4) (before := bgTwo ++ [.compute, .install, .op, .op, .op, .op]) (acts := [.scanOpen 0])
    (by omega) (by simp [bgTwo]) (by simp) bgRen_seen (by decide +kernel) (by
      intro x hx
      have : (bgRun (demoEnv 1 1 1) 4
        (bgTwo ++ [.compute, .install, .op, .op, .op, .op] ++ [.scanStart 0])).map (fun x => x.out.isEmpty) = some true := by
        decide +kernel
      rw [hx] at this
      simpa using this)

/-- The hypotheses of `C97_partial` are met: a scan across a flush, an installation and a pass of the
garbage collector. -/
example : bgRun (demoEnv 1 1 1) 4 ((bgTwo ++ [.compute] ++ [.scanStart 0]) ++
      [.insert ((5, 5), 9), .flush, .install, .gc, .scanOpen 0, .scanOpen 0, .scanEnd 0]) =
    some ⟨false, none, [(0, some [((1, 1), 7), ((0, 1), 8)])], true⟩ := by decide +kernel

end OptiPrism.Storage
