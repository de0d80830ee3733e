import Verif.Storage.Compact

/-!
# C16-C18: compaction, restart, part identities
-/

namespace OptiPrism.Storage

variable {R K : Type}

/-! ### from clean states and back -/

theorem partsOf_paths {f : Files R} {G : Nat × Nat → List R} {n : Nat} {ls : List (DLevel K)}
    (h : ∀ p ∈ pathsOf n ls, f p.1 p.2 = some (.full (G p))) :
    partsOf f n ls = some ((pathsOf n ls).map G) := by
  induction ls generalizing n with
  | nil => rfl
  | cons lv ls ih =>
    rw [partsOf_cons, ih (fun p hp => h p (List.mem_append.mpr (.inr hp)))]
    have h0 : lv.parts.mapM (fun p => fileRows f n p.id) = some (lv.parts.map fun q => G (n, q.id)) := by
      apply mapM_some_of
      intro q hq
      have := h (n, q.id) (List.mem_append.mpr (.inl (List.mem_map.mpr ⟨q, hq, rfl⟩)))
      simp only at this
      simp [fileRows, this]
    rw [h0]
    simp [pathsOf]

/-- The rows of the file at a path. -/
def diskRows (f : Files R) (p : Nat × Nat) : List R := (fileRows f p.1 p.2).getD []

theorem clean_paths {le : K → K → Prop} {key : R → K} {d : Disk R K} {p : Proc R K} (hc : Clean le key d p) :
    ∀ x ∈ pathsOf 0 p.md.levels, d.parts x.1 x.2 = some (.full (diskRows d.parts x)) := by
  intro x hx
  obtain ⟨k, lv, q, h1, h2, rfl⟩ := mem_pathsOf.mp hx
  obtain ⟨rows, hr, _⟩ := hc.parts k lv h1 q h2
  simp [diskRows, fileRows, hr]

theorem clean_inv {le : K → K → Prop} {key : R → K} {d : Disk R K} {p : Proc R K} (hc : Clean le key d p)
    (cnt : Cnt) : CInv le key (diskRows d.parts) (pathsOf 0 p.md.levels)
      ⟨p.md.levels, [], [], d.parts, cnt, false, []⟩ := by
  have hpaths := clean_paths hc
  refine ⟨pathsOf_nodup hc.nodup, fun _ h => h, ?_, ?_, ?_, ?_, ?_, ?_, ?_⟩
  · intro x hx
    obtain ⟨k, lv, q, h1, h2, rfl⟩ := mem_pathsOf.mp hx
    refine ⟨lv, by simpa using h1, ?_⟩
    cases k with
    | zero => simpa using hc.ids0 lv h1 q h2
    | succ k => simpa using hc.idsN k lv h1 q h2
  · intro l i hl hnb
    obtain ⟨lv, hlv⟩ : ∃ lv, p.md.levels[l]? = some lv := ⟨_, List.getElem?_eq_getElem hl⟩
    cases l with
    | zero =>
      refine hc.fresh0 lv hlv i ?_
      apply Decidable.byContradiction
      intro hn
      exact hnb ⟨lv, hlv, by simp; omega⟩
    | succ l =>
      refine hc.freshN l lv hlv i ?_
      apply Decidable.byContradiction
      intro hn
      exact hnb ⟨lv, hlv, by simp; omega⟩
  · intro x hx; simp at hx
  · intro l i; simp [mentions]
  · intro k lv hlv q hq
    obtain ⟨rows, hr, h1, h2, h3, h4⟩ := hc.parts k lv hlv q hq
    have : diskRows d.parts (k, q.id) = rows := by simp [diskRows, fileRows, hr]
    rw [this]
    exact ⟨h1, h2, h3, h4⟩
  · intro x hx y hy
    simp only at hy
    rw [hpaths x hx] at hy
    exact (Option.some.inj hy).symm
  · intro c _
    exact ⟨d.parts, c, rfl, by simp [mentions], hpaths⟩

theorem nodup_of_paths {n : Nat} {ls : List (DLevel K)} (h : (pathsOf n ls).Nodup) :
    ∀ (l : Nat) (lv : DLevel K), ls[l]? = some lv → (lv.parts.map PartRef.id).Nodup := by
  induction ls generalizing n with
  | nil => intro l lv hl; simp at hl
  | cons a ls ih =>
    simp only [pathsOf, List.nodup_append] at h
    intro l lv hl
    cases l with
    | zero =>
      simp at hl
      subst hl
      have h1 := h.1
      have e : a.parts.map (fun q => (n, q.id)) = (a.parts.map PartRef.id).map (fun i => (n, i)) := by simp
      rw [e] at h1
      exact List.Pairwise.imp (fun {x y} hxy hxy' => hxy (by rw [hxy'])) (List.pairwise_map.mp h1)
    | succ l => exact ih h.2.1 l lv (by simpa using hl)

/-- What one round of compaction does to a clean table. -/
theorem compaction_clean [DecidableEq R] {le : K → K → Prop} [DecidableRel le] {key : R → K} {o : CompOpts}
    (ho : 1 ≤ o.l0MaxParts) {merge : List (List R) → Option (List (MOut R K))} (hm : IsMerge le key merge)
    {d : Disk R K} {p : Proc R K} (hc : Clean le key d p) (cnt : Cnt) {st : CState R K}
    (hs : compact le o merge d.parts cnt p.md.levels = some (some st)) :
    ∃ d' p' t t', runCompaction le o merge cnt d p = some (d', p') ∧ Clean le key d' p' ∧
      p'.mem = p.mem ∧ p'.md.levels = st.levels ∧ p'.md.logId = p.md.logId ∧
      st.levels.length = p.md.levels.length ∧
      (∀ x ∈ pathsOf 0 st.levels, x ∈ pathsOf 0 p.md.levels ∨ ¬ bound p.md.levels x) ∧
      (∀ x, bound p.md.levels x → bound st.levels x) ∧
      viewOf d p = some t ∧ viewOf d' p' = some t' ∧
      ((∀ c ∈ st.picks, c.Nodup) → t'.rows.Perm t.rows) ∧
      ((∃ c ∈ st.picks, ¬ c.Nodup) → t.rows.length < t'.rows.length) := by
  unfold compact at hs
  split at hs
  · simp at hs
  rename_i hlen
  have hinv := clean_inv hc cnt
  obtain ⟨G', picks, i1, i2, i3, i4, i5, i6, i7, i8, i9, i10⟩ := compactLoop_inv ho hm _ hinv hs
  simp only [List.nil_append] at i2
  subst i2
  obtain ⟨D, c', e1, e2, e3⟩ := i1.virt st.cnt i1.cnt
  -- the installed levels are the computed ones
  obtain ⟨l0, hl0⟩ : ∃ l0, p.md.levels[0]? = some l0 :=
    ⟨_, List.getElem?_eq_getElem (by omega)⟩
  have hst0 := i7 l0 (by
    simp only [List.contains_nil, Bool.not_false]
    rw [hl0, List.filter_eq_self.mpr (by simp)])
  have hinst : (install p.md st).levels = st.levels := by
    cases hp : p.md.levels with
    | nil => rw [hp] at hl0; simp at hl0
    | cons a as =>
      cases hq : st.levels with
      | nil => rw [hq] at hst0; simp at hst0
      | cons b bs =>
        rw [hp] at hl0
        rw [hq] at hst0
        simp only [List.getElem?_cons_zero, Option.some.injEq] at hl0 hst0
        subst hl0
        simp only [install, hp, hq]
        rw [hst0]
  have hlog : (install p.md st).logId = p.md.logId := by
    unfold install; split <;> rfl
  have hrun : runCompaction le o merge cnt d p =
      some ({ d with manifest := some (install p.md st), parts := D }, { p with md := install p.md st }) := by
    unfold runCompaction compact
    rw [if_neg hlen, hs]
    simp only [e1]
  have hfreshD : ∀ l i, l < st.levels.length → ¬ bound st.levels (l, i) → D l i = none := by
    intro l i hl hnb
    rw [execOps_other _ _ _ l i e1 (fun hm => hnb (i1.ment _ hm))]
    exact i1.fresh l i hl hnb
  have hclean : Clean le key ({ d with manifest := some (install p.md st), parts := D } : Disk R K)
      ({ p with md := install p.md st } : Proc R K) := by
    refine ⟨rfl, ?_, ?_, ?_, ?_, ?_, ?_, ?_, ?_⟩
    · show p.log = (install p.md st).logId
      rw [hlog]; exact hc.log
    · show d.logs = [((install p.md st).logId, p.mem)]
      rw [hlog]; exact hc.logs
    · intro l lv hlv q hq
      simp only [hinst] at hlv
      have hmem : (l, q.id) ∈ pathsOf 0 st.levels := mem_pathsOf.mpr ⟨l, lv, q, hlv, hq, by simp⟩
      obtain ⟨g1, g2, g3, g4⟩ := i1.ok l lv hlv q hq
      exact ⟨G' (l, q.id), e3 _ hmem, g1, g2, g3, g4⟩
    · intro lv hlv q hq
      simp only [hinst] at hlv
      obtain ⟨lv', h1, h2⟩ := i1.bd _ (mem_pathsOf.mpr ⟨0, lv, q, hlv, hq, rfl⟩)
      simp only [Nat.add_zero] at h1
      rw [hlv] at h1
      injection h1 with h1
      subst h1
      simpa using h2
    · intro l lv hlv q hq
      simp only [hinst] at hlv
      obtain ⟨lv', h1, h2⟩ := i1.bd _ (mem_pathsOf.mpr ⟨l + 1, lv, q, hlv, hq, rfl⟩)
      simp only [Nat.zero_add] at h1
      rw [hlv] at h1
      injection h1 with h1
      subst h1
      simpa using h2
    · intro l lv hlv
      simp only [hinst] at hlv
      exact nodup_of_paths i1.nd l lv hlv
    · intro lv hlv i hi
      simp only [hinst] at hlv
      apply hfreshD 0 i (List.getElem?_eq_some_iff.mp hlv).1
      rintro ⟨lv', h1, h2⟩
      simp only at h1
      rw [hlv] at h1
      injection h1 with h1
      subst h1
      simp at h2
      omega
    · intro l lv hlv i hi
      simp only [hinst] at hlv
      apply hfreshD (l + 1) i (List.getElem?_eq_some_iff.mp hlv).1
      rintro ⟨lv', h1, h2⟩
      simp only at h1
      rw [hlv] at h1
      injection h1 with h1
      subst h1
      simp at h2
      omega
  have hv : viewOf d p = some ⟨p.mem, (pathsOf 0 p.md.levels).map (diskRows d.parts)⟩ := by
    unfold viewOf
    rw [partsOf_paths (clean_paths hc)]
    rfl
  have hv' : viewOf ({ d with manifest := some (install p.md st), parts := D } : Disk R K)
      ({ p with md := install p.md st } : Proc R K) = some ⟨p.mem, (pathsOf 0 st.levels).map G'⟩ := by
    unfold viewOf
    simp only [hinst]
    rw [partsOf_paths e3]
    rfl
  refine ⟨_, _, _, _, hrun, hclean, rfl, hinst, hlog, i6, i9, i10, hv, hv', ?_, ?_⟩
  · intro hall
    have := i3 hall
    simp only [ATbl.rows]
    exact List.Perm.append_right _ (by simpa [List.flatMap_def] using this)
  · intro hex
    have := i5 hex
    simp only [ATbl.rows, List.length_append]
    simp only [List.flatMap_def] at this
    omega

/-! ### which choices have duplicates -/

theorem determine_nodup {le : K → K → Prop} [DecidableRel le] {o : CompOpts} {lvl : Nat} {a b : DLevel K}
    {tcs : List (Nat × Nat)} (h : determine le o lvl a b = some tcs)
    (hb : (b.parts.map PartRef.id).Nodup) : tcs.Nodup ↔ (chosenIds o lvl a).Nodup := by
  obtain ⟨f, rfl, _⟩ := determine_shape h
  rw [List.nodup_append]
  constructor
  · rintro ⟨h1, _, _⟩
    exact List.Pairwise.imp (fun {x y} hxy hxy' => hxy (by rw [hxy'])) (List.pairwise_map.mp h1)
  · intro h1
    refine ⟨List.Pairwise.map _ (fun x y hxy => by simpa using hxy) h1, ?_, ?_⟩
    · rw [List.Nodup, List.pairwise_map]
      have := List.pairwise_map.mp hb
      exact (this.filter f).imp fun {x y} hxy => by simpa using hxy
    · intro x hx y hy
      obtain ⟨i, _, rfl⟩ := List.mem_map.mp hx
      obtain ⟨q, _, rfl⟩ := List.mem_map.mp hy
      simp

theorem overMax_mem {M : Nat} {s : Nat} {ps qs : List (PartRef K)} {p : PartRef K}
    (h : M < s + (ps.map PartRef.size).sum + p.size) : p.id ∈ overMax M s (ps ++ p :: qs) := by
  induction ps generalizing s with
  | nil =>
    simp at h
    simp [overMax, h]
  | cons a ps ih =>
    simp only [List.map_cons, List.sum_cons] at h
    have := ih (s := s + a.size) (by omega)
    simp only [List.cons_append, overMax]
    split
    · exact List.mem_cons_of_mem _ this
    · exact this

/-- Whenever the level threshold is at least the maximal part size, as in the configuration used in
the repository's own tests, every choice on a level above 0 contains a part twice. -/
theorem C17_duplicates_when_threshold_ge {o : CompOpts} {lvl : Nat} (hl : lvl ≠ 0) {a : DLevel K}
    (ht : o.maxPart lvl ≤ o.threshold lvl) (hne : chosenIds o lvl a ≠ []) :
    ¬ (chosenIds o lvl a).Nodup := by
  have key : ∀ (pre post : List (PartRef K)) (s : Nat), a.parts = pre ++ post →
      s = (pre.map PartRef.size).sum →
      selectParts (o.threshold lvl) (o.maxPart lvl) a.parts s post ≠ [] →
      ¬ (selectParts (o.threshold lvl) (o.maxPart lvl) a.parts s post).Nodup := by
    intro pre post
    induction post generalizing pre with
    | nil => intro s _ _ h; exact absurd rfl h
    | cons p ps ih =>
      intro s hpre hs h
      simp only [selectParts] at h ⊢
      split
      · rename_i hlt
        intro hnd
        rw [List.nodup_append] at hnd
        have hm : p.id ∈ overMax (o.maxPart lvl) 0 a.parts := by
          rw [hpre]
          apply overMax_mem
          omega
        exact hnd.2.2 _ hm p.id (by simp) rfl
      · rename_i hlt
        rw [if_neg hlt] at h
        exact ih (pre ++ [p]) (s + p.size) (by rw [hpre]; simp) (by simp [hs]) h
  unfold chosenIds at hne ⊢
  rw [if_neg hl] at hne ⊢
  exact key [] a.parts 0 rfl rfl hne

theorem overMax_nil {M : Nat} {s : Nat} {ps : List (PartRef K)}
    (h : s + (ps.map PartRef.size).sum ≤ M) : overMax M s ps = [] := by
  induction ps generalizing s with
  | nil => rfl
  | cons a ps ih =>
    simp only [List.map_cons, List.sum_cons] at h
    simp only [overMax]
    rw [if_neg (by omega), ih (by omega)]

/-- No part is chosen twice when the whole level is not larger than one maximal part. -/
theorem C17_no_duplicates_when_small {o : CompOpts} {lvl : Nat} {a : DLevel K}
    (hnd : (a.parts.map PartRef.id).Nodup)
    (ht : lvl ≠ 0 → (a.parts.map PartRef.size).sum ≤ o.maxPart lvl) :
    (chosenIds o lvl a).Nodup := by
  unfold chosenIds
  split
  · split
    · exact hnd
    · simp
  · rename_i hl
    have h0 : overMax (o.maxPart lvl) 0 a.parts = [] := overMax_nil (by have := ht hl; omega)
    have : ∀ (ps : List (PartRef K)) (s : Nat), (selectParts (o.threshold lvl) (o.maxPart lvl) a.parts s ps).Sublist
        (ps.map PartRef.id) := by
      intro ps
      induction ps with
      | nil => intro s; simp [selectParts]
      | cons p ps ih =>
        intro s
        simp only [selectParts, h0, List.nil_append, List.map_cons]
        split
        · exact (ih _).cons_cons _
        · exact (ih _).cons _
    exact hnd.sublist (this _ _)

/-! ### C17 -/

/-- C17 as stated: every configuration, every clean layout. -/
def C17_full (R K : Type) (le : K → K → Prop) [DecidableRel le] (key : R → K) : Prop :=
  ∀ (o : CompOpts) (merge : List (List R) → Option (List (MOut R K))), IsMerge le key merge →
    ∀ (cnt : Cnt) (d : Disk R K) (p : Proc R K), Clean le key d p →
    ∀ d' p', runCompaction le o merge cnt d p = some (d', p') →
      ∃ t t', viewOf d p = some t ∧ viewOf d' p' = some t' ∧ t'.rows.Perm t.rows

/-- C17, exactly (for `l0_max_parts ≥ 1`): if the round does not panic while merging, it completes,
the table stays clean, and scans return the same rows as before iff no part was chosen twice. -/
theorem C17_partial [DecidableEq R] [DecidableEq K] {le : K → K → Prop} [DecidableRel le] (hto : TotOrd le)
    {key : R → K} {o : CompOpts} (ho : 1 ≤ o.l0MaxParts)
    {merge : List (List R) → Option (List (MOut R K))} (hm : IsMerge le key merge)
    {sort : List R → List R} (hsort : IsSort le key sort)
    {cut : List R → List (List R)} (hcut : IsCut cut)
    {pick : List (SChunk R) → Option (SChunk R × List (SChunk R))} (hp : IsPick le key pick)
    {drain : List (Nat × K) → List (Nat × K)} (hd : ∀ es, IsDrain le es (drain es))
    {n : Nat} (hsz : 1 ≤ n) (indexCols : Nat)
    {d : Disk R K} {p : Proc R K} (hc : Clean le key d p) (cnt : Cnt) {st : CState R K}
    (hs : compact le o merge d.parts cnt p.md.levels = some (some st)) :
    ∃ d' p' t t' out out', runCompaction le o merge cnt d p = some (d', p') ∧ Clean le key d' p' ∧
      viewOf d p = some t ∧ viewOf d' p' = some t' ∧
      t.scan le key sort cut pick drain n indexCols = some out ∧
      t'.scan le key sort cut pick drain n indexCols = some out' ∧
      (out'.flatten.Perm out.flatten ↔ ∀ c ∈ st.picks, c.Nodup) := by
  obtain ⟨d', p', t, t', h1, h2, _, _, _, _, _, _, h3, h4, h5, h6⟩ := compaction_clean ho hm hc cnt hs
  obtain ⟨t1, e1, _, hts⟩ := clean_view hc
  rw [h3] at e1
  injection e1 with e1
  subst e1
  obtain ⟨t2, e2, _, hts'⟩ := clean_view h2
  rw [h4] at e2
  injection e2 with e2
  subst e2
  obtain ⟨out, o1, o2, _⟩ := t.scan_view hto hsort hcut hp hd hsz indexCols hts
  obtain ⟨out', o1', o2', _⟩ := t'.scan_view hto hsort hcut hp hd hsz indexCols hts'
  refine ⟨d', p', t, t', out, out', h1, h2, h3, h4, o1, o1', ?_, ?_⟩
  · intro hperm c hcm
    apply Decidable.byContradiction
    intro hn
    have hlt := h6 ⟨c, hcm, hn⟩
    have : t'.rows.length = t.rows.length :=
      (o2'.symm.trans (hperm.trans o2)).length_eq
    omega
  · intro hall
    exact o2'.trans ((h5 hall).trans o2.symm)

/-- For tables with three levels nothing can be chosen twice, so compaction never changes what a
scan returns, and it never panics when the merge works. -/
theorem C17_three_levels [DecidableEq R] {le : K → K → Prop} [DecidableRel le] {key : R → K} {o : CompOpts}
    (ho : 1 ≤ o.l0MaxParts) {merge : List (List R) → Option (List (MOut R K))} (hm : IsMerge le key merge)
    (htot : ∀ ins, (merge ins).isSome) {d : Disk R K} {p : Proc R K} (hc : Clean le key d p) (cnt : Cnt)
    (hlen : p.md.levels.length = 3) :
    ∃ d' p' t t', runCompaction le o merge cnt d p = some (d', p') ∧ Clean le key d' p' ∧
      p'.mem = p.mem ∧ p'.md.levels.length = 3 ∧
      viewOf d p = some t ∧ viewOf d' p' = some t' ∧ t'.rows.Perm t.rows := by
  obtain ⟨tv, htv, _⟩ := clean_view hc
  obtain ⟨a, ha⟩ : ∃ a, p.md.levels[0]? = some a := ⟨_, List.getElem?_eq_getElem (by omega)⟩
  obtain ⟨b, hb⟩ : ∃ b, p.md.levels[0 + 1]? = some b := ⟨_, List.getElem?_eq_getElem (by omega)⟩
  let st0 : CState R K := ⟨p.md.levels, [], [], d.parts, cnt, false, []⟩
  have hcompact : compact le o merge d.parts cnt p.md.levels = compactLoop le o merge [0] st0 := by
    unfold compact
    rw [if_neg (by omega), hlen]
    rfl
  cases hdet : determine le o 0 a b with
  | none =>
    have : compact le o merge d.parts cnt p.md.levels = some none := by
      rw [hcompact]
      simp only [compactLoop, st0, ha, hb, hdet]
      rfl
    exact ⟨d, p, tv, tv, by simp [runCompaction, this], hc, rfl, hlen, htv, htv, List.Perm.refl _⟩
  | some tcs =>
    have hsub := determine_sub ha hb hdet
    have htwo := determine_level0 ho hdet
    have hreads : tcs.mapM (fun tc => fileRows d.parts tc.1 tc.2) = some (tcs.map (diskRows d.parts)) := by
      apply mapM_some_of
      intro x hx
      have := clean_paths hc x (hsub x hx)
      simp [fileRows, this]
    obtain ⟨outs, houts⟩ := Option.isSome_iff_exists.mp (htot (tcs.map (diskRows d.parts)))
    obtain ⟨st, hst, hpk⟩ : ∃ st, compact le o merge d.parts cnt p.md.levels = some (some st) ∧ st.picks = [tcs] := by
      rw [hcompact]
      unfold compactLoop
      simp only [st0, ha, hb, hdet]
      have : ∀ st1 : CState R K, st1.files = d.parts → st1.levels = p.md.levels → st1.picks = [tcs] →
          ∃ st, mergeStep merge 0 tcs st1 = some st ∧ st.picks = [tcs] := by
        intro st1 hf hlv hp1
        unfold mergeStep
        rw [hf, hreads]
        dsimp only
        rw [houts]
        refine ⟨_, rfl, ?_⟩
        simp only
        have hfold : ∀ (os : List (MOut R K)) (s : CState R K), (os.foldl (addOut 1) s).picks = s.picks := by
          intro os
          induction os with
          | nil => intro s; rfl
          | cons x os ih =>
            intro s
            rw [List.foldl_cons, ih]
            unfold addOut
            split <;> rfl
        rw [hfold]
        exact hp1
      obtain ⟨st, h1, h2⟩ := this ⟨p.md.levels, [], [], d.parts, cnt, true, [] ++ [tcs]⟩ rfl rfl rfl
      refine ⟨st, ?_, h2⟩
      rcases tcs with _ | ⟨x, _ | ⟨y, zs⟩⟩
      · simp at htwo
      · simp at htwo
      · dsimp only
        rw [h1]
        rfl
    obtain ⟨d', p', t, t', h1, h2, hmem, hlv, _, hlen', _, _, h3, h4, h5, _⟩ := compaction_clean ho hm hc cnt hst
    refine ⟨d', p', t, t', h1, h2, hmem, by rw [hlv, hlen', hlen], h3, h4, h5 ?_⟩
    intro c hcm
    rw [hpk] at hcm
    simp at hcm
    subst hcm
    rw [determine_nodup hdet (hc.nodup 1 b hb)]
    exact C17_no_duplicates_when_small (hc.nodup 0 a ha) (fun h => absurd rfl h)

/-! ### C16: histories and restart -/

inductive HOp (R : Type) where
  | insert (r : R)
  | flush
  | compact (open_ : Cnt)

variable {sort : List R → List R}

/-- Everything the environment of a table may choose. -/
structure Env (R K : Type) where
  key : R → K
  toBlock : List R → Option (Option (List R))
  size : List R → Nat
  opts : CompOpts
  merge : List (List R) → Option (List (MOut R K))

def hstep (le : K → K → Prop) [DecidableRel le] (e : Env R K) (s : Disk R K × Proc R K) :
    HOp R → Option (Disk R K × Proc R K)
  | .insert r => some (insertRow s.1 s.2 r)
  | .flush => flush e.key e.toBlock e.size s.1 s.2
  | .compact c => runCompaction le e.opts e.merge c s.1 s.2

/-- A history; `none` = an operation failed. -/
def hrun (le : K → K → Prop) [DecidableRel le] (e : Env R K) (s : Disk R K × Proc R K) :
    List (HOp R) → Option (Disk R K × Proc R K)
  | [] => some s
  | op :: ops =>
    match hstep le e s op with
    | none => none
    | some s' => hrun le e s' ops

/-- The environment of an append-only table that is configured sanely. -/
structure EnvOk (le : K → K → Prop) (sort : List R → List R) (e : Env R K) : Prop where
  sorts : IsSort le e.key sort
  blocks : ∀ l, l ≠ [] → e.toBlock l = some (some (sort l))
  l0 : 1 ≤ e.opts.l0MaxParts
  merges : IsMerge le e.key e.merge

/-- Facts about one step of a history. -/
theorem hstep_clean [DecidableEq R] {le : K → K → Prop} [DecidableRel le] (hto : TotOrd le) {e : Env R K}
    (he : EnvOk le sort e) {s s' : Disk R K × Proc R K} (hc : Clean le e.key s.1 s.2)
    (hl : s.2.md.levels ≠ []) {op : HOp R} (h : hstep le e s op = some s') :
    Clean le e.key s'.1 s'.2 ∧ s'.2.md.levels.length = s.2.md.levels.length ∧
    (∀ x ∈ pathsOf 0 s'.2.md.levels, x ∈ pathsOf 0 s.2.md.levels ∨ ¬ bound s.2.md.levels x) ∧
    (∀ x, bound s.2.md.levels x → bound s'.2.md.levels x) := by
  obtain ⟨d, p⟩ := s
  cases op with
  | insert r =>
    simp only [hstep, Option.some.injEq] at h
    subst h
    exact ⟨insert_clean hc r, rfl, fun x hx => .inl hx, fun x hx => hx⟩
  | flush =>
    simp only [hstep] at h
    by_cases hne : p.mem = []
    · have : flush e.key e.toBlock e.size d p = some (d, p) := by simp [flush, hne]
      rw [this] at h
      injection h with h
      subst h
      exact ⟨hc, rfl, fun x hx => .inl hx, fun x hx => hx⟩
    · cases hlv : p.md.levels with
      | nil => exact absurd hlv hl
      | cons l0 ls =>
        obtain ⟨q, a, b, _, _, hid, _, _, _, _, hfl, hc'⟩ :=
          flush_clean hto he.sorts he.blocks e.size hc hne hlv
        rw [hfl] at h
        injection h with h
        subst h
        refine ⟨hc', by simp, ?_, ?_⟩
        · intro x hx
          simp only [pathsOf, List.map_append, List.map_cons, List.map_nil, List.mem_append,
            List.mem_singleton] at hx
          simp only [pathsOf, List.mem_append]
          rcases hx with (hx | rfl) | hx
          · exact .inl (.inl hx)
          · refine .inr ?_
            rintro ⟨lv, h1, h2⟩
            simp at h1
            subst h1
            simp at h2
            omega
          · exact .inl (.inr hx)
        · rintro ⟨l, i⟩ ⟨lv, h1, h2⟩
          simp only at h1 h2
          cases l with
          | zero =>
            simp at h1
            subst h1
            exact ⟨_, rfl, by simp at h2 ⊢; omega⟩
          | succ l => exact ⟨lv, by simpa using h1, h2⟩
  | compact c =>
    simp only [hstep] at h
    cases hcm : compact le e.opts e.merge d.parts c p.md.levels with
    | none => simp [runCompaction, hcm] at h
    | some r =>
      cases r with
      | none =>
        simp [runCompaction, hcm] at h
        subst h
        exact ⟨hc, rfl, fun x hx => .inl hx, fun x hx => hx⟩
      | some st =>
        obtain ⟨d', p', t, t', h1, h2, hmem, hlv, _, hlen, hnew, hmono, _⟩ :=
          compaction_clean he.l0 he.merges hc c hcm
        rw [h1] at h
        injection h with h
        subst h
        refine ⟨h2, by rw [hlv]; exact hlen, ?_, ?_⟩
        · simp only [hlv]; exact hnew
        · simp only [hlv]; exact hmono

theorem hrun_clean [DecidableEq R] {le : K → K → Prop} [DecidableRel le] (hto : TotOrd le) {e : Env R K}
    (he : EnvOk le sort e) (ops : List (HOp R)) : ∀ {s s' : Disk R K × Proc R K}, Clean le e.key s.1 s.2 →
    s.2.md.levels ≠ [] → hrun le e s ops = some s' →
    Clean le e.key s'.1 s'.2 ∧ s'.2.md.levels ≠ [] ∧ (∀ x, bound s.2.md.levels x → bound s'.2.md.levels x) := by
  induction ops with
  | nil =>
    intro s s' hc hl h
    simp only [hrun, Option.some.injEq] at h
    subst h
    exact ⟨hc, hl, fun _ h => h⟩
  | cons op ops ih =>
    intro s s' hc hl h
    simp only [hrun] at h
    cases hop : hstep le e s op with
    | none => rw [hop] at h; simp at h
    | some s1 =>
      rw [hop] at h
      obtain ⟨h1, h2, _, h4⟩ := hstep_clean hto he hc hl hop
      have hl1 : s1.2.md.levels ≠ [] := by
        intro e'
        rw [e'] at h2
        exact hl (List.eq_nil_of_length_eq_zero h2.symm)
      obtain ⟨i1, i2, i3⟩ := ih h1 hl1 h
      exact ⟨i1, i2, fun x hx => i3 x (h4 x hx)⟩

/-- Manifest and log agree with the process. -/
structure Sync (d : Disk R K) (p : Proc R K) : Prop where
  manifest : d.manifest = some p.md
  log : p.log = p.md.logId
  logs : d.logs = [(p.md.logId, p.mem)]

theorem hstep_sync {le : K → K → Prop} [DecidableRel le] {e : Env R K} {s s' : Disk R K × Proc R K}
    (hc : Sync s.1 s.2) {op : HOp R} (h : hstep le e s op = some s') : Sync s'.1 s'.2 := by
  obtain ⟨d, p⟩ := s
  obtain ⟨h1, h2, h3⟩ := hc
  simp only at h1 h2 h3
  cases op with
  | insert r =>
    simp only [hstep, Option.some.injEq] at h
    subst h
    exact ⟨h1, h2, by simp [insertRow, h3, h2]⟩
  | flush =>
    simp only [hstep, flush] at h
    split at h
    · injection h with h; subst h; exact ⟨h1, h2, h3⟩
    · unfold flushPlan at h
      cases hl : p.md.levels with
      | nil => simp [hl] at h
      | cons l0 ls =>
        cases hb : e.toBlock p.mem with
        | none => simp [hl, hb] at h
        | some o =>
          cases o with
          | none => simp [hl, hb] at h
          | some rows =>
            cases hq : mkPart e.key e.size l0.partId rows with
            | none => simp [hl, hb, hq] at h
            | some q =>
              simp only [hl, hb, hq, Md.flushed, List.head?_cons, Disk.applyAll, Disk.apply] at h
              cases hf : d.parts 0 l0.partId with
              | some x => simp [hf] at h
              | none =>
                simp [hf, h3] at h
                subst h
                exact ⟨rfl, rfl, rfl⟩
  | compact c =>
    simp only [hstep, runCompaction] at h
    split at h
    · cases h
    · injection h with h; subst h; exact ⟨h1, h2, h3⟩
    · split at h
      · cases h
      · injection h with h
        subst h
        have hlog : ∀ st : CState R K, (install p.md st).logId = p.md.logId := by
          intro st; unfold install; split <;> rfl
        refine ⟨rfl, ?_, ?_⟩
        · simp only [hlog]; exact h2
        · simp only [hlog]; exact h3

/-- C16: after every history of inserts, flushes and compactions, for every configuration, reopening
the directory gives the same levels and parts, the same unflushed rows, and hence the same table to
every reader. -/
theorem C16_restart {le : K → K → Prop} [DecidableRel le] {e : Env R K} {levels : Nat} (ops : List (HOp R))
    {d : Disk R K} {p : Proc R K}
    (h : hrun le e (createDisk levels, createProc levels) ops = some (d, p)) :
    ∃ p', reopen d = .ok p' ∧ p'.md = p.md ∧ p'.mem = p.mem ∧ p'.log = p.log ∧ viewOf d p' = viewOf d p := by
  have key : ∀ (ops : List (HOp R)) (s s' : Disk R K × Proc R K), Sync s.1 s.2 → hrun le e s ops = some s' →
      Sync s'.1 s'.2 := by
    intro ops
    induction ops with
    | nil => intro s s' hc h; simp only [hrun, Option.some.injEq] at h; subst h; exact hc
    | cons op ops ih =>
      intro s s' hc h
      simp only [hrun] at h
      cases hop : hstep le e s op with
      | none => rw [hop] at h; simp at h
      | some s1 =>
        rw [hop] at h
        exact ih s1 s' (hstep_sync hc hop) h
  have hc := key ops _ _ (⟨rfl, rfl, rfl⟩ : Sync (createDisk levels : Disk R K) (createProc levels)) h
  simp only at hc
  have hr : reopen d = .ok ⟨p.md, p.mem, p.md.logId⟩ := by
    simp only [reopen, hc.manifest, hc.logs, maxLog]
  exact ⟨_, hr, rfl, rfl, hc.log.symm, rfl⟩

/-- The rows inserted by a history. -/
def HOp.inserted : HOp R → List R
  | .insert r => [r]
  | _ => []

/-- C16, end to end for tables with three levels: no operation ever fails, and after a restart the
table holds exactly the inserted rows. -/
theorem C16_three_levels [DecidableEq R] {le : K → K → Prop} [DecidableRel le] (hto : TotOrd le) {e : Env R K}
    (he : EnvOk le sort e) (htot : ∀ ins, (e.merge ins).isSome) (ops : List (HOp R)) :
    ∃ d p p' t, hrun le e (createDisk 3, createProc 3) ops = some (d, p) ∧ reopen d = .ok p' ∧
      viewOf d p' = some t ∧ t.rows.Perm (ops.flatMap HOp.inserted) := by
  have key : ∀ (ops : List (HOp R)) (s : Disk R K × Proc R K) (t : ATbl R), Clean le e.key s.1 s.2 →
      s.2.md.levels.length = 3 → viewOf s.1 s.2 = some t →
      ∃ s' t', hrun le e s ops = some s' ∧ Clean le e.key s'.1 s'.2 ∧ viewOf s'.1 s'.2 = some t' ∧
        t'.rows.Perm (t.rows ++ ops.flatMap HOp.inserted) := by
    intro ops
    induction ops with
    | nil => intro s t hc hl ht; exact ⟨s, t, rfl, hc, ht, by simp⟩
    | cons op ops ih =>
      intro s t hc hl ht
      have step : ∃ s1 t1, hstep le e s op = some s1 ∧ Clean le e.key s1.1 s1.2 ∧
          s1.2.md.levels.length = 3 ∧ viewOf s1.1 s1.2 = some t1 ∧
          t1.rows.Perm (t.rows ++ op.inserted) := by
        obtain ⟨d, p⟩ := s
        simp only at hc hl ht
        unfold viewOf at ht
        obtain ⟨parts, hparts, rfl⟩ := Option.map_eq_some_iff.mp ht
        cases op with
        | insert r =>
          refine ⟨_, ⟨p.mem ++ [r], parts⟩, rfl, insert_clean hc r, hl, ?_, ?_⟩
          · show (partsOf d.parts 0 p.md.levels).map _ = _
            rw [hparts]; rfl
          · simp [ATbl.rows, HOp.inserted]
        | flush =>
          by_cases hne : p.mem = []
          · refine ⟨(d, p), ⟨p.mem, parts⟩, by simp [hstep, flush, hne], hc, hl, ?_, by simp [HOp.inserted]⟩
            show (partsOf d.parts 0 p.md.levels).map _ = _
            rw [hparts]; rfl
          · cases hlv : p.md.levels with
            | nil => rw [hlv] at hl; simp at hl
            | cons l0 ls =>
              obtain ⟨md', d1, d2, d3, d4, d5, d6, _, _, _, _, _, _, ⟨h6, r6, t6, v6, p6⟩⟩ :=
                crash_cases hto he.sorts he.blocks e.size hc hne hlv
              obtain ⟨q, a, b, _, _, hid, _, _, _, hplan, hfl, hc'⟩ :=
                flush_clean hto he.sorts he.blocks e.size hc hne hlv
              have hd6 : d6 = (⟨some ⟨p.md.logId + 1, ⟨l0.partId + 1, l0.parts ++ [q]⟩ :: ls⟩, [(p.md.logId + 1, [])],
                  setPart (setPart d.parts 0 l0.partId (some .torn)) 0 l0.partId (some (.full (sort p.mem)))⟩ : Disk R K) := by
                have hfl' := hfl
                unfold flush at hfl'
                rw [if_neg (fun e' => hne (List.eq_nil_of_length_eq_zero e')), hplan] at hfl'
                unfold crashAfter at h6
                rw [hplan] at h6
                simp only [Option.bind_some] at h6
                have e6 : ∀ (l : List (FOp R K)), l.length = 6 → l.take 6 = l := by
                  intro l hl'; rw [← hl']; exact List.take_length
                rw [e6 _ rfl] at h6
                simp only [h6, Option.some.injEq, Prod.mk.injEq] at hfl'
                exact hfl'.1
              have hmd : (⟨md', [], p.md.logId + 1⟩ : Proc R K) =
                  ⟨⟨p.md.logId + 1, ⟨l0.partId + 1, l0.parts ++ [q]⟩ :: ls⟩, [], p.md.logId + 1⟩ := by
                have := r6
                rw [hd6] at this
                simp [reopen, maxLog] at this
                rw [this]
              rw [hd6, hmd] at v6
              refine ⟨_, t6, hfl, hc', ?_, v6, ?_⟩
              · simp only [List.length_cons]; rw [hlv] at hl; simpa using hl
              · simpa [HOp.inserted] using p6 ⟨p.mem, parts⟩ (by
                  unfold viewOf
                  rw [hparts]; rfl)
        | compact c =>
          obtain ⟨d', p', t0, t', h1, h2, _, h4, h5, h6, h7⟩ :=
            C17_three_levels he.l0 he.merges htot hc c hl
          have : t0 = ⟨p.mem, parts⟩ := by
            unfold viewOf at h5
            rw [hparts] at h5
            simpa using h5.symm
          subst this
          exact ⟨(d', p'), t', h1, h2, h4, h6, by simpa [HOp.inserted] using h7⟩
      obtain ⟨s1, t1, e1, e2, e3, e4, e5⟩ := step
      obtain ⟨s', t', i1, i2, i3, i4⟩ := ih s1 t1 e2 e3 e4
      refine ⟨s', t', by simp [hrun, e1, i1], i2, i3, i4.trans ?_⟩
      rw [List.flatMap_cons, ← List.append_assoc]
      exact e5.append_right _
  obtain ⟨s', t', h1, h2, h3, h4⟩ := key ops (createDisk 3, createProc 3) ⟨[], []⟩
    (create_clean le e.key 3) rfl rfl
  have hr : reopen s'.1 = .ok s'.2 := by
    simp only [reopen, h2.manifest, h2.logs, maxLog]
    have := h2.log
    obtain ⟨d, ⟨md, mem, log⟩⟩ := s'
    simp_all
  exact ⟨s'.1, s'.2, s'.2, t', h1, hr, h3, by simpa [ATbl.rows] using h4⟩

/-! ### C18 -/

/-- The ids of the parts of level `l`. -/
def idsAt (md : Md K) (l : Nat) : List Nat :=
  match md.levels[l]? with
  | none => []
  | some lv => lv.parts.map PartRef.id

theorem mem_idsAt {md : Md K} {l i : Nat} : i ∈ idsAt md l ↔ (l, i) ∈ pathsOf 0 md.levels := by
  rw [mem_pathsOf]
  unfold idsAt
  constructor
  · intro h
    cases hl : md.levels[l]? with
    | none => rw [hl] at h; cases h
    | some lv =>
      rw [hl] at h
      obtain ⟨q, hq, rfl⟩ := List.mem_map.mp h
      exact ⟨l, lv, q, hl, hq, by simp⟩
  · rintro ⟨k, lv, q, h1, h2, h3⟩
    simp at h3
    obtain ⟨rfl, rfl⟩ := h3
    rw [h1]
    exact List.mem_map.mpr ⟨q, h2, rfl⟩

/-- How the recorded parts may change: distinct ids stay distinct, ids given out stay given out, and
what is new was never given out. -/
structure LStep (ls ls' : List (DLevel K)) : Prop where
  nd : (pathsOf 0 ls).Nodup → (∀ p ∈ pathsOf 0 ls, bound ls p) → (pathsOf 0 ls').Nodup
  bd : (∀ p ∈ pathsOf 0 ls, bound ls p) → ∀ p ∈ pathsOf 0 ls', bound ls' p
  new : ∀ p ∈ pathsOf 0 ls', p ∈ pathsOf 0 ls ∨ ¬ bound ls p
  mono : ∀ p, bound ls p → bound ls' p
  len : ls'.length = ls.length

theorem LStep.refl (ls : List (DLevel K)) : LStep ls ls :=
  ⟨fun h _ => h, fun h => h, fun _ h => .inl h, fun _ h => h, rfl⟩

theorem LStep.trans {a b c : List (DLevel K)} (h1 : LStep a b) (h2 : LStep b c) : LStep a c := by
  refine ⟨fun hn hb => h2.nd (h1.nd hn hb) (h1.bd hb), fun hb => h2.bd (h1.bd hb), ?_,
    fun p hp => h2.mono p (h1.mono p hp), h2.len.trans h1.len⟩
  intro p hp
  rcases h2.new p hp with h | h
  · exact h1.new p h
  · exact .inr fun hb => h (h1.mono p hb)

/-- Adding a part at an id that was not given out. -/
theorem LStep.push {ls : List (DLevel K)} {k : Nat} {q : PartRef K} (hk : k < ls.length)
    (hnb : ¬ bound ls (k, q.id)) (hnew : bound (ls.modify k (pushPart q)) (k, q.id)) :
    LStep ls (ls.modify k (pushPart q)) := by
  have hp := pathsOf_pushPart 0 k q ls hk
  simp only [Nat.zero_add] at hp
  refine ⟨?_, ?_, ?_, fun p hp => bound_push hp, by simp⟩
  · intro hn hb
    rw [hp.nodup_iff, List.nodup_append]
    refine ⟨hn, by simp, ?_⟩
    intro a ha b hb'
    simp at hb'
    subst hb'
    rintro rfl
    exact hnb (hb _ ha)
  · intro hb p hpm
    rcases List.mem_append.mp (hp.mem_iff.mp hpm) with h | h
    · exact bound_push (hb p h)
    · simp at h; subst h; exact hnew
  · intro p hpm
    rcases List.mem_append.mp (hp.mem_iff.mp hpm) with h | h
    · exact .inl h
    · simp at h; subst h; exact .inr hnb

theorem LStep.dropAll (tcs : List (Nat × Nat)) (ls : List (DLevel K)) :
    LStep ls (tcs.foldl (fun ls tc => ls.modify tc.1 (dropId tc.2)) ls) := by
  refine ⟨?_, ?_, ?_, fun p hp => bound_dropAll.mpr hp, dropAll_length _ _⟩
  · intro hn _; rw [pathsOf_dropAll]; exact hn.filter _
  · intro hb p hp
    rw [pathsOf_dropAll] at hp
    exact bound_dropAll.mpr (hb p (List.mem_filter.mp hp).1)
  · intro p hp
    rw [pathsOf_dropAll] at hp
    exact .inl (List.mem_filter.mp hp).1

theorem LStep.erase {ls : List (DLevel K)} {k i : Nat} {a : DLevel K} (ha : ls[k]? = some a)
    (hi : i ∈ a.parts.map PartRef.id) :
    LStep ls (ls.modify k fun lv => { lv with parts := lv.parts.eraseP fun q => q.id == i }) := by
  have hp := pathsOf_erase 0 k i ls a ha hi
  simp only [Nat.zero_add] at hp
  have hb : ∀ p, bound ls p → bound (ls.modify k fun lv =>
      { lv with parts := lv.parts.eraseP fun q => q.id == i }) p := by
    rintro p ⟨lv, h1, h2⟩
    by_cases hk : k = p.1
    · exact ⟨{ lv with parts := lv.parts.eraseP fun q => q.id == i },
        by rw [List.getElem?_modify, h1]; simp [hk], h2⟩
    · exact ⟨lv, by rw [List.getElem?_modify, h1]; simp [hk], h2⟩
  refine ⟨?_, ?_, ?_, hb, by simp⟩
  · intro hn _; exact (List.nodup_cons.mp (hp.nodup_iff.mp hn)).2
  · intro hbd p hpm; exact hb p (hbd p (hp.mem_iff.mpr (by simp [hpm])))
  · intro p hpm; exact .inl (hp.mem_iff.mpr (by simp [hpm]))

theorem LStep.addOuts {k : Nat} (hk : 1 ≤ k) (outs : List (MOut R K)) (st : CState R K) :
    LStep st.levels (outs.foldl (addOut k) st).levels := by
  induction outs generalizing st with
  | nil => exact LStep.refl _
  | cons o outs ih =>
    rw [List.foldl_cons]
    refine LStep.trans ?_ (ih _)
    cases hb : st.levels[k]? with
    | none => simp only [addOut, hb]; exact LStep.refl _
    | some b =>
      have hlv : (addOut k st o).levels = st.levels.modify k
        (pushPart ⟨b.partId + 1, o.size, o.values, o.min, o.max⟩) := by simp only [addOut, hb]
      rw [hlv]
      exact LStep.push (List.getElem?_eq_some_iff.mp hb).1 (not_bound_next hb hk) (bound_new _ hb hk)

theorem compactLoop_lstep {le : K → K → Prop} [DecidableRel le] {o : CompOpts}
    {merge : List (List R) → Option (List (MOut R K))} (lvls : List Nat) :
    ∀ {st st' : CState R K}, compactLoop le o merge lvls st = some (some st') → LStep st.levels st'.levels := by
  induction lvls with
  | nil =>
    intro st st' h
    simp only [compactLoop, Option.some.injEq] at h
    subst h
    exact LStep.refl _
  | cons lvl lvls ih =>
    intro st st' h
    unfold compactLoop at h
    cases ha : st.levels[lvl]? with
    | none => rw [ha] at h; simp at h
    | some a =>
      cases hb : st.levels[lvl + 1]? with
      | none => rw [ha, hb] at h; simp at h
      | some b =>
        rw [ha, hb] at h
        dsimp only at h
        cases hdet : determine le o lvl a b with
        | none =>
          rw [hdet] at h
          dsimp only at h
          split at h
          · simp only [Option.some.injEq] at h
            subst h
            exact LStep.refl _
          · simp at h
        | some tcs =>
          rw [hdet] at h
          dsimp only at h
          have hmg : ∀ st0 : CState R K, st0.levels = st.levels → ∀ st1, mergeStep merge lvl tcs st0 = some st1 →
              LStep st.levels st1.levels := by
            intro st0 h0 st1 hm
            unfold mergeStep at hm
            split at hm
            · cases hm
            · split at hm
              · cases hm
              · dsimp only at hm
                injection hm with hm
                subst hm
                rw [← h0]
                exact (LStep.dropAll tcs st0.levels).trans (LStep.addOuts (R := R) (k := lvl + 1) (by omega) _
                  { st0 with levels := tcs.foldl (fun ls tc => ls.modify tc.1 (dropId tc.2)) st0.levels })
          rcases tcs with _ | ⟨tc, _ | ⟨tc2, tcs⟩⟩
          · dsimp only at h
            split at h
            · cases h
            · rename_i st1 hst1
              exact (hmg { st with done := true, picks := st.picks ++ [_] } rfl _ hst1).trans (ih h)
          · dsimp only at h
            split at h
            · cases h
            · rename_i st1 hst1
              refine LStep.trans ?_ (ih h)
              unfold moveStep at hst1
              simp only [ha] at hst1
              split at hst1
              · cases hst1
              · rename_i q hq
                injection hst1 with hst1
                subst hst1
                simp only
                have hqm := List.mem_of_find?_eq_some hq
                have hqid : q.id = tc.2 := by simpa using List.find?_some hq
                have h1 := LStep.erase ha (List.mem_map.mpr ⟨q, hqm, hqid⟩)
                have hb1 : (st.levels.modify lvl fun lv =>
                    { lv with parts := lv.parts.eraseP fun q => q.id == tc.2 })[lvl + 1]? = some b := by
                  rw [List.getElem?_modify, hb]; simp
                exact h1.trans (LStep.push (q := { q with id := b.partId + 1 })
                  (List.getElem?_eq_some_iff.mp hb1).1 (not_bound_next hb1 (by omega)) (bound_new _ hb1 (by omega)))
          · dsimp only at h
            split at h
            · cases h
            · rename_i st1 hst1
              exact (hmg { st with done := true, picks := st.picks ++ [_] } rfl _ hst1).trans (ih h)

theorem mem_paths_succ {n l i : Nat} {a : DLevel K} {ls : List (DLevel K)} :
    (n + (l + 1), i) ∈ pathsOf n (a :: ls) ↔ ((n + 1) + l, i) ∈ pathsOf (n + 1) ls := by
  simp only [mem_pathsOf]
  constructor
  · rintro ⟨k, lv, q, h1, h2, h3⟩
    simp at h3
    obtain ⟨h3, rfl⟩ := h3
    cases k with
    | zero => omega
    | succ k => exact ⟨k, lv, q, by simpa using h1, h2, by simp; omega⟩
  · rintro ⟨k, lv, q, h1, h2, h3⟩
    simp at h3
    obtain ⟨h3, rfl⟩ := h3
    exact ⟨k + 1, lv, q, by simpa using h1, h2, by simp; omega⟩

/-- Installing a compaction result. -/
theorem install_lstep {md : Md K} {st : CState R K} (h : LStep md.levels st.levels) :
    LStep md.levels (install md st).levels := by
  cases hp : md.levels with
  | nil => simp only [install, hp]; exact LStep.refl _
  | cons a as =>
    cases hq : st.levels with
    | nil =>
      have := h.len
      rw [hp, hq] at this
      simp at this
    | cons b bs =>
      rw [hp, hq] at h
      have hi : (install md st).levels =
          { a with parts := a.parts.filter fun q => !st.l0rem.contains q.id } :: bs := by
        simp only [install, hp, hq]
      rw [hi]
      have hsub0 : ∀ x ∈ (a.parts.filter fun q => !st.l0rem.contains q.id).map (fun q => ((0 : Nat), q.id)),
          x ∈ a.parts.map (fun q => (0, q.id)) := by
        intro x hx
        obtain ⟨q, hq, rfl⟩ := List.mem_map.mp hx
        exact List.mem_map.mpr ⟨q, (List.mem_filter.mp hq).1, rfl⟩
      have hlev : ∀ x ∈ pathsOf 1 bs, 1 ≤ x.1 := by
        intro x hx
        obtain ⟨k, _, _, _, _, rfl⟩ := mem_pathsOf.mp hx
        simp
      have hbs : ∀ p, 1 ≤ p.1 → (bound (b :: bs) p ↔
          bound ({ a with parts := a.parts.filter fun q => !st.l0rem.contains q.id } :: bs) p) := by
        intro p h1
        obtain ⟨l, i⟩ := p
        cases l with
        | zero => simp at h1
        | succ l => simp [bound]
      refine ⟨?_, ?_, ?_, ?_, ?_⟩
      · intro hn hb
        have := h.nd hn hb
        simp only [pathsOf, List.nodup_append] at this hn ⊢
        refine ⟨?_, this.2.1, ?_⟩
        · have e := hn.1
          rw [List.Nodup, List.pairwise_map] at e ⊢
          exact e.filter _
        · intro x hx y hy
          obtain ⟨q, _, rfl⟩ := List.mem_map.mp hx
          have := hlev y (by simpa using hy)
          rintro rfl
          simp at this
      · intro hb p hpm
        simp only [pathsOf, List.mem_append] at hpm
        rcases hpm with h' | h'
        · have h0 := hb p (by simp only [pathsOf, List.mem_append]; exact .inl (hsub0 p h'))
          obtain ⟨q, _, rfl⟩ := List.mem_map.mp h'
          obtain ⟨lv, h1, h2⟩ := h0
          simp at h1
          subst h1
          exact ⟨_, rfl, h2⟩
        · have h0 := h.bd hb p (by simp only [pathsOf, List.mem_append]; exact .inr h')
          exact (hbs p (hlev p (by simpa using h'))).mp h0
      · intro p hpm
        simp only [pathsOf, List.mem_append] at hpm
        rcases hpm with h' | h'
        · exact .inl (by simp only [pathsOf, List.mem_append]; exact .inl (hsub0 p h'))
        · exact h.new p (by simp only [pathsOf, List.mem_append]; exact .inr h')
      · rintro ⟨l, i⟩ hb
        cases l with
        | zero =>
          obtain ⟨lv, h1, h2⟩ := hb
          simp at h1
          subst h1
          exact ⟨_, rfl, h2⟩
        | succ l => exact (hbs (l + 1, i) (by simp)).mp (h.mono _ hb)
      · have := h.len
        simpa using this

theorem hstep_lstep {le : K → K → Prop} [DecidableRel le] {e : Env R K} {s s' : Disk R K × Proc R K}
    {op : HOp R} (h : hstep le e s op = some s') : LStep s.2.md.levels s'.2.md.levels := by
  obtain ⟨d, p⟩ := s
  cases op with
  | insert r =>
    simp only [hstep, Option.some.injEq] at h
    subst h
    exact LStep.refl _
  | flush =>
    simp only [hstep, flush] at h
    split at h
    · injection h with h; subst h; exact LStep.refl _
    · unfold flushPlan at h
      cases hl : p.md.levels with
      | nil => simp [hl] at h
      | cons l0 ls =>
        cases hb : e.toBlock p.mem with
        | none => simp [hl, hb] at h
        | some o =>
          cases o with
          | none => simp [hl, hb] at h
          | some rows =>
            cases hq : mkPart e.key e.size l0.partId rows with
            | none => simp [hl, hb, hq] at h
            | some q =>
              have hid : q.id = l0.partId := by
                unfold mkPart at hq
                split at hq
                · injection hq with hq; subst hq; rfl
                · cases hq
              simp only [hl, hb, hq, Md.flushed, List.head?_cons] at h
              split at h
              · cases h
              · injection h with h
                subst h
                show LStep (l0 :: ls) (⟨l0.partId + 1, l0.parts ++ [q]⟩ :: ls)
                have : (⟨l0.partId + 1, l0.parts ++ [q]⟩ :: ls) = (l0 :: ls).modify 0 (pushPart q) := rfl
                rw [this]
                apply LStep.push
                · simp
                · rintro ⟨lv, h1, h2⟩
                  simp at h1
                  subst h1
                  simp at h2
                  omega
                · exact ⟨_, rfl, by simp [pushPart]; omega⟩
  | compact c =>
    simp only [hstep, runCompaction] at h
    split at h
    · cases h
    · injection h with h; subst h; exact LStep.refl _
    · rename_i st hst
      split at h
      · cases h
      · injection h with h
        subst h
        unfold compact at hst
        split at hst
        · cases hst
        · exact install_lstep (compactLoop_lstep _ hst)

theorem hrun_lstep {le : K → K → Prop} [DecidableRel le] {e : Env R K} (ops : List (HOp R)) :
    ∀ {s s' : Disk R K × Proc R K}, hrun le e s ops = some s' → LStep s.2.md.levels s'.2.md.levels := by
  induction ops with
  | nil => intro s s' h; simp only [hrun, Option.some.injEq] at h; subst h; exact LStep.refl _
  | cons op ops ih =>
    intro s s' h
    simp only [hrun] at h
    cases hop : hstep le e s op with
    | none => rw [hop] at h; simp at h
    | some s1 =>
      rw [hop] at h
      exact (hstep_lstep hop).trans (ih h)

/-- C18: in every state of every history, for every configuration and every behaviour of the merger,
the ids within a level are distinct, and an id that appears in a step was not in that level at any
earlier moment. -/
theorem C18_ids_never_reused {le : K → K → Prop} [DecidableRel le] {e : Env R K} {levels : Nat}
    (past : List (HOp R)) (later : List (HOp R)) (op : HOp R) {s0 s1 s2 : Disk R K × Proc R K}
    (h0 : hrun le e (createDisk levels, createProc levels) past = some s0)
    (h1 : hrun le e s0 later = some s1) (h2 : hstep le e s1 op = some s2) (l : Nat) :
    (idsAt s2.2.md l).Nodup ∧
    ∀ i ∈ idsAt s2.2.md l, i ∉ idsAt s1.2.md l → i ∉ idsAt s0.2.md l := by
  have L0 := hrun_lstep past h0
  have L1 := hrun_lstep later h1
  have L2 := hstep_lstep h2
  have hc := clean_inv (create_clean (R := R) (K := K) (fun _ _ => True) e.key levels) (fun _ _ => 0)
  have n0 := L0.nd hc.nd hc.bd
  have b0 := L0.bd hc.bd
  constructor
  · have := ((L1.trans L2).nd n0 b0)
    unfold idsAt
    cases hl : s2.2.md.levels[l]? with
    | none => simp
    | some lv => exact nodup_of_paths this l lv hl
  · intro i hi hn hi0
    rw [mem_idsAt] at hi hn hi0
    rcases L2.new _ hi with h | h
    · exact hn h
    · exact h (L1.mono _ (b0 _ hi0))

/-! ### concrete cases and the violations of C17 -/

/-- A merge that writes everything to one file. -/
def oneFile (key : R → K) (sort : List R → List R) (ins : List (List R)) : Option (List (MOut R K)) :=
  match (sort ins.flatten).head?, (sort ins.flatten).getLast? with
  | some a, some b => some [⟨sort ins.flatten, (sort ins.flatten).length, (sort ins.flatten).length, key a, key b⟩]
  | _, _ => some []

theorem oneFile_isMerge {le : K → K → Prop} (ho : TotOrd le) {key : R → K} {sort : List R → List R}
    (hs : IsSort le key sort) : IsMerge le key (oneFile key sort) := by
  intro ins outs _ h
  unfold oneFile at h
  split at h
  · rename_i a b ha hb
    injection h with h
    subst h
    refine ⟨by simpa using hs.perm _, ?_⟩
    intro x hx
    simp at hx
    subst hx
    refine ⟨?_, rfl, hs.sorted _, ?_⟩
    · intro e; simp only at e; rw [e] at ha; cases ha
    · intro r hr
      exact ⟨head_le ho (hs.sorted _) hr ha, le_last ho (hs.sorted _) hr hb⟩
  · rename_i h'
    injection h with h
    subst h
    have : sort ins.flatten = [] := by
      cases e : sort ins.flatten with
      | nil => rfl
      | cons a l =>
        exfalso
        cases hl : (a :: l).getLast? with
        | none => simp at hl
        | some b => exact h' a b (by rw [e]; rfl) (by rw [e]; exact hl)
    have hp := hs.perm ins.flatten
    rw [this] at hp
    exact ⟨hp, fun x hx => by cases hx⟩

/-- Level 0 is compacted from two parts on; `l1` = threshold, `mx` = maximal part size of level 1. -/
def demoEnv (l0 l1 mx : Nat) : Env DRow (Int × Int) :=
  ⟨Prod.fst, demoMk, List.length, ⟨l0, l1, 10, mx, 10⟩, oneFile Prod.fst (sortRows Prod.fst)⟩

theorem demoEnv_ok (l0 l1 mx : Nat) (h : 1 ≤ l0) : EnvOk lexLe (sortRows Prod.fst) (demoEnv l0 l1 mx) :=
  ⟨sortRows_isSort _, demoMk_sorts, h, oneFile_isMerge lexTotOrd (sortRows_isSort _)⟩

/-- Two flushed parts and one row in memory. -/
def demoHist : List (HOp DRow) :=
  [.insert ((1, 1), 7), .flush, .insert ((0, 1), 8), .flush, .insert ((5, 5), 9)]

def noneOpen : Cnt := fun _ _ => 0

/-- What a scan of the table sees after a history. -/
def histView (e : Env DRow (Int × Int)) (levels : Nat) (ops : List (HOp DRow)) : Option (List DRow × List (List DRow)) :=
  (hrun lexLe e (createDisk levels, createProc levels) ops).bind fun s =>
    (viewOf s.1 s.2).map fun t => (t.mem, t.parts)

/-- With a large enough maximal part size compaction moves both rows to level 1 and the rest stays. -/
example : histView (demoEnv 1 100 100) 4 (demoHist ++ [.compact noneOpen]) =
    some ([((5, 5), 9)], [[((0, 1), 8), ((1, 1), 7)]]) := by decide +kernel

/-- Level 0 is merged into level 1, then the new part is chosen twice on level 1: all rows double. -/
theorem demo_doubles : histView (demoEnv 1 0 0) 4 (demoHist ++ [.compact noneOpen]) =
    some ([((5, 5), 9)], [[((0, 1), 8), ((0, 1), 8), ((1, 1), 7), ((1, 1), 7)]]) := by decide +kernel

theorem demo_before : histView (demoEnv 1 0 0) 4 demoHist =
    some ([((5, 5), 9)], [[((1, 1), 7)], [((0, 1), 8)]]) := by decide +kernel

theorem hrun_append {le : K → K → Prop} [DecidableRel le] (e : Env R K) (s : Disk R K × Proc R K)
    (a b : List (HOp R)) : hrun le e s (a ++ b) = (hrun le e s a).bind fun s' => hrun le e s' b := by
  induction a generalizing s with
  | nil => rfl
  | cons op a ih =>
    simp only [List.cons_append, hrun]
    cases hstep le e s op with
    | none => rfl
    | some s1 => exact ih s1

/-- C17 fails. -/
theorem C17_violated : ¬ C17_full DRow (Int × Int) lexLe Prod.fst := by
  intro hfull
  have hb := demo_before
  have ha := demo_doubles
  unfold histView at hb ha
  rw [hrun_append] at ha
  cases h1 : hrun lexLe (demoEnv 1 0 0) (createDisk 4, createProc 4) demoHist with
  | none => rw [h1] at hb; simp at hb
  | some s =>
    rw [h1] at hb ha
    simp only [Option.bind_some, hrun, hstep] at hb ha
    obtain ⟨hc, _, _⟩ := hrun_clean lexTotOrd (demoEnv_ok 1 0 0 (by omega)) demoHist
      (create_clean lexLe Prod.fst 4) (by simp [createProc]) h1
    cases h2 : runCompaction lexLe (demoEnv 1 0 0).opts (demoEnv 1 0 0).merge noneOpen s.1 s.2 with
    | none => rw [h2] at ha; simp at ha
    | some s' =>
      rw [h2] at ha
      simp only [Option.bind_some] at ha
      obtain ⟨t, t', v1, v2, hperm⟩ := hfull (demoEnv 1 0 0).opts (demoEnv 1 0 0).merge
        (demoEnv_ok 1 0 0 (by omega)).merges noneOpen s.1 s.2 hc s'.1 s'.2 h2
      rw [v1] at hb
      rw [v2] at ha
      simp only [Option.map_some, Option.some.injEq, Prod.mk.injEq] at hb ha
      have := hperm.length_eq
      simp [ATbl.rows, hb.1, hb.2, ha.1, ha.2] at this

/-- With `l0_max_parts = 0` a lone level-0 part is moved but stays recorded in level 0: the next scan
misses its file. -/
theorem C17_l0_move_dangles : histView (demoEnv 0 100 100) 3
    [.insert ((1, 1), 7), .flush, .compact noneOpen] = none := by decide +kernel

/-- A part moved to the next level is only renamed at the end, so a merge on the next level in the
same round fails to open it: the compactor panics. -/
theorem C17_pending_rename_panics :
    hrun lexLe (demoEnv 1 0 1) (createDisk 5, createProc 5)
      (demoHist ++ [.compact noneOpen, .flush, .insert ((0, 5), 1), .insert ((9, 9), 1), .flush]) ≠ none ∧
    hrun lexLe (demoEnv 1 0 1) (createDisk 5, createProc 5)
      (demoHist ++ [.compact noneOpen, .flush, .insert ((0, 5), 1), .insert ((9, 9), 1), .flush,
        .compact noneOpen]) = none := by
  have h : ∀ (o : Option (Disk DRow (Int × Int) × Proc DRow (Int × Int))), o.isNone = true → o = none := by
    intro o ho; simpa using ho
  have h' : ∀ (o : Option (Disk DRow (Int × Int) × Proc DRow (Int × Int))), o.isNone = false → o ≠ none := by
    intro o ho e; rw [e] at ho; cases ho
  exact ⟨h' _ (by decide +kernel), h _ (by decide +kernel)⟩

example : hrun lexLe (demoEnv 1 0 0) (createDisk 4, createProc 4) (demoHist ++ [.compact noneOpen]) ≠ none := by
  intro h
  have := demo_doubles
  unfold histView at this
  rw [h] at this
  simp at this

end OptiPrism.Storage
