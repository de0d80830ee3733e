import Verif.Storage.Disk

/-!
# C14, C15: flush and crashes inside a flush

`Clean` states are exactly what histories without crashes reach (`Verif.Storage.CompactProps`).
-/

namespace OptiPrism.Storage

variable {R K : Type}

/-- All rows a scan of the table has to return. -/
def ATbl.rows (t : ATbl R) : List R := t.parts.flatten ++ t.mem

/-! ### C14 -/

theorem partsOf_append_level0 (f : Nat → Nat → Option (PFile R)) (l0 : DLevel K) (ls : List (DLevel K))
    (q : PartRef K) (n : Nat) (parts : List (List R)) (rows : List R) (hq : f 0 q.id = some (.full rows))
    (h : partsOf f 0 (l0 :: ls) = some parts) :
    ∃ parts', partsOf f 0 (⟨n, l0.parts ++ [q]⟩ :: ls) = some parts' ∧
      parts'.flatten.Perm (parts.flatten ++ rows) := by
  rw [partsOf_cons] at h
  cases h0 : l0.parts.mapM (fun p => fileRows f 0 p.id) with
  | none => rw [h0] at h; simp at h
  | some a =>
    cases h1 : partsOf f (0 + 1) ls with
    | none => rw [h0, h1] at h; simp at h
    | some b =>
      rw [h0, h1] at h
      simp at h
      subst h
      have hq' : fileRows f 0 q.id = some rows := by simp [fileRows, hq]
      refine ⟨a ++ [rows] ++ b, ?_, ?_⟩
      · rw [partsOf_cons, h1]
        simp [List.mapM_append, h0, hq']
      · simp only [List.flatten_append, List.flatten_cons, List.flatten_nil, List.append_nil]
        rw [List.append_assoc, List.append_assoc]
        exact List.Perm.append_left _ List.perm_append_comm

/-- C14: from every clean state of an append-only table, a flush succeeds, scans before and after
return the same rows, and the new part's recorded range contains every key in the part and is
attained at both ends. -/
theorem C14_flush_keeps_view [DecidableEq K] {le : K → K → Prop} [DecidableRel le] (ho : TotOrd le)
    {key : R → K} {sort : List R → List R} (hsort : IsSort le key sort)
    {cut : List R → List (List R)} (hcut : IsCut cut)
    {pick : List (SChunk R) → Option (SChunk R × List (SChunk R))} (hp : IsPick le key pick)
    {drain : List (Nat × K) → List (Nat × K)} (hd : ∀ es, IsDrain le es (drain es))
    {n : Nat} (hsz : 1 ≤ n) (indexCols : Nat) (size : List R → Nat)
    {d : Disk R K} {p : Proc R K} (hc : Clean le key d p) (hne : p.mem ≠ [])
    {l0 : DLevel K} {ls : List (DLevel K)} (hl : p.md.levels = l0 :: ls) :
    ∃ d' p' t t' out out' q rows,
      flush key (memChunk key sort indexCols false) size d p = some (d', p') ∧
      viewOf d p = some t ∧ viewOf d' p' = some t' ∧
      t.scan le key sort cut pick drain n indexCols = some out ∧
      t'.scan le key sort cut pick drain n indexCols = some out' ∧
      out'.flatten.Perm out.flatten ∧
      p'.md.levels = ⟨l0.partId + 1, l0.parts ++ [q]⟩ :: ls ∧ p'.mem = [] ∧
      d'.parts 0 q.id = some (.full rows) ∧ rows.Perm p.mem ∧ q.values = rows.length ∧
      (∀ r ∈ rows, le q.min (key r) ∧ le (key r) q.max) ∧
      (∃ r ∈ rows, key r = q.min) ∧ (∃ r ∈ rows, key r = q.max) := by
  have hmk : ∀ l : List R, l ≠ [] → memChunk key sort indexCols false l = some (some (sort l)) := by
    intro l hl; simp [memChunk, hl]
  obtain ⟨q, a, b, ha, hb, hid, hmin, hmax, hval, hrest⟩ :=
    flush_clean ho hsort hmk size hc hne hl
  obtain ⟨_, hfl, hc'⟩ := hrest
  obtain ⟨t, ht, htm, hts⟩ := clean_view hc
  obtain ⟨t', ht', htm', hts'⟩ := clean_view hc'
  obtain ⟨out, o1, o2, _⟩ := t.scan_view ho hsort hcut hp hd hsz indexCols hts
  obtain ⟨out', o1', o2', _⟩ := t'.scan_view ho hsort hcut hp hd hsz indexCols hts'
  refine ⟨_, _, t, t', out, out', q, sort p.mem, hfl, ht, ht', o1, o1', ?_, rfl, rfl, ?_,
    hsort.perm _, ?_, ?_, ⟨a, List.mem_of_head? ha, hmin.symm⟩, ⟨b, List.mem_of_getLast? hb, hmax.symm⟩⟩
  · refine o2'.trans (List.Perm.trans ?_ o2.symm)
    rw [htm, htm']
    simp only [List.append_nil]
    unfold viewOf at ht ht'
    obtain ⟨parts, hparts, rfl⟩ := Option.map_eq_some_iff.mp ht
    obtain ⟨parts', hparts', rfl⟩ := Option.map_eq_some_iff.mp ht'
    have hsame : partsOf (setPart (setPart d.parts 0 l0.partId (some .torn)) 0 l0.partId
        (some (.full (sort p.mem)))) 0 p.md.levels = some parts := by
      rw [← hparts]
      apply partsOf_congr
      intro l lv hlv x hx
      simp only [Nat.zero_add]
      have : ¬ (l = 0 ∧ x.id = l0.partId) := by
        rintro ⟨rfl, e⟩
        rw [hl] at hlv
        simp at hlv
        subst hlv
        have := hc.ids0 l0 (by simp [hl]) x hx
        omega
      rw [setPart_ne _ _ this, setPart_ne _ _ this]
    rw [hl] at hsame
    obtain ⟨parts'', hp'', hperm⟩ := partsOf_append_level0 _ l0 ls q (l0.partId + 1) parts (sort p.mem)
      (by rw [hid]; exact setPart_same _ _ _ _) hsame
    rw [hp''] at hparts'
    injection hparts' with e
    subst e
    exact hperm.trans (List.Perm.append_left _ (hsort.perm _))
  · rw [hid]; exact setPart_same _ _ _ _
  · rw [hval, (hsort.perm _).length_eq]
  · intro r hr
    rw [hmin, hmax]
    exact ⟨head_le ho (hsort.sorted _) hr ha, le_last ho (hsort.sorted _) hr hb⟩

/-! ### C15 -/

/-- The state the disk is in when the process dies after `n` file operations of a flush. -/
def crashAfter (key : R → K) (mk : List R → Option (Option (List R))) (size : List R → Nat)
    (d : Disk R K) (p : Proc R K) (n : Nat) : Option (Disk R K) :=
  (flushPlan key mk size p).bind fun plan => d.applyAll (plan.1.take n)

/-- Reopening works and a scan finds exactly the rows that were in the table. -/
def Recovers (rows : List R) (d : Disk R K) : Prop :=
  ∃ p t, reopen d = .ok p ∧ viewOf d p = some t ∧ t.rows.Perm rows

/-- What each crash point leads to. -/
theorem crash_cases {le : K → K → Prop} (ho : TotOrd le) {key : R → K} {sort : List R → List R}
    (hsort : IsSort le key sort) {mk : List R → Option (Option (List R))}
    (hmk : ∀ l, l ≠ [] → mk l = some (some (sort l))) (size : List R → Nat)
    {d : Disk R K} {p : Proc R K} (hc : Clean le key d p) (hne : p.mem ≠ [])
    {l0 : DLevel K} {ls : List (DLevel K)} (hl : p.md.levels = l0 :: ls) :
    ∃ (md' : Md K) (d1 d2 d3 d4 d5 d6 : Disk R K),
      crashAfter key mk size d p 0 = some d ∧
      (crashAfter key mk size d p 1 = some d1 ∧ reopen d1 = .ok p ∧
        d1.parts = setPart d.parts 0 l0.partId (some .torn)) ∧
      (crashAfter key mk size d p 2 = some d2 ∧ reopen d2 = .ok p ∧
        d2.parts = setPart (setPart d.parts 0 l0.partId (some .torn)) 0 l0.partId (some (.full (sort p.mem)))) ∧
      (crashAfter key mk size d p 3 = some d3 ∧ reopen d3 = .error .corrupted) ∧
      (crashAfter key mk size d p 4 = some d4 ∧ reopen d4 = .ok ⟨md', p.mem, p.md.logId⟩ ∧
        ∃ t, viewOf d4 ⟨md', p.mem, p.md.logId⟩ = some t ∧ ∀ t0, viewOf d p = some t0 →
          t.rows.Perm (t0.rows ++ p.mem)) ∧
      (crashAfter key mk size d p 5 = some d5 ∧ reopen d5 = .error .noLogs) ∧
      (crashAfter key mk size d p 6 = some d6 ∧ reopen d6 = .ok ⟨md', [], p.md.logId + 1⟩ ∧
        ∃ t, viewOf d6 ⟨md', [], p.md.logId + 1⟩ = some t ∧ ∀ t0, viewOf d p = some t0 →
          t.rows.Perm t0.rows) := by
  obtain ⟨q, a, b, ha, hb, hid, hmin, hmax, hval, hrest⟩ :=
    flush_clean ho hsort hmk size hc hne hl
  obtain ⟨hplan, hfl, hc'⟩ := hrest
  have hf0 := hc.fresh0 l0 (by simp [hl]) l0.partId (Nat.le_refl _)
  have hpe : (⟨p.md, p.mem, p.md.logId⟩ : Proc R K) = p := by
    have := hc.log; cases p; simp_all
  let md' : Md K := ⟨p.md.logId + 1, ⟨l0.partId + 1, l0.parts ++ [q]⟩ :: ls⟩
  let f2 := setPart (setPart d.parts 0 l0.partId (some .torn)) 0 l0.partId (some (.full (sort p.mem)))
  obtain ⟨t', ht', htm', _⟩ := clean_view hc'
  -- rows of the recorded parts after the flush
  have hrows : ∀ t0, viewOf d p = some t0 → t'.parts.flatten.Perm (t0.parts.flatten ++ p.mem) := by
    intro t0 ht0
    unfold viewOf at ht0 ht'
    obtain ⟨parts, hparts, rfl⟩ := Option.map_eq_some_iff.mp ht0
    obtain ⟨parts', hparts', rfl⟩ := Option.map_eq_some_iff.mp ht'
    have hsame : partsOf f2 0 p.md.levels = some parts := by
      rw [← hparts]
      apply partsOf_congr
      intro l lv hlv x hx
      simp only [Nat.zero_add]
      have : ¬ (l = 0 ∧ x.id = l0.partId) := by
        rintro ⟨rfl, e⟩
        rw [hl] at hlv
        simp at hlv
        subst hlv
        have := hc.ids0 l0 (by simp [hl]) x hx
        omega
      show setPart _ _ _ _ _ _ = _
      rw [setPart_ne _ _ this, setPart_ne _ _ this]
    rw [hl] at hsame
    obtain ⟨parts'', hp'', hperm⟩ := partsOf_append_level0 f2 l0 ls q (l0.partId + 1) parts (sort p.mem)
      (by rw [hid]; exact setPart_same _ _ _ _) hsame
    have hparts'2 : partsOf f2 0 (⟨l0.partId + 1, l0.parts ++ [q]⟩ :: ls) = some parts' := hparts'
    rw [hp''] at hparts'2
    injection hparts'2 with e
    subst e
    exact hperm.trans (List.Perm.append_left _ (hsort.perm _))
  have htm0 : ∀ t0, viewOf d p = some t0 → t0.mem = p.mem := by
    intro t0 h
    unfold viewOf at h
    obtain ⟨parts, _, rfl⟩ := Option.map_eq_some_iff.mp h
    rfl
  refine ⟨md', ⟨d.manifest, d.logs, setPart d.parts 0 l0.partId (some .torn)⟩, ⟨d.manifest, d.logs, f2⟩,
    ⟨none, d.logs, f2⟩, ⟨some md', d.logs, f2⟩, ⟨some md', [], f2⟩, ⟨some md', [(p.md.logId + 1, [])], f2⟩,
    ?_, ⟨?_, ?_, rfl⟩, ⟨?_, ?_, rfl⟩, ⟨?_, rfl⟩, ⟨?_, ?_, ?_⟩, ⟨?_, rfl⟩, ⟨?_, rfl, ?_⟩⟩
  · simp [crashAfter, hplan, Disk.applyAll]
  · simp [crashAfter, hplan, Disk.applyAll, Disk.apply, hf0]
  · simp [reopen, hc.manifest, hc.logs, maxLog, hpe]
  · simp [crashAfter, hplan, Disk.applyAll, Disk.apply, hf0, f2]
  · simp [reopen, hc.manifest, hc.logs, maxLog, hpe]
  · simp [crashAfter, hplan, Disk.applyAll, Disk.apply, hf0, f2]
  · simp [crashAfter, hplan, Disk.applyAll, Disk.apply, hf0, f2, md']
  · simp [reopen, hc.logs, maxLog]
  · refine ⟨⟨p.mem, t'.parts⟩, ?_, ?_⟩
    · unfold viewOf at ht' ⊢
      obtain ⟨parts', hparts', rfl⟩ := Option.map_eq_some_iff.mp ht'
      show (partsOf f2 0 md'.levels).map _ = _
      have : partsOf f2 0 md'.levels = some parts' := hparts'
      rw [this]
      rfl
    · intro t0 ht0
      simp only [ATbl.rows]
      rw [htm0 t0 ht0]
      exact (hrows t0 ht0).append_right _
  · simp [crashAfter, hplan, Disk.applyAll, Disk.apply, hf0, f2, md', hc.logs]
  · simp [crashAfter, hplan, Disk.applyAll, Disk.apply, hf0, f2, md', hc.logs]
  · refine ⟨t', ht', ?_⟩
    intro t0 ht0
    simp only [ATbl.rows]
    rw [htm', htm0 t0 ht0]
    simpa using hrows t0 ht0

/-- C15 as stated: every crash point of every flush. -/
def C15_full (key : R → K) (mk : List R → Option (Option (List R))) (le : K → K → Prop) : Prop :=
  ∀ (size : List R → Nat) (d : Disk R K) (p : Proc R K) (t0 : ATbl R), Clean le key d p → p.mem ≠ [] →
    p.md.levels ≠ [] → viewOf d p = some t0 → ∀ n dn, crashAfter key mk size d p n = some dn →
      Recovers t0.rows dn

/-- C15, exactly: the crash points from which reopening gives back exactly the acknowledged rows are
those before the manifest is touched and the one after the new log exists. -/
theorem C15_partial {le : K → K → Prop} (ho : TotOrd le) {key : R → K} {sort : List R → List R}
    (hsort : IsSort le key sort) {mk : List R → Option (Option (List R))}
    (hmk : ∀ l, l ≠ [] → mk l = some (some (sort l))) (size : List R → Nat)
    {d : Disk R K} {p : Proc R K} (hc : Clean le key d p) (hne : p.mem ≠ [])
    (hl : p.md.levels ≠ []) {t0 : ATbl R} (ht0 : viewOf d p = some t0) (n : Nat) (hn : n ≤ 6) :
    ∃ dn, crashAfter key mk size d p n = some dn ∧ (Recovers t0.rows dn ↔ n ≤ 2 ∨ n = 6) := by
  cases hlv : p.md.levels with
  | nil => exact absurd hlv hl
  | cons l0 ls =>
    obtain ⟨md', d1, d2, d3, d4, d5, d6, h0, ⟨h1, r1, e1⟩, ⟨h2, r2, e2⟩, ⟨h3, r3⟩, ⟨h4, r4, t4, v4, p4⟩,
      ⟨h5, r5⟩, ⟨h6, r6, t6, v6, p6⟩⟩ := crash_cases ho hsort hmk size hc hne hlv
    have hr0 : reopen d = .ok p := by
      have := hc.log
      simp only [reopen, hc.manifest, hc.logs, maxLog]
      cases p; simp_all
    -- files of recorded parts are not affected by the new part file
    have hview : ∀ (f : Nat → Nat → Option (PFile R)), (∀ l i, ¬ (l = 0 ∧ i = l0.partId) → f l i = d.parts l i) →
        partsOf f 0 p.md.levels = partsOf d.parts 0 p.md.levels := by
      intro f hf
      apply partsOf_congr
      intro l lv hlv' x hx
      simp only [Nat.zero_add]
      apply hf
      rintro ⟨rfl, e⟩
      rw [hlv] at hlv'
      simp at hlv'
      subst hlv'
      have := hc.ids0 l0 (by simp [hlv]) x hx
      omega
    match n, hn with
    | 0, _ => exact ⟨d, h0, iff_of_true ⟨p, t0, hr0, ht0, List.Perm.refl _⟩ (by omega)⟩
    | 1, _ =>
      refine ⟨d1, h1, iff_of_true ⟨p, t0, r1, ?_, List.Perm.refl _⟩ (by omega)⟩
      unfold viewOf at ht0 ⊢
      rw [e1, hview _ (fun l i h => setPart_ne _ _ h), ht0]
    | 2, _ =>
      refine ⟨d2, h2, iff_of_true ⟨p, t0, r2, ?_, List.Perm.refl _⟩ (by omega)⟩
      unfold viewOf at ht0 ⊢
      rw [e2, hview _ (fun l i h => by rw [setPart_ne _ _ h, setPart_ne _ _ h]), ht0]
    | 3, _ => exact ⟨d3, h3, by simp [Recovers, r3]⟩
    | 4, _ =>
      refine ⟨d4, h4, ?_⟩
      simp only [show ¬ (4 ≤ 2) by omega, show ¬ (4 = 6) by omega, or_self, iff_false]
      rintro ⟨p', t', hr, hv, hperm⟩
      rw [r4] at hr
      injection hr with hr
      subst hr
      rw [v4] at hv
      injection hv with hv
      subst hv
      have l1 := (p4 t0 ht0).length_eq
      have l2 := hperm.length_eq
      rw [l2] at l1
      simp at l1
      exact hne l1
    | 5, _ => exact ⟨d5, h5, by simp [Recovers, r5]⟩
    | 6, _ =>
      exact ⟨d6, h6, iff_of_true ⟨_, t6, r6, v6, p6 t0 ht0⟩ (by omega)⟩

/-- A crash before the manifest is touched, followed by one garbage collection with nothing open,
leads back to a clean state with the same rows. -/
theorem C15_early_crash_heals {le : K → K → Prop} (ho : TotOrd le) {key : R → K} {sort : List R → List R}
    (hsort : IsSort le key sort) {mk : List R → Option (Option (List R))}
    (hmk : ∀ l, l ≠ [] → mk l = some (some (sort l))) (size : List R → Nat)
    {d : Disk R K} {p : Proc R K} (hc : Clean le key d p) (hne : p.mem ≠ [])
    (hl : p.md.levels ≠ []) (n : Nat) (hn : n ≤ 2) :
    ∃ dn, crashAfter key mk size d p n = some dn ∧ reopen dn = .ok p ∧
      Clean le key (gcPass (fun _ _ => false) dn p.md) p ∧
      viewOf (gcPass (fun _ _ => false) dn p.md) p = viewOf d p := by
  cases hlv : p.md.levels with
  | nil => exact absurd hlv hl
  | cons l0 ls =>
    obtain ⟨md', d1, d2, d3, d4, d5, d6, h0, ⟨h1, r1, e1⟩, ⟨h2, r2, e2⟩, _⟩ :=
      crash_cases ho hsort hmk size hc hne hlv
    have hr0 : reopen d = .ok p := by
      have := hc.log
      simp only [reopen, hc.manifest, hc.logs, maxLog]
      cases p; simp_all
    -- any disk with the same manifest and logs whose files differ only at the new part
    have key1 : ∀ dn : Disk R K, reopen dn = .ok p → dn.manifest = d.manifest → dn.logs = d.logs →
        (∀ l i, ¬ (l = 0 ∧ i = l0.partId) → dn.parts l i = d.parts l i) →
        Clean le key (gcPass (fun _ _ => false) dn p.md) p ∧
          viewOf (gcPass (fun _ _ => false) dn p.md) p = viewOf d p := by
      intro dn _ hm hlogs hparts
      have hkeep : ∀ (l : Nat) (lv : DLevel K), p.md.levels[l]? = some lv → ∀ q ∈ lv.parts,
          (gcPass (fun _ _ => false) dn p.md).parts l q.id = d.parts l q.id := by
        intro l lv hlv' q hq
        have hany : lv.parts.any (fun p => p.id == q.id) = true := by
          rw [List.any_eq_true]; exact ⟨q, hq, by simp⟩
        simp only [gcPass, hlv', hany, Bool.true_or, if_true]
        apply hparts
        rintro ⟨rfl, e⟩
        rw [hlv] at hlv'
        simp at hlv'
        subst hlv'
        have := hc.ids0 l0 (by simp [hlv]) q hq
        omega
      have hfresh : ∀ (l : Nat) (lv : DLevel K) (i : Nat), p.md.levels[l]? = some lv → d.parts l i = none →
          (∀ q ∈ lv.parts, q.id ≠ i) → (gcPass (fun _ _ => false) dn p.md).parts l i = none := by
        intro l lv i hlv' hnone hni
        have hany : lv.parts.any (fun p => p.id == i) = false := by
          rw [List.any_eq_false]; intro x hx; simpa using hni x hx
        simp only [gcPass, hlv', hany, Bool.or_self, Bool.false_eq_true, if_false]
      refine ⟨⟨?_, hc.log, ?_, ?_, hc.ids0, hc.idsN, hc.nodup, ?_, ?_⟩, ?_⟩
      · simp [gcPass, hm, hc.manifest]
      · simp [gcPass, hlogs, hc.logs]
      · intro l lv hlv' q hq
        rw [hkeep l lv hlv' q hq]
        exact hc.parts l lv hlv' q hq
      · intro lv hlv' i hi
        apply hfresh 0 lv i hlv' (hc.fresh0 lv hlv' i hi)
        intro q hq
        have := hc.ids0 lv hlv' q hq
        omega
      · intro l lv hlv' i hi
        apply hfresh (l + 1) lv i hlv' (hc.freshN l lv hlv' i hi)
        intro q hq
        have := hc.idsN l lv hlv' q hq
        omega
      · unfold viewOf
        congr 1
        apply partsOf_congr
        intro l lv hlv' q hq
        simp only [Nat.zero_add]
        exact hkeep l lv hlv' q hq
    have hsame : ∀ k dn, k ≤ 2 → crashAfter key mk size d p k = some dn →
        dn.manifest = d.manifest ∧ dn.logs = d.logs := by
      intro k dn hk hcr
      obtain ⟨q, a, b, ha, hb, hid, hmin, hmax, hval, hrest⟩ :=
        flush_clean ho hsort hmk size hc hne hlv
      obtain ⟨hplan, _, _⟩ := hrest
      have hf0 := hc.fresh0 l0 (by simp [hlv]) l0.partId (Nat.le_refl _)
      match k, hk with
      | 0, _ => simp [crashAfter, hplan, Disk.applyAll] at hcr; subst hcr; exact ⟨rfl, rfl⟩
      | 1, _ => simp [crashAfter, hplan, Disk.applyAll, Disk.apply, hf0] at hcr; subst hcr; exact ⟨rfl, rfl⟩
      | 2, _ => simp [crashAfter, hplan, Disk.applyAll, Disk.apply, hf0] at hcr; subst hcr; exact ⟨rfl, rfl⟩
    match n, hn with
    | 0, _ =>
      have := key1 d hr0 rfl rfl (fun _ _ _ => rfl)
      exact ⟨d, h0, hr0, this⟩
    | 1, _ =>
      obtain ⟨m1, l1⟩ := hsame 1 d1 (by omega) h1
      exact ⟨d1, h1, r1, key1 d1 r1 m1 l1 (fun l i h => by rw [e1, setPart_ne _ _ h])⟩
    | 2, _ =>
      obtain ⟨m1, l1⟩ := hsame 2 d2 (by omega) h2
      exact ⟨d2, h2, r2, key1 d2 r2 m1 l1 (fun l i h => by rw [e2, setPart_ne _ _ h, setPart_ne _ _ h])⟩

/-- Without that garbage collection the next flush fails: the part file is already there. -/
theorem C15_orphan_blocks_flush {le : K → K → Prop} (ho : TotOrd le) {key : R → K} {sort : List R → List R}
    (hsort : IsSort le key sort) {mk : List R → Option (Option (List R))}
    (hmk : ∀ l, l ≠ [] → mk l = some (some (sort l))) (size : List R → Nat)
    {d : Disk R K} {p : Proc R K} (hc : Clean le key d p) (hne : p.mem ≠ [])
    (hl : p.md.levels ≠ []) (n : Nat) (hn : n = 1 ∨ n = 2) :
    ∃ dn, crashAfter key mk size d p n = some dn ∧ reopen dn = .ok p ∧ flush key mk size dn p = none := by
  cases hlv : p.md.levels with
  | nil => exact absurd hlv hl
  | cons l0 ls =>
    obtain ⟨md', d1, d2, d3, d4, d5, d6, h0, ⟨h1, r1, e1⟩, ⟨h2, r2, e2⟩, _⟩ :=
      crash_cases ho hsort hmk size hc hne hlv
    obtain ⟨q, a, b, ha, hb, hid, hmin, hmax, hval, hrest⟩ :=
      flush_clean ho hsort hmk size hc hne hlv
    obtain ⟨hplan, _, _⟩ := hrest
    have hlen : p.mem.length ≠ 0 := fun e => hne (List.eq_nil_of_length_eq_zero e)
    rcases hn with rfl | rfl
    · refine ⟨d1, h1, r1, ?_⟩
      unfold flush
      rw [if_neg hlen, hplan]
      simp [Disk.applyAll, Disk.apply, e1, setPart_same]
    · refine ⟨d2, h2, r2, ?_⟩
      unfold flush
      rw [if_neg hlen, hplan]
      simp [Disk.applyAll, Disk.apply, e2, setPart_same]

/-! A concrete table with three levels, one flushed and one unflushed row. -/

def demoMk : List DRow → Option (Option (List DRow)) := memChunk Prod.fst (sortRows Prod.fst) 2 false

theorem demoMk_sorts : ∀ l, l ≠ [] → demoMk l = some (some (sortRows Prod.fst l)) := by
  intro l hl; simp [demoMk, memChunk, hl]

/-- Create, insert a row, flush, insert two rows. -/
def demoDisk : Option (Disk DRow (Int × Int) × Proc DRow (Int × Int)) :=
  let dp := insertRow (createDisk 3) (createProc 3) (((1, 1), 7) : DRow)
  (flush Prod.fst demoMk List.length dp.1 dp.2).map fun dp =>
    let dp := insertRow dp.1 dp.2 ((2, 1), 8)
    insertRow dp.1 dp.2 ((1, 5), 9)

theorem demoDisk_view : demoDisk.bind (fun x => viewOf x.1 x.2) =
    some ⟨[((2, 1), 8), ((1, 5), 9)], [[((1, 1), 7)]]⟩ := rfl

theorem demoDisk_clean : ∃ d p t, demoDisk = some (d, p) ∧ Clean lexLe Prod.fst d p ∧
    p.mem = [((2, 1), 8), ((1, 5), 9)] ∧ p.md.levels ≠ [] ∧ viewOf d p = some t ∧
    t.parts = [[((1, 1), 7)]] := by
  have h0 := create_clean (R := DRow) lexLe Prod.fst 3
  have h1 := insert_clean h0 (((1, 1), 7) : DRow)
  obtain ⟨d, p, hfl, hc, hne⟩ : ∃ d p, flush Prod.fst demoMk List.length
      (insertRow (createDisk 3) (createProc 3) (((1, 1), 7) : DRow)).1
      (insertRow (createDisk 3) (createProc 3) (((1, 1), 7) : DRow)).2 = some (d, p) ∧
      Clean lexLe Prod.fst d p ∧ p.mem = [] ∧ p.md.levels ≠ [] := by
    obtain ⟨q, a, b, ha, hb, hid, hmin, hmax, hval, hplan, hfl, hc⟩ :=
      flush_clean lexTotOrd (sortRows_isSort Prod.fst) demoMk_sorts List.length h1 (by decide)
        (l0 := ⟨0, []⟩) (ls := [⟨0, []⟩, ⟨0, []⟩]) rfl
    exact ⟨_, _, hfl, hc, rfl, by simp⟩
  have h2 := insert_clean hc (((2, 1), 8) : DRow)
  have h3 := insert_clean h2 (((1, 5), 9) : DRow)
  have hd : demoDisk = some (insertRow (insertRow d p ((2, 1), 8)).1 (insertRow d p ((2, 1), 8)).2 ((1, 5), 9)) := by
    simp only [demoDisk, hfl, Option.map_some]
  have hv := demoDisk_view
  rw [hd] at hv
  exact ⟨_, _, _, hd, h3, by simp [insertRow, hne.1], by simp [insertRow, hne.2], hv, rfl⟩

example : ∃ d p d' p', demoDisk = some (d, p) ∧ flush Prod.fst demoMk List.length d p = some (d', p') ∧
    (viewOf d' p').bind (fun t =>
      t.scan lexLe Prod.fst (sortRows Prod.fst) cutOne (pickMin Prod.fst) sortDrain 10 2) ≠ none := by
  obtain ⟨d, p, t, hd, hc, hm, hl, hv, -⟩ := demoDisk_clean
  cases hlv : p.md.levels with
  | nil => exact absurd hlv hl
  | cons l0 ls =>
    obtain ⟨d', p', t, t', out, out', q, rows, h1, h2, h3, h4, h5, h6, -⟩ :=
      C14_flush_keeps_view lexTotOrd (sortRows_isSort Prod.fst) cutOne_isCut (pickMin_isPick _)
        sortDrain_isDrain (n := 10) (by omega) 2 List.length hc (by rw [hm]; decide) hlv
    exact ⟨d, p, d', p', hd, h1, by simp [h3, h5]⟩

/-- C15 fails: a crash right after the manifest write duplicates the flushed rows. -/
theorem C15_violated : ¬ C15_full (Prod.fst : DRow → Int × Int) demoMk lexLe := by
  intro h
  obtain ⟨d, p, t, -, hc, hm, hl, hv, -⟩ := demoDisk_clean
  have hne : p.mem ≠ [] := by rw [hm]; decide
  obtain ⟨dn, hcr, hiff⟩ := C15_partial lexTotOrd (sortRows_isSort Prod.fst) demoMk_sorts List.length hc hne
    hl hv 4 (by omega)
  have := hiff.mp (h List.length d p t hc hne hl hv 4 dn hcr)
  omega

end OptiPrism.Storage
