import Verif.Storage.Fs
import Verif.Storage.DiskProps

/-!
# C19 (garbage collection), C20 (open-file accounting), C67 (newest log), C68 (scans release files)
-/

namespace OptiPrism.Storage

/-! ### C20 -/

/-- Number of opens and of closes of a path in a sequence of calls. -/
def opens (p : Str) (cs : List FsCall) : Nat := cs.countP (· == .opn p)
def closes (p : Str) (cs : List FsCall) : Nat := cs.countP (· == .cls p)

/-- At no moment a path was closed more often than opened. -/
def Balanced (cs : List FsCall) : Prop :=
  ∀ n p, closes p (cs.take n) ≤ opens p (cs.take n)

theorem fsRun_count (cs : List FsCall) : ∀ m : FsMap,
    ((∀ n p, closes p (cs.take n) ≤ (m p).getD 0 + opens p (cs.take n)) →
      ∃ m', fsRun m cs = some m' ∧ ∀ p, (m' p).getD 0 + closes p cs = (m p).getD 0 + opens p cs) ∧
    ((∃ n p, (m p).getD 0 + opens p (cs.take n) < closes p (cs.take n)) → fsRun m cs = none) := by
  induction cs with
  | nil => intro m; simp [fsRun, opens, closes]
  | cons c cs ih =>
    intro m
    cases c with
    | opn q =>
      obtain ⟨h1, h2⟩ := ih (m.open q)
      have hg : ∀ p, ((m.open q) p).getD 0 = (m p).getD 0 + if p = q then 1 else 0 := by
        intro p
        unfold FsMap.open
        by_cases h : p = q
        · subst h; simp
        · simp [h]
      have ho : ∀ p (l : List FsCall), opens p (.opn q :: l) = opens p l + if p = q then 1 else 0 := by
        intro p l
        simp only [opens, List.countP_cons]
        by_cases h : p = q
        · subst h; simp
        · have : ¬ q = p := fun e => h e.symm
          simp [h, this]
      have hc : ∀ p (l : List FsCall), closes p (.opn q :: l) = closes p l := by
        intro p l; simp [closes]
      constructor
      · intro hb
        obtain ⟨m', hm, hp⟩ := h1 (by
          intro n p
          have := hb (n + 1) p
          simp only [List.take_succ_cons, ho, hc] at this
          rw [hg]; omega)
        refine ⟨m', hm, fun p => ?_⟩
        have := hp p
        rw [hg] at this
        rw [ho, hc]; omega
      · rintro ⟨n, p, hlt⟩
        cases n with
        | zero => simp [closes] at hlt
        | succ n =>
          simp only [List.take_succ_cons, ho, hc] at hlt
          exact h2 ⟨n, p, by rw [hg]; omega⟩
    | cls q =>
      have ho : ∀ p (l : List FsCall), opens p (.cls q :: l) = opens p l := by
        intro p l; simp [opens]
      have hc : ∀ p (l : List FsCall), closes p (.cls q :: l) = closes p l + if p = q then 1 else 0 := by
        intro p l
        simp only [closes, List.countP_cons]
        by_cases h : p = q
        · subst h; simp
        · have : ¬ q = p := fun e => h e.symm
          simp [h, this]
      cases hq : (m q).getD 0 with
      | zero =>
        have hn : m.close q = none := by simp [FsMap.close, hq]
        constructor
        · intro hb
          have := hb 1 q
          simp only [List.take_succ_cons, List.take_zero, hc, ho, hq] at this
          simp [closes, opens] at this
        · intro _; simp [fsRun, hn]
      | succ k =>
        have hs : m.close q = some (fun x => if x = q then some k else m x) := by simp [FsMap.close, hq]
        have hg : ∀ p, (if p = q then some k else m p).getD 0 + (if p = q then 1 else 0) = (m p).getD 0 := by
          intro p
          by_cases h : p = q
          · subst h; simp [hq]
          · simp [h]
        obtain ⟨h1, h2⟩ := ih (fun x => if x = q then some k else m x)
        simp only [fsRun, hs]
        constructor
        · intro hb
          obtain ⟨m', hm, hp⟩ := h1 (by
            intro n p
            have := hb (n + 1) p
            have e := hg p
            simp only [List.take_succ_cons, ho, hc] at this
            omega)
          refine ⟨m', hm, fun p => ?_⟩
          have := hp p
          have e := hg p
          rw [ho, hc]; omega
        · rintro ⟨n, p, hlt⟩
          cases n with
          | zero => simp [closes] at hlt
          | succ n =>
            simp only [List.take_succ_cons, ho, hc] at hlt
            have e := hg p
            exact h2 ⟨n, p, by omega⟩

theorem isOpened_iff (m : FsMap) (p : Str) : m.isOpened p = true ↔ 0 < (m p).getD 0 := by
  unfold FsMap.isOpened
  cases m p with
  | none => simp
  | some v => simp; omega

/-- C20: a sequence of calls runs without a panic exactly if it is balanced, and then every path
counts as in use exactly when it was opened more often than closed. -/
theorem C20_accounting (cs : List FsCall) :
    ((∃ m, fsRun .new cs = some m) ↔ Balanced cs) ∧
    ∀ m, fsRun .new cs = some m → ∀ p, (m.isOpened p = true ↔ closes p cs < opens p cs) := by
  obtain ⟨h1, h2⟩ := fsRun_count cs .new
  have hb : Balanced cs ↔ ∀ n p, closes p (cs.take n) ≤ (FsMap.new p).getD 0 + opens p (cs.take n) := by
    simp [Balanced, FsMap.new]
  have hex : ∀ m, fsRun .new cs = some m → Balanced cs := by
    intro m hm
    apply Classical.byContradiction
    intro hn
    rw [hb] at hn
    have : ∃ n p, (FsMap.new p).getD 0 + opens p (cs.take n) < closes p (cs.take n) := by
      apply Classical.byContradiction
      intro hne
      apply hn
      intro n p
      apply Nat.le_of_not_lt
      intro hlt
      exact hne ⟨n, p, hlt⟩
    rw [h2 this] at hm
    cases hm
  refine ⟨⟨fun ⟨m, hm⟩ => hex m hm, fun h => ?_⟩, ?_⟩
  · obtain ⟨m, hm, _⟩ := h1 (hb.mp h)
    exact ⟨m, hm⟩
  · intro m hm p
    obtain ⟨m', hm', hp⟩ := h1 (hb.mp (hex m hm))
    rw [hm] at hm'
    injection hm' with hm'
    subst hm'
    have := hp p
    simp only [FsMap.new, Option.getD_none] at this
    rw [isOpened_iff]
    omega

/-- C20: opening or closing a file leaves every other file as it was. -/
theorem C20_other_files (m : FsMap) (p q : Str) (h : q ≠ p) :
    (m.open p).isOpened q = m.isOpened q ∧
    (∀ m', m.close p = some m' → m'.isOpened q = m.isOpened q) ∧
    (m.closeWrap p).isOpened q = m.isOpened q := by
  refine ⟨by simp [FsMap.isOpened, FsMap.open, h], ?_, by simp [FsMap.isOpened, FsMap.closeWrap, h]⟩
  intro m' hm
  unfold FsMap.close at hm
  split at hm
  · cases hm
  · injection hm with hm
    subst hm
    simp [FsMap.isOpened, h]

/-- In a release build a balanced sequence behaves the same (fewer than 2^64 calls). -/
theorem C20_release_same (cs : List FsCall) : ∀ (m m' : FsMap), (∀ p, (m p).getD 0 + cs.length < 2 ^ 64) →
    fsRun m cs = some m' → fsRunWrap m cs = m' := by
  induction cs with
  | nil => intro m m' _ h; simp only [fsRun, Option.some.injEq] at h; exact h
  | cons c cs ih =>
    intro m m' hb h
    cases c with
    | opn q =>
      refine ih _ _ ?_ h
      intro p
      have := hb p
      unfold FsMap.open
      by_cases e : p = q
      · subst e; simp at this ⊢; omega
      · simp [e] at this ⊢; omega
    | cls q =>
      simp only [fsRun] at h
      have hq := hb q
      simp only [List.length_cons] at hq
      have he : ∀ m1, m.close q = some m1 → m.closeWrap q = m1 ∧ ∀ p, (m1 p).getD 0 ≤ (m p).getD 0 := by
        intro m1 hm
        unfold FsMap.close at hm
        split at hm
        · cases hm
        · rename_i n hn
          injection hm with hm
          subst hm
          constructor
          · funext x
            unfold FsMap.closeWrap
            rw [hn]
            have hmod : (n + 1 + (2 ^ 64 - 1)) % 2 ^ 64 = n := by omega
            by_cases e : x = q
            · simp only [e, if_true, hmod]
            · simp [e]
          · intro p
            by_cases e : p = q
            · subst e; simp [hn]
            · simp [e]
      cases hc : m.close q with
      | none => rw [hc] at h; simp at h
      | some m1 =>
        rw [hc] at h
        obtain ⟨e1, e2⟩ := he m1 hc
        simp only [fsRunWrap, e1]
        refine ih _ _ ?_ h
        intro p
        have := hb p
        have := e2 p
        simp only [List.length_cons] at *
        omega

/-- Without the balance the release build goes wrong: one close too many and the file counts as in
use for ever. -/
theorem C20_release_underflow (p : Str) :
    (fsRunWrap .new [.cls p]).isOpened p = true ∧
    (fsRunWrap .new [.cls p, .opn p, .cls p]).isOpened p = true := by
  simp [fsRunWrap, FsMap.isOpened, FsMap.closeWrap, FsMap.open, FsMap.new]

example : Balanced [.opn ['a'], .opn ['b'], .opn ['a'], .cls ['a'], .cls ['b']] ∧
    ∃ m, fsRun .new [.opn ['a'], .opn ['b'], .opn ['a'], .cls ['a'], .cls ['b']] = some m ∧
      m.isOpened ['a'] = true ∧ m.isOpened ['b'] = false := by
  exact ⟨(C20_accounting _).1.mp ⟨_, rfl⟩, _, rfl, rfl, rfl⟩

/-! ### different files have different paths -/

theorem append_inj_of_no {a b : Str} {x y : Str} {c : Char} (ha : c ∉ a) (hb : c ∉ b)
    (h : a ++ c :: x = b ++ c :: y) : a = b ∧ x = y := by
  induction a generalizing b with
  | nil =>
    cases b with
    | nil => simpa using h
    | cons d b =>
      simp at h hb
      exact absurd h.1 hb.1
  | cons d a ih =>
    cases b with
    | nil =>
      simp at h ha
      exact absurd h.1.symm ha.1
    | cons e b =>
      simp only [List.cons_append, List.cons.injEq] at h
      simp only [List.mem_cons, not_or] at ha hb
      obtain ⟨h1, h2⟩ := ih ha.2 hb.2 h.2
      exact ⟨by rw [h.1, h1], h2⟩

theorem digits_no_slash {s : Str} (h : ∀ c ∈ s, IsDigit c) : '/' ∉ s :=
  fun hm => absurd (h _ hm) (by decide)

/-- The path of a part determines table, level and part, and no part path is a log path, for table
names without a slash. -/
theorem C20_paths_distinct (root t t' : Str) (ht : '/' ∉ t) (ht' : '/' ∉ t') :
    (∀ l l' i i', partPath root t l (partName i) = partPath root t' l' (partName i') →
      t = t' ∧ l = l' ∧ i = i') ∧
    (∀ i i', logPath root t (logName i) = logPath root t' (logName i') → t = t' ∧ i = i') ∧
    (∀ l i i', partPath root t l (partName i) ≠ logPath root t' (logName i')) := by
  refine ⟨?_, ?_, ?_⟩
  · intro l l' i i' h
    simp only [partPath, List.append_assoc, List.append_cancel_left_eq, List.cons_append, List.nil_append,
      List.cons.injEq, true_and] at h
    obtain ⟨h1, h2⟩ := append_inj_of_no ht ht' h
    simp only [List.cons.injEq, true_and] at h2
    obtain ⟨h3, h4⟩ := append_inj_of_no (digits_no_slash (decimal_digits l)) (digits_no_slash (decimal_digits l')) h2
    refine ⟨h1, decimal_inj h3, ?_⟩
    unfold partName at h4
    exact decimal_inj (List.append_cancel_right h4)
  · intro i i' h
    simp only [logPath, List.append_assoc, List.append_cancel_left_eq, List.cons_append, List.nil_append,
      List.cons.injEq, true_and] at h
    obtain ⟨h1, h2⟩ := append_inj_of_no ht ht' h
    refine ⟨h1, ?_⟩
    unfold logName at h2
    have := List.append_cancel_right h2
    have e := digitsVal_decimal16 i
    rw [this, digitsVal_decimal16 i'] at e
    exact (Option.some.inj e).symm
  · intro l i i' h
    simp only [partPath, logPath, List.append_assoc, List.append_cancel_left_eq, List.cons_append, List.nil_append,
      List.cons.injEq, true_and] at h
    obtain ⟨h1, h2⟩ := append_inj_of_no ht ht' h
    unfold logName at h2
    cases hd : decimal16 i' with
    | nil => rw [hd] at h2; simp at h2
    | cons c s =>
      rw [hd] at h2
      simp only [List.cons_append, List.cons.injEq] at h2
      have := decimal16_digits i' c (by rw [hd]; simp)
      rw [← h2.1] at this
      revert this
      decide

/-! ### C19 -/

/-- C19: what a pass of the cleaner removes. `opened` is what `Fs` says after any run of calls `cs`.
A removed part file is a `.parquet` file whose number is no part of its level in the manifest and
whose path has no more opens than closes; a removed log is a `.log` file with a smaller number than
the current log and is not in use; nothing else is removed and nothing is added. -/
theorem C19_removes_only_garbage {cs : List FsCall} {m : FsMap} (hm : fsRun .new cs = some m)
    {root tbl : Str} {md : GcMd} {d d' : GcDir} (h : gcTable m.isOpened root tbl md d = some d') :
    (∀ f, f ∈ d'.entries → f ∈ d.entries) ∧
    (∀ f ∈ d.entries, f ∉ d'.entries → isLog f = true ∧ (∃ id, parseU64 (stem f) = some id ∧ id < md.logId) ∧
      opens (logPath root tbl f) cs ≤ closes (logPath root tbl f) cs) ∧
    (∀ l dir dir' : _, d.levels[l]? = some dir → d'.levels[l]? = some dir' →
      (∀ f, f ∈ dir' → f ∈ dir) ∧
      ∀ f ∈ dir, f ∉ dir' → isParquet f = true ∧ (∃ id ids, parseU64 (stem f) = some id ∧
        md.levels[l]? = some ids ∧ id ∉ ids) ∧
        opens (partPath root tbl l f) cs ≤ closes (partPath root tbl l f) cs) := by
  obtain ⟨h1, h2, h3⟩ := gcEntries_eq d.entries d.levels h
  have hcnt := (C20_accounting cs).2 m hm
  have hno : ∀ p, m.isOpened p = false → opens p cs ≤ closes p cs := by
    intro p hp
    apply Nat.le_of_not_lt
    intro hlt
    rw [(hcnt p).mpr hlt] at hp
    cases hp
  refine ⟨fun f hf => ?_, fun f hf hn => ?_, fun l dir dir' hd hd' => ?_⟩
  · rw [h1] at hf; exact (List.mem_filter.mp hf).1
  · rw [h1] at hn
    have hg : logGone m.isOpened root tbl md.logId f = true := by
      cases hg : logGone m.isOpened root tbl md.logId f with
      | true => rfl
      | false => exact absurd (List.mem_filter.mpr ⟨hf, by simp [hg]⟩) hn
    unfold logGone at hg
    simp only [Bool.and_eq_true] at hg
    obtain ⟨g1, g2⟩ := hg
    split at g2
    · cases g2
    · rename_i id hid
      simp only [Bool.and_eq_true, decide_eq_true_eq, Bool.not_eq_true'] at g2
      exact ⟨g1, ⟨id, hid, g2.1⟩, hno _ g2.2⟩
  · obtain ⟨h4, h5⟩ := h3 l dir hd
    by_cases he : d.entries = []
    · rw [h4 he] at hd'
      injection hd' with hd'
      subst hd'
      exact ⟨fun _ h => h, fun f hf hn => absurd hf hn⟩
    · obtain ⟨ids, hi, hr⟩ := h5 he
      rw [hr] at hd'
      injection hd' with hd'
      subst hd'
      refine ⟨fun f hf => (List.mem_filter.mp hf).1, fun f hf hn => ?_⟩
      have hg : partGone m.isOpened (partPath root tbl l) ids f = true := by
        cases hg : partGone m.isOpened (partPath root tbl l) ids f with
        | true => rfl
        | false => exact absurd (List.mem_filter.mpr ⟨hf, by simp [hg]⟩) hn
      unfold partGone at hg
      simp only [Bool.and_eq_true] at hg
      obtain ⟨g1, g2⟩ := hg
      split at g2
      · cases g2
      · rename_i id hid
        simp only [Bool.and_eq_true, Bool.not_eq_true', List.any_eq_false, beq_iff_eq] at g2
        exact ⟨g1, ⟨id, ids, hid, hi, fun hm => g2.1 id hm rfl⟩, hno _ g2.2⟩

/-- C19 for the names the store itself gives: recorded parts, files in use, the current log and the
manifest survive every pass. -/
theorem C19_keeps_live {cs : List FsCall} {m : FsMap} (hm : fsRun .new cs = some m)
    {root tbl : Str} {md : GcMd} {d d' : GcDir} (h : gcTable m.isOpened root tbl md d = some d') :
    (∀ (l id : Nat) ids dir, id < 2 ^ 64 → md.levels[l]? = some ids → id ∈ ids → d.levels[l]? = some dir →
      partName id ∈ dir → ∃ dir', d'.levels[l]? = some dir' ∧ partName id ∈ dir') ∧
    (∀ (l : Nat) f dir, closes (partPath root tbl l f) cs < opens (partPath root tbl l f) cs →
      d.levels[l]? = some dir → f ∈ dir → ∃ dir', d'.levels[l]? = some dir' ∧ f ∈ dir') ∧
    (∀ id, id < 2 ^ 64 → md.logId ≤ id → logName id ∈ d.entries → logName id ∈ d'.entries) ∧
    (∀ f, isLog f = false → f ∈ d.entries → f ∈ d'.entries) := by
  obtain ⟨h1, h2, h3⟩ := C19_removes_only_garbage hm h
  obtain ⟨g1, g2, g3⟩ := gcEntries_eq d.entries d.levels h
  have hlev : ∀ (l : Nat) (dir : List Str), d.levels[l]? = some dir → ∃ dir', d'.levels[l]? = some dir' := by
    intro l dir hd
    have hl : l < d'.levels.length := by
      rw [g2]; exact (List.getElem?_eq_some_iff.mp hd).1
    exact ⟨_, List.getElem?_eq_getElem hl⟩
  refine ⟨?_, ?_, ?_, ?_⟩
  · intro l id ids dir hid hi hmem hd hf
    obtain ⟨dir', hd'⟩ := hlev l dir hd
    refine ⟨dir', hd', Classical.byContradiction fun hn => ?_⟩
    obtain ⟨_, ⟨id', ids', hp, hi', hnot⟩, _⟩ := (h3 l dir dir' hd hd').2 _ hf hn
    rw [stem_partName, parse_decimal hid] at hp
    injection hp with hp
    subst hp
    rw [hi] at hi'
    injection hi' with hi'
    subst hi'
    exact hnot hmem
  · intro l f dir ho hd hf
    obtain ⟨dir', hd'⟩ := hlev l dir hd
    refine ⟨dir', hd', Classical.byContradiction fun hn => ?_⟩
    have := ((h3 l dir dir' hd hd').2 _ hf hn).2.2
    omega
  · intro id hid hge hf
    refine Classical.byContradiction fun hn => ?_
    obtain ⟨_, ⟨id', hp, hlt⟩, _⟩ := h2 _ hf hn
    rw [stem_logName, parse_decimal16 hid] at hp
    injection hp with hp
    subst hp
    omega
  · intro f hl hf
    refine Classical.byContradiction fun hn => ?_
    have := (h2 _ hf hn).1
    rw [hl] at this
    cases this

/-- Conversely everything that meets the conditions goes (the table directory always holds at least
the manifest). -/
theorem C19_collects {m : FsMap} {root tbl : Str} {md : GcMd} {d d' : GcDir}
    (h : gcTable m.isOpened root tbl md d = some d') (hne : d.entries ≠ []) :
    (∀ id, id < 2 ^ 64 → id < md.logId → m.isOpened (logPath root tbl (logName id)) = false →
      logName id ∉ d'.entries) ∧
    (∀ (l id : Nat) ids dir, id < 2 ^ 64 → md.levels[l]? = some ids → id ∉ ids → d'.levels[l]? = some dir →
      m.isOpened (partPath root tbl l (partName id)) = false → partName id ∉ dir) := by
  obtain ⟨g1, g2, g3⟩ := gcEntries_eq d.entries d.levels h
  constructor
  · intro id hid hlt ho hmem
    rw [g1] at hmem
    have := (List.mem_filter.mp hmem).2
    simp [logGone, isLog_logName, stem_logName, parse_decimal16 hid, hlt, ho] at this
  · intro l id ids dir hid hi hn hd ho hmem
    have hl : l < d.levels.length := by
      rw [← g2]; exact (List.getElem?_eq_some_iff.mp hd).1
    obtain ⟨_, h5⟩ := g3 l _ (List.getElem?_eq_getElem hl)
    obtain ⟨ids', hi', hr⟩ := h5 hne
    rw [hi] at hi'
    injection hi' with hi'
    subst hi'
    rw [hr] at hd
    injection hd with hd
    subst hd
    have := (List.mem_filter.mp hmem).2
    simp only [partGone, isParquet_partName, stem_partName, parse_decimal hid, ho, Bool.true_and, Bool.not_false,
      Bool.and_true, Bool.not_not, List.any_eq_true, beq_iff_eq] at this
    obtain ⟨x, hx, rfl⟩ := this
    exact hn hx

/-- The cleaner does not panic when every log and part file is named by a number and the manifest has
an entry for every level directory. -/
theorem C19_no_panic {opened : Str → Bool} {root tbl : Str} {md : GcMd} (fs : List Str) :
    ∀ (ds : List (List Str)), (∀ f ∈ fs, isLog f = true → (parseU64 (stem f)).isSome) →
    (∀ d ∈ ds, ∀ f ∈ d, isParquet f = true → (parseU64 (stem f)).isSome) → ds.length ≤ md.levels.length →
    (gcTable opened root tbl md ⟨fs, ds⟩).isSome := by
  induction fs with
  | nil => intro ds _ _ _; simp [gcTable, gcEntries]
  | cons f fs ih =>
    intro ds hf hd hl
    obtain ⟨ds', hds⟩ := Option.isSome_iff_exists.mp
      (gcLevels_total (opened := opened) (root := root) (tbl := tbl) ds hd 0 md.levels hl)
    obtain ⟨e1, e2⟩ := gcLevels_eq ds _ _ hds
    have hd' : ∀ d ∈ ds', ∀ f ∈ d, isParquet f = true → (parseU64 (stem f)).isSome := by
      intro d hdm f hfm hp
      obtain ⟨k, hk⟩ := List.getElem?_of_mem hdm
      have hkl : k < ds.length := by rw [← e1]; exact (List.getElem?_eq_some_iff.mp hk).1
      obtain ⟨ids, hi, hr⟩ := e2 k _ (List.getElem?_eq_getElem hkl)
      rw [hk] at hr
      injection hr with hr
      subst hr
      exact hd _ (List.getElem_mem hkl) f (List.mem_filter.mp hfm).1 hp
    have ih := ih ds' (fun x hx => hf x (List.mem_cons_of_mem _ hx)) hd' (by omega)
    simp only [gcTable] at ih ⊢
    obtain ⟨r, hr⟩ := Option.isSome_iff_exists.mp ih
    have hg : ∃ b, gcEntry opened root tbl md.logId f = some b := by
      unfold gcEntry
      split
      · rename_i hlog
        obtain ⟨id, hid⟩ := Option.isSome_iff_exists.mp (hf f (by simp) hlog)
        exact ⟨_, by rw [hid]⟩
      · exact ⟨_, rfl⟩
    obtain ⟨b, hb⟩ := hg
    simp [gcEntries, hb, hds, hr]

def demoGc : GcDir :=
  ⟨[logName 4, logName 5, "metadata".toList, "levels".toList], [[partName 0, partName 1, partName 2]]⟩

example : ∃ m, fsRun .new [.opn (partPath [] ['t'] 0 (partName 1)), .opn ['x'], .cls ['x']] = some m ∧
    gcTable m.isOpened [] ['t'] ⟨5, [[2]]⟩ demoGc =
      some ⟨[logName 5, "metadata".toList, "levels".toList], [[partName 1, partName 2]]⟩ :=
  ⟨_, rfl, rfl⟩

/-! ### the active log after a crash -/

/-- The condition "older than the current log" refers to the manifest. After a crash between the
manifest write and the creation of the new log, the reopened table writes to the old log, and the
first pass of the cleaner removes it: every row inserted from then on is in no file, and the next
restart fails for lack of a log. -/
theorem C19_active_log_removed {R K : Type} {le : K → K → Prop} (ho : TotOrd le) {key : R → K}
    {sort : List R → List R}
    (hsort : IsSort le key sort) {mk : List R → Option (Option (List R))}
    (hmk : ∀ l, l ≠ [] → mk l = some (some (sort l))) (size : List R → Nat)
    {d : Disk R K} {p : Proc R K} (hc : Clean le key d p) (hne : p.mem ≠ [])
    {l0 : DLevel K} {ls : List (DLevel K)} (hl : p.md.levels = l0 :: ls) (busy : Nat → Nat → Bool) :
    ∃ d4 p4, crashAfter key mk size d p 4 = some d4 ∧ reopen d4 = .ok p4 ∧
      (d4.logs.map Prod.fst) = [p4.log] ∧
      (gcPass busy d4 p4.md).logs = [] ∧
      ∀ rs : List R,
        let s := rs.foldl (fun s r => insertRow s.1 s.2 r) (gcPass busy d4 p4.md, p4)
        s.1.logs = [] ∧ reopen s.1 = .error .noLogs := by
  obtain ⟨q, a, b, ha, hb, hid, hmin, hmax, hval, hplan, hfl, hc'⟩ := flush_clean ho hsort hmk size hc hne hl
  have hf0 := hc.fresh0 l0 (by simp [hl]) l0.partId (Nat.le_refl _)
  let md' : Md K := ⟨p.md.logId + 1, ⟨l0.partId + 1, l0.parts ++ [q]⟩ :: ls⟩
  let f2 := setPart (setPart d.parts 0 l0.partId (some .torn)) 0 l0.partId (some (.full (sort p.mem)))
  refine ⟨⟨some md', d.logs, f2⟩, ⟨md', p.mem, p.md.logId⟩, ?_, ?_, ?_, ?_, ?_⟩
  · simp [crashAfter, hplan, Disk.applyAll, Disk.apply, hf0, f2, md']
  · simp [reopen, hc.logs, maxLog]
  · simp [hc.logs]
  · simp [gcPass, hc.logs, md']
  · intro rs
    have key : ∀ (rs : List R) (s : Disk R K × Proc R K), s.1.logs = [] → s.1.manifest = some md' →
        (rs.foldl (fun s r => insertRow s.1 s.2 r) s).1.logs = [] ∧
        (rs.foldl (fun s r => insertRow s.1 s.2 r) s).1.manifest = some md' := by
      intro rs
      induction rs with
      | nil => intro s h1 h2; exact ⟨h1, h2⟩
      | cons r rs ih =>
        intro s h1 h2
        rw [List.foldl_cons]
        exact ih _ (by simp [insertRow, h1]) (by simp [insertRow, h2])
    obtain ⟨k1, k2⟩ := key rs (gcPass busy ⟨some md', d.logs, f2⟩ md', ⟨md', p.mem, p.md.logId⟩)
      (by simp [gcPass, hc.logs, md']) (by simp [gcPass])
    exact ⟨k1, by simp [reopen, k1, k2, maxLog]⟩

example : ∃ d4 p4, demoDisk.bind (fun x => crashAfter Prod.fst demoMk List.length x.1 x.2 4) = some d4 ∧
    reopen d4 = .ok p4 ∧ p4.mem = [((2, 1), 8), ((1, 5), 9)] ∧ (gcPass (fun _ _ => false) d4 p4.md).logs = [] :=
  ⟨_, _, rfl, rfl, rfl, rfl⟩

/-! ### C67: recovery picks the newest log -/

/-- `logs.pop()` on a `BinaryHeap` of paths of one directory, 333-347: the greatest name. -/
def maxName : List Str → Option Str
  | [] => none
  | f :: fs =>
    match maxName fs with
    | none => some f
    | some g => if lexLt g f then some f else some g

theorem lexLt_append (a b s : Str) (h : a.length = b.length) : lexLt (a ++ s) (b ++ s) = (lexLt a b || (a == b && lexLt s s)) := by
  induction a generalizing b with
  | nil =>
    cases b with
    | nil => simp [lexLt]
    | cons _ _ => simp at h
  | cons c a ih =>
    cases b with
    | nil => simp at h
    | cons d b =>
      simp only [List.length_cons, Nat.add_right_cancel_iff] at h
      simp only [List.cons_append, lexLt]
      split
      · simp
      · rename_i h1
        split
        · rename_i h2
          have : c ≠ d := by rintro rfl; omega
          simp [this]
        · rename_i h2
          have : c = d := Char.ext (UInt32.toNat_inj.mp (show c.toNat = d.toNat by omega))
          subst this
          rw [ih b h]
          simp

theorem lexLt_self (s : Str) : lexLt s s = false := by
  induction s with
  | nil => rfl
  | cons c s ih => simp [lexLt, ih]

/-- C67: among any non-empty set of logs with ids below 10^16, recovery opens the one with the
greatest id. -/
theorem C67_newest_log (ids : List Nat) (hb : ∀ i ∈ ids, i < 10 ^ 16) (hne : ids ≠ []) :
    ∃ i ∈ ids, (∀ j ∈ ids, j ≤ i) ∧ maxName (ids.map logName) = some (logName i) := by
  induction ids with
  | nil => exact absurd rfl hne
  | cons a ids ih =>
    cases ids with
    | nil => exact ⟨a, by simp, by simp, by simp [maxName]⟩
    | cons b ids =>
      obtain ⟨i, hi, hmax, hm⟩ := ih (fun x hx => hb x (List.mem_cons_of_mem _ hx)) (by simp)
      have ha := hb a (by simp)
      have hi' := hb i (List.mem_cons_of_mem _ hi)
      have hlt : lexLt (logName i) (logName a) = true ↔ i < a := by
        unfold logName
        rw [lexLt_append _ _ _ (by rw [decimal16_length ha, decimal16_length hi']), lexLt_self]
        simp only [Bool.and_false, Bool.or_false]
        exact decimal16_lt hi' ha
      rw [List.map_cons]
      unfold maxName
      rw [hm]
      dsimp only
      by_cases h : i < a
      · rw [if_pos (hlt.mpr h)]
        refine ⟨a, by simp, ?_, rfl⟩
        intro j hj
        rcases List.mem_cons.mp hj with rfl | hj
        · exact Nat.le_refl _
        · have := hmax j hj; omega
      · rw [if_neg (fun e => h (hlt.mp e))]
        refine ⟨i, List.mem_cons_of_mem _ hi, ?_, rfl⟩
        intro j hj
        rcases List.mem_cons.mp hj with rfl | hj
        · omega
        · exact hmax j hj

example : maxName ([2, 10, 9].map logName) = some (logName 10) := by decide +kernel

/-! ### C68: scans release the files they opened -/

/-- How a scan ends: the consumer reads to the end (`poll_next` returns `None` once), drops the
stream before that, or `scan` itself fails at the `k`-th part (`File::open(path)?`). -/
inductive ScanEnd where
  | finished
  | dropped
  | failed (k : Nat)

/-- Calls of `Fs` made by a scan over the given part paths: `scan`, db.rs 659-667, and
`ScanStream::poll_next`, 591-605. There is no `Drop` implementation. -/
def scanCalls (parts : List Str) : ScanEnd → List FsCall
  | .finished => parts.map .opn ++ parts.map .cls
  | .dropped => parts.map .opn
  | .failed k => (parts.take (k + 1)).map .opn

/-- The requirement: whatever happens, afterwards no file counts as in use on account of the scan. -/
def C68_full : Prop := ∀ parts e p, opens p (scanCalls parts e) = closes p (scanCalls parts e)

theorem opens_map (p : Str) (l : List Str) : opens p (l.map .opn) = l.count p ∧ closes p (l.map .opn) = 0 ∧
    opens p (l.map .cls) = 0 ∧ closes p (l.map .cls) = l.count p := by
  induction l with
  | nil => simp [opens, closes]
  | cons a l ih =>
    simp only [opens, closes, List.map_cons, List.countP_cons, List.count_cons] at ih ⊢
    obtain ⟨h1, h2, h3, h4⟩ := ih
    have e : (FsCall.opn a == FsCall.opn p) = (a == p) := by
      rw [Bool.eq_iff_iff]; simp
    have e' : (FsCall.cls a == FsCall.cls p) = (a == p) := by
      rw [Bool.eq_iff_iff]; simp
    refine ⟨by rw [h1, e], by simp, by simp, by rw [h4, e']⟩

/-- Missing from the full statement: scans that are dropped early or fail. A scan read to the end
releases every file, whatever else is open. -/
theorem C68_partial (parts : List Str) (before : List FsCall) (m : FsMap) (hm : fsRun .new before = some m) :
    (∀ p, opens p (scanCalls parts .finished) = closes p (scanCalls parts .finished)) ∧
    ∃ m', fsRun .new (before ++ scanCalls parts .finished) = some m' ∧ ∀ p, m'.isOpened p = m.isOpened p := by
  have hb := (C20_accounting before).1.mp ⟨m, hm⟩
  have heq : ∀ p, opens p (scanCalls parts .finished) = closes p (scanCalls parts .finished) := by
    intro p
    obtain ⟨h1, h2, h3, h4⟩ := opens_map p parts
    simp only [scanCalls, opens, closes, List.countP_append] at *
    omega
  refine ⟨heq, ?_⟩
  have happ : ∀ (p : Str) (a b : List FsCall), opens p (a ++ b) = opens p a + opens p b ∧
      closes p (a ++ b) = closes p a + closes p b := by
    intro p a b; simp [opens, closes, List.countP_append]
  have hbal : Balanced (before ++ scanCalls parts .finished) := by
    intro n p
    rw [List.take_append, (happ p _ _).1, (happ p _ _).2]
    have h1 := hb n p
    simp only [scanCalls]
    rw [List.take_append, (happ p _ _).1, (happ p _ _).2, ← List.map_take, ← List.map_take]
    obtain ⟨a1, a2, _, _⟩ := opens_map p (parts.take (n - before.length))
    obtain ⟨_, _, b3, b4⟩ := opens_map p (parts.take (n - before.length - (parts.map FsCall.opn).length))
    rw [a1, a2, b3, b4]
    have : (parts.take (n - before.length - (parts.map FsCall.opn).length)).count p ≤
        (parts.take (n - before.length)).count p := by
      apply List.Sublist.count_le
      have e : n - before.length - (parts.map FsCall.opn).length ≤ n - before.length := Nat.sub_le _ _
      have := List.take_sublist (n - before.length - (parts.map FsCall.opn).length) (parts.take (n - before.length))
      rwa [List.take_take, Nat.min_eq_left e] at this
    omega
  obtain ⟨m', hm'⟩ := (C20_accounting _).1.mpr hbal
  refine ⟨m', hm', fun p => ?_⟩
  rw [Bool.eq_iff_iff, (C20_accounting _).2 m' hm' p, (C20_accounting _).2 m hm p, (happ p _ _).1, (happ p _ _).2]
  have := heq p
  omega

/-- C68 fails: a dropped scan keeps its files in use for the life of the process; after compaction
has replaced them they are never removed. -/
theorem C68_violated : ¬ C68_full := by
  intro h
  have := h [['a']] .dropped ['a']
  revert this
  decide

/-- The effect on the cleaner: an unrecorded part whose reader was dropped survives every pass. -/
theorem C68_leaked_file_stays (cs : List FsCall) (root tbl f : Str) (l : Nat) (hf : partPath root tbl l f ∈ parts)
    (hbefore : Balanced (cs ++ scanCalls parts .dropped))
    {m : FsMap} (hm : fsRun .new (cs ++ scanCalls parts .dropped) = some m)
    {md : GcMd} {d d' : GcDir} (h : gcTable m.isOpened root tbl md d = some d') {dir : List Str}
    (hd : d.levels[l]? = some dir) (hin : f ∈ dir) : ∃ dir', d'.levels[l]? = some dir' ∧ f ∈ dir' := by
  refine (C19_keeps_live hm h).2.1 l f dir ?_ hd hin
  have happ : ∀ (p : Str) (a b : List FsCall), opens p (a ++ b) = opens p a + opens p b ∧
      closes p (a ++ b) = closes p a + closes p b := by
    intro p a b; simp [opens, closes, List.countP_append]
  obtain ⟨a1, a2, _, _⟩ := opens_map (partPath root tbl l f) parts
  have hb := hbefore cs.length (partPath root tbl l f)
  rw [List.take_append_of_le_length (Nat.le_refl _), List.take_of_length_le (Nat.le_refl _)] at hb
  rw [(happ _ _ _).1, (happ _ _ _).2]
  simp only [scanCalls, a1, a2]
  have := List.count_pos_iff.mpr hf
  omega

end OptiPrism.Storage
