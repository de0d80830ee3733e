import Verif.Storage.Chunk
import Verif.Storage.MergeProps

/-!
# C10, C12, C13: what a scan returns
-/

namespace OptiPrism.Storage

variable {R K : Type}

/-! ### C10 -/

/-- A scan of any append-only table whose parts are sorted blocks succeeds and returns the rows of
the parts and of the memory, each exactly once, in key order. -/
theorem ATbl.scan_view [DecidableEq K] {le : K → K → Prop} [DecidableRel le]
    (ho : TotOrd le) {key : R → K} {sort : List R → List R} (hsort : IsSort le key sort)
    {cut : List R → List (List R)} (hcut : IsCut cut)
    {pick : List (SChunk R) → Option (SChunk R × List (SChunk R))} (hp : IsPick le key pick)
    {drain : List (Nat × K) → List (Nat × K)} (hd : ∀ es, IsDrain le es (drain es))
    {size : Nat} (hsz : 1 ≤ size) (indexCols : Nat) (t : ATbl R)
    (hpart : ∀ p ∈ t.parts, SortedBy le key p) :
    ∃ out, t.scan le key sort cut pick drain size indexCols = some out ∧
      out.flatten.Perm (t.parts.flatten ++ t.mem) ∧ SortedBy le key out.flatten := by
  have hmk : ∀ l : List R, l ≠ [] → memChunk key sort indexCols false l = some (some (sort l)) := by
    intro l hl
    simp [memChunk, hl]
  unfold ATbl.scan
  have hmem : ∃ m, memChunk key sort indexCols false t.mem = some m ∧
      (m = if t.mem = [] then none else some (sort t.mem)) := by
    by_cases hm : t.mem = []
    · exact ⟨none, by simp [memChunk, hm], by simp [hm]⟩
    · exact ⟨_, hmk _ hm, by simp [hm]⟩
  obtain ⟨m, hm1, hm2⟩ := hmem
  rw [hm1]
  simp only [Storage.scan, scanWith]
  by_cases hparts : t.parts = []
  · refine ⟨m.toList, by simp [hparts], ?_, ?_⟩
    · rw [hm2, hparts]
      by_cases hm : t.mem = []
      · simp [hm]
      · simpa [hm] using hsort.perm t.mem
    · rw [hm2]
      by_cases hm : t.mem = []
      · simp [hm, SortedBy]
      · simpa [hm] using hsort.sorted t.mem
  · have hpe : (t.parts.map cut).isEmpty = false := by simp [hparts]
    simp only [hpe, Bool.false_eq_true, if_false]
    generalize hstr : (t.parts.map cut ++ m.toList.map fun c => [c]) = streams
    have hflat : (streams.map List.flatten).flatten.Perm (t.parts.flatten ++ t.mem) := by
      rw [← hstr, List.map_append, List.flatten_append]
      apply List.Perm.append
      · rw [List.map_map]
        have : List.flatten ∘ cut = id := by funext l; exact hcut.flatten l
        rw [this, List.map_id]
      · rw [hm2]
        by_cases hm : t.mem = []
        · simp [hm]
        · simpa [hm] using hsort.perm t.mem
    have hsorted : ∀ s ∈ streams, SortedBy le key s.flatten := by
      rw [← hstr]
      intro s hs
      rcases List.mem_append.mp hs with hs | hs
      · obtain ⟨p, hp', rfl⟩ := List.mem_map.mp hs
        rw [hcut.flatten]
        exact hpart p hp'
      · rw [hm2] at hs
        by_cases hm : t.mem = []
        · simp [hm] at hs
        · simp only [hm, if_false, Option.toList_some, List.map_cons, List.map_nil,
            List.mem_singleton] at hs
          subst hs
          simpa using hsort.sorted t.mem
    have hne : ∀ s ∈ streams, ∀ c ∈ s, c ≠ [] := by
      rw [← hstr]
      intro s hs c hc
      rcases List.mem_append.mp hs with hs | hs
      · obtain ⟨p, _, rfl⟩ := List.mem_map.mp hs
        exact hcut.nonempty p c hc
      · rw [hm2] at hs
        by_cases hm : t.mem = []
        · simp [hm] at hs
        · simp only [hm, if_false, Option.toList_some, List.map_cons, List.map_nil,
            List.mem_singleton] at hs
          subst hs
          simp only [List.mem_singleton] at hc
          subst hc
          intro e
          have := (hsort.perm t.mem).length_eq
          rw [e] at this
          exact hm (List.eq_nil_of_length_eq_zero this.symm)
    obtain ⟨hinv, hpend⟩ := startScan_inv streams hsorted hne
    obtain ⟨out, o1, o2, o3, _⟩ := runScan_spec ho hp hd hsz _ _ hinv (Nat.le_refl _)
    exact ⟨out, o1, o2.trans (hpend.trans hflat), o3⟩

/-- C10: whatever was inserted and whenever it was flushed, however part files are cut into chunks
and ties are broken, a scan of an append-only table succeeds and returns the inserted rows, each
exactly once, in key order. -/
theorem C10_scan_returns_inserted [DecidableEq K] {le : K → K → Prop} [DecidableRel le]
    (ho : TotOrd le) {key : R → K} {sort : List R → List R} (hsort : IsSort le key sort)
    {cut : List R → List (List R)} (hcut : IsCut cut)
    {pick : List (SChunk R) → Option (SChunk R × List (SChunk R))} (hp : IsPick le key pick)
    {drain : List (Nat × K) → List (Nat × K)} (hd : ∀ es, IsDrain le es (drain es))
    {size : Nat} (hsz : 1 ≤ size) (indexCols : Nat) (ops : List (SOp R)) :
    ∃ t out, ATbl.run (memChunk key sort indexCols false) ⟨[], []⟩ ops = some t ∧
      t.scan le key sort cut pick drain size indexCols = some out ∧
      out.flatten.Perm (inserted ops) ∧ SortedBy le key out.flatten := by
  have hmk : ∀ l : List R, l ≠ [] → memChunk key sort indexCols false l = some (some (sort l)) := by
    intro l hl
    simp [memChunk, hl]
  obtain ⟨t, segs, h1, h2, h3, h4⟩ := run_segments _ sort hmk ⟨[], []⟩ ops
  simp only [List.nil_append] at h2 h4
  obtain ⟨out, o1, o2, o3⟩ := t.scan_view ho hsort hcut hp hd hsz indexCols (by
    intro p hp'
    rw [h2] at hp'
    obtain ⟨q, _, rfl⟩ := List.mem_map.mp hp'
    exact hsort.sorted q)
  refine ⟨t, out, h1, o1, o2.trans ?_, o3⟩
  rw [h4, h2]
  apply List.Perm.append_right
  clear h2 h4 h3
  induction segs with
  | nil => simp
  | cons s segs ih =>
    simp only [List.map_cons, List.flatten_cons]
    exact (hsort.perm s).append ih

/-! Concrete parameters, to show that the hypotheses can be met. -/

/-- A chunk of smallest minimum, the first one in case of ties. -/
def pickMin (key : R → Int × Int) : List (SChunk R) → Option (SChunk R × List (SChunk R))
  | [] => none
  | c :: h =>
    match pickMin key h with
    | none => some (c, [])
    | some (c', h') =>
      match c.rows.head?, c'.rows.head? with
      | some r, some r' => if lexLe (key r) (key r') then some (c, c' :: h') else some (c', c :: h')
      | none, _ => some (c, c' :: h')
      | _, none => some (c', c :: h')

theorem pickMin_isPick (key : R → Int × Int) : IsPick lexLe key (pickMin key) := by
  refine ⟨rfl, ?_⟩
  intro h hne
  induction h with
  | nil => exact absurd rfl hne
  | cons c h ih =>
    cases h with
    | nil => exact ⟨c, [], rfl, List.Perm.refl _, by simp⟩
    | cons d h =>
      obtain ⟨c', h', e1, e2, e3⟩ := ih (by simp)
      unfold pickMin
      rw [e1]
      simp only
      cases hr : c.rows with
      | nil =>
        refine ⟨c, c' :: h', by simp, e2.cons c, ?_⟩
        intro x _ a b ha
        rw [hr] at ha; cases ha
      | cons r t =>
        cases hr' : c'.rows with
        | nil =>
          refine ⟨c', c :: h', by simp, (e2.cons c).trans (List.Perm.swap c' c h'), ?_⟩
          intro x _ a b ha
          rw [hr'] at ha; cases ha
        | cons r' t' =>
          simp only [List.head?_cons]
          by_cases hle : lexLe (key r) (key r')
          · refine ⟨c, c' :: h', by simp [hle], e2.cons c, ?_⟩
            intro x hx a b ha hb
            rw [hr] at ha; simp at ha; subst ha
            rcases List.mem_cons.mp hx with rfl | hx
            · rw [hr'] at hb; simp at hb; subst hb; exact hle
            · exact lexTotOrd.trans hle (e3 x hx r' b (by rw [hr']; rfl) hb)
          · refine ⟨c', c :: h', by simp [hle], (e2.cons c).trans (List.Perm.swap c' c h'), ?_⟩
            intro x hx a b ha hb
            rw [hr'] at ha; simp at ha; subst ha
            rcases List.mem_cons.mp hx with rfl | hx
            · rw [hr] at hb; simp at hb; subst hb
              exact (lexTotOrd.total _ _).resolve_left hle
            · exact e3 x hx r' b (by rw [hr']; rfl) hb

/-- Insertion sort by key (stable). -/
def sortRows (key : R → Int × Int) (l : List R) : List R :=
  isort (fun a b => decide (lexLe (key a) (key b))) l

theorem sortRows_isSort (key : R → Int × Int) : IsSort lexLe key (sortRows key) := by
  refine ⟨fun l => isort_perm _ l, fun l => ?_⟩
  have := isort_sorted (fun a b : R => decide (lexLe (key a) (key b)))
    (fun a b => by simpa using lexTotOrd.total (key a) (key b))
    (fun a b c h1 h2 => by simp only [decide_eq_true_eq] at *; exact lexTotOrd.trans h1 h2) l
  exact this.imp (by intro a b h; simpa using h)

/-- Chunks of one row. -/
def cutOne (l : List R) : List (List R) := l.map fun r => [r]

theorem cutOne_isCut : IsCut (cutOne (R := R)) := by
  refine ⟨fun l => ?_, fun l c hc => ?_⟩
  · induction l with
    | nil => rfl
    | cons a l ih =>
      simp only [cutOne, List.map_cons, List.flatten_cons] at ih ⊢
      rw [ih]; rfl
  · obtain ⟨r, _, rfl⟩ := List.mem_map.mp hc
    simp

/-- Rows `((project, id), payload)`. -/
abbrev DRow := (Int × Int) × Nat

/-- Two parts with interleaving keys and a duplicate, and rows in memory. -/
def demoOps : List (SOp DRow) :=
  [.insert ((1, 3), 0), .insert ((1, 1), 1), .flush, .insert ((1, 2), 2), .insert ((1, 3), 3), .flush,
   .insert ((0, 9), 4)]

example : ∃ t out, ATbl.run (memChunk Prod.fst (sortRows Prod.fst) 2 false) ⟨[], []⟩ demoOps = some t ∧
      t.scan lexLe Prod.fst (sortRows Prod.fst) cutOne (pickMin Prod.fst) sortDrain 1 2 = some out ∧
      out.flatten.Perm (inserted demoOps) ∧ SortedBy lexLe Prod.fst out.flatten :=
  C10_scan_returns_inserted lexTotOrd (sortRows_isSort _) cutOne_isCut (pickMin_isPick _)
    sortDrain_isDrain (by decide) 2 demoOps

example : ((ATbl.run (memChunk Prod.fst (sortRows Prod.fst) 2 false) ⟨[], []⟩ demoOps).bind
    fun t => t.scan lexLe Prod.fst (sortRows Prod.fst) cutOne (pickMin Prod.fst) sortDrain 1 2) =
    some [[((0, 9), 4)], [((1, 1), 1)], [((1, 2), 2)], [((1, 3), 3)], [((1, 3), 0)]] := by
  decide +kernel

/-! ### C13 -/

/-- The sort keeps the order of rows with equal keys. -/
def IsStable [DecidableEq K] (key : R → K) (sort : List R → List R) : Prop :=
  ∀ l k, (sort l).filter (fun r => decide (key r = k)) = l.filter (fun r => decide (key r = k))

/-- C13: the block made from the memory of a replacing table with a two-column key has strictly
increasing keys, contains exactly the keys inserted, and its rows were inserted; when the sort keeps
the order of equal keys, the row kept for a key is the last one inserted with that key. -/
theorem C13_replacing_block [DecidableEq K] {le : K → K → Prop} (ho : TotOrd le) {key : R → K}
    {sort : List R → List R} (hs : IsSort le key sort) (rows : List R) (hne : rows ≠ []) :
    ∃ out, memChunk key sort 2 true rows = some (some out) ∧
      out.Pairwise (fun a b => le (key a) (key b) ∧ key a ≠ key b) ∧
      (∀ r ∈ rows, ∃ o ∈ out, key o = key r) ∧
      (∀ o ∈ out, o ∈ rows) ∧
      (IsStable key sort → ∀ o ∈ out,
        (rows.filter fun r => decide (key r = key o)).getLast? = some o) := by
  refine ⟨_, memChunk_replacing key sort rows (hs.perm rows) hne,
    lastOfRuns_strict ho key _ (hs.sorted rows), ?_, ?_, ?_⟩
  · intro r hr
    exact lastOfRuns_covers key _ r ((hs.perm rows).mem_iff.mpr hr)
  · intro o hos
    exact (hs.perm rows).mem_iff.mp (lastOfRuns_mem key _ o hos)
  · intro hst o hos
    have := lastOfRuns_last ho key _ (hs.sorted rows) o hos
    rwa [hst rows (key o)] at this

example : memChunk Prod.fst (sortRows Prod.fst) 2 true
    [((1, 3), 0), ((1, 1), 1), ((1, 3), 2), ((2, 0), 3), ((1, 1), 4)] =
    some (some [((1, 1), 4), ((1, 3), 2), ((2, 0), 3)]) := by decide +kernel

/-- With any other number of key columns the replacing branch drops every row: the block of a
non-empty memtable is empty. -/
theorem C13_other_key_width_loses_rows [DecidableEq K] (key : R → K) (sort : List R → List R)
    (indexCols : Nat) (h : indexCols ≠ 2) (rows : List R) (hne : rows ≠ []) :
    memChunk key sort indexCols true rows = some (some []) := by
  have : rows.length ≠ 0 := fun e => hne (List.eq_nil_of_length_eq_zero e)
  simp [memChunk, dedupIdx, h, hne]

/-! ### C12 -/

/-- The version of key `k` a user expects: the last one inserted. -/
def latest [DecidableEq K] (key : R → K) (rows : List R) (k : K) : Option R :=
  (rows.filter fun r => decide (key r = k)).getLast?

/-- C12 in full: whatever the history, a scan of a replacing table returns for every key exactly
its latest version. -/
def C12_full : Prop :=
  ∀ (sort : List DRow → List DRow) (cut : List DRow → List (List DRow))
    (pick : List (SChunk DRow) → Option (SChunk DRow × List (SChunk DRow)))
    (drain : List (Nat × (Int × Int)) → List (Nat × (Int × Int))) (size : Nat),
    IsSort lexLe Prod.fst sort → IsStable Prod.fst sort → IsCut cut → IsPick lexLe Prod.fst pick →
    (∀ es, IsDrain lexLe es (drain es)) → 1 ≤ size → ∀ ops : List (SOp DRow),
    ∃ t out, ATbl.run (memChunk Prod.fst sort 2 true) ⟨[], []⟩ ops = some t ∧
      t.scanR Prod.fst sort cut pick drain size = some out ∧
      ∀ k, out.flatten.filter (fun r => decide (r.1 = k)) = (latest Prod.fst (inserted ops) k).toList

theorem insertBy_filter (key : R → Int × Int) (a : R) (l : List R) (k : Int × Int)
    (hs : SortedBy lexLe key l) :
    (insertBy (fun a b => decide (lexLe (key a) (key b))) a l).filter (fun r => decide (key r = k)) =
      (a :: l).filter (fun r => decide (key r = k)) := by
  induction l with
  | nil => rfl
  | cons b l ih =>
    unfold insertBy
    split
    · rfl
    · rename_i h
      have h' : ¬ lexLe (key a) (key b) := by simpa using h
      have ih' := ih (List.pairwise_cons.mp hs).2
      rw [List.filter_cons, ih']
      by_cases ha : key a = k <;> by_cases hb : key b = k
      · exfalso; apply h'; rw [ha, hb]; exact lexTotOrd.refl _
      · simp [ha, hb]
      · simp [ha, hb]
      · simp [ha, hb]

theorem sortRows_stable (key : R → Int × Int) : IsStable key (sortRows key) := by
  intro l k
  induction l with
  | nil => rfl
  | cons a l ih =>
    have hs := (sortRows_isSort key).sorted l
    have h1 := insertBy_filter key a _ k hs
    rw [List.filter_cons, ih] at h1
    rw [List.filter_cons]
    exact h1

/-- C12 is false of the code: keys (1,1) and (1,2), one of them flushed. The merge compares only the
first key column and drops the row of key (1,1). -/
theorem C12_violated : ¬ C12_full := by
  intro h
  obtain ⟨t, out, h1, h2, h3⟩ := h (sortRows Prod.fst) cutOne (pickMin Prod.fst) sortDrain 10
    (sortRows_isSort _) (sortRows_stable _) cutOne_isCut (pickMin_isPick _) sortDrain_isDrain
    (by decide) [.insert ((1, 1), 0), .flush, .insert ((1, 2), 1)]
  have e1 : ATbl.run (memChunk Prod.fst (sortRows Prod.fst) 2 true) ⟨[], []⟩
      [.insert ((1, 1), 0), .flush, .insert (((1, 2), 1) : DRow)] =
      some ⟨[((1, 2), 1)], [[((1, 1), 0)]]⟩ := by rfl
  rw [e1] at h1
  injection h1 with h1
  subst h1
  have e2 : ATbl.scanR Prod.fst (sortRows Prod.fst) cutOne (pickMin Prod.fst) sortDrain 10
      (⟨[((1, 2), 1)], [[((1, 1), 0)]]⟩ : ATbl DRow) = some [[((1, 2), 1)]] := by decide +kernel
  rw [e2] at h2
  injection h2 with h2
  subst h2
  have := h3 (1, 1)
  revert this
  decide

/-- Even for one key the older version may win: when both versions of key (1,1) sit in different
blocks, the pop order of equal keys decides. -/
theorem C12_old_version_may_win : ∃ drain, (∀ es, IsDrain lexLe es (drain es)) ∧
    ATbl.scanR Prod.fst (sortRows Prod.fst) cutOne (pickMin Prod.fst) drain 10
      (⟨[((1, 1), 1)], [[((1, 1), 0)]]⟩ : ATbl DRow) = some [[((1, 1), 0)]] := by
  exact ⟨sortDrain, sortDrain_isDrain, by decide +kernel⟩

/-- Two chunks have disjoint ranges of the first key column. -/
def FirstDisjoint (key : R → Int × Int) (a b : List R) : Prop :=
  (∀ r ∈ a, ∀ r' ∈ b, (key r).1 < (key r').1) ∨ (∀ r ∈ a, ∀ r' ∈ b, (key r').1 < (key r).1)

/-- Chunks held by the iterator. -/
def MState.chunks (st : MState R) : List (List R) := st.heap.map SChunk.rows ++ st.streams.flatten

theorem refill_chunks (st : MState R) (s : Nat) : (st.refill s).chunks.Perm st.chunks := by
  unfold MState.refill
  split
  · rename_i c cs h
    simp only [MState.chunks, List.map_cons, List.cons_append]
    have := flatten_set_perm st.streams s c cs h
    refine List.Perm.trans ?_ (this.symm.append_left _)
    exact List.perm_middle.symm
  · exact List.Perm.refl _

theorem intersectsR_disjoint (key : R → Int × Int) (c d : SChunk R) (hc : c.rows ≠ [])
    (hd : d.rows ≠ []) (h : FirstDisjoint key c.rows d.rows) :
    intersectsR key [c] d = some false := by
  obtain ⟨r, hr⟩ : ∃ r, c.rows.head? = some r := by
    cases hrows : c.rows with
    | nil => exact absurd hrows hc
    | cons a t => exact ⟨a, rfl⟩
  obtain ⟨r', hr'⟩ : ∃ r, d.rows.head? = some r := by
    cases hrows : d.rows with
    | nil => exact absurd hrows hd
    | cons a t => exact ⟨a, rfl⟩
  obtain ⟨x, hx⟩ : ∃ y, c.rows.getLast? = some y := by
    cases hl : c.rows.getLast? with
    | none => exact absurd (List.getLast?_eq_none_iff.mp hl) hc
    | some y => exact ⟨y, rfl⟩
  obtain ⟨x', hx'⟩ : ∃ y, d.rows.getLast? = some y := by
    cases hl : d.rows.getLast? with
    | none => exact absurd (List.getLast?_eq_none_iff.mp hl) hd
    | some y => exact ⟨y, rfl⟩
  have m1 := List.mem_of_head? hr
  have m2 := List.mem_of_head? hr'
  have m3 := List.mem_of_getLast? hx
  have m4 := List.mem_of_getLast? hx'
  have e : intersectsR key [c] d =
      some (decide ((key r).1 ≤ (key x').1) && decide ((key r').1 ≤ (key x).1)) := by
    simp only [intersectsR, List.mapM_cons, List.mapM_nil, SChunk.min?, SChunk.max?, hr, hr', hx, hx',
      Option.map_some, Option.pure_def, Option.bind_eq_bind, Option.bind_some]
    rfl
  rw [e]
  congr 1
  rw [Bool.and_eq_false_iff]
  rcases h with h | h
  · right; have := h x m3 r' m2; simp; omega
  · left; have := h r m1 x' m4; simp; omega

theorem FirstDisjoint.symm {key : R → Int × Int} {a b : List R} (h : FirstDisjoint key a b) :
    FirstDisjoint key b a := by
  rcases h with h | h
  · exact Or.inr fun r hr r' hr' => h r' hr' r hr
  · exact Or.inl fun r hr r' hr' => h r' hr' r hr

/-- When no two chunks share a range of the first key column nothing is merged and every chunk is
delivered as it is. -/
theorem runScan_disjoint {key : R → Int × Int}
    {pick : List (SChunk R) → Option (SChunk R × List (SChunk R))} (hp : IsPick lexLe key pick)
    (merge : List (List R) → Option (List (List R))) (fuel : Nat) (st : MState R)
    (hi : st.Inv lexLe key) (hf : st.size ≤ fuel)
    (hdis : st.chunks.Pairwise (FirstDisjoint key)) :
    ∃ out, runScan (intersectsR key) merge pick fuel st = some out ∧ out.Perm st.chunks := by
  have hempty : ∀ st : MState R, st.Inv lexLe key → st.heap = [] → st.chunks = [] := by
    intro st hi hh
    simp only [MState.chunks, hh, List.map_nil, List.nil_append, List.flatten_eq_nil_iff]
    intro cs hcs
    apply Decidable.byContradiction
    intro hne'
    obtain ⟨s, hs⟩ := List.getElem?_of_mem hcs
    obtain ⟨c', hc', _⟩ := hi.covered s cs hs hne'
    rw [hh] at hc'; cases hc'
  induction fuel generalizing st with
  | zero =>
    have hh : st.heap = [] := by
      have : st.heap.length = 0 := by simp only [MState.size] at hf; omega
      exact List.eq_nil_of_length_eq_zero this
    exact ⟨[], rfl, by rw [hempty st hi hh]⟩
  | succ fuel ih =>
    unfold runScan
    cases hpk : pick st.heap with
    | none =>
      have hh : st.heap = [] := by
        apply Decidable.byContradiction
        intro hne
        obtain ⟨c1, h1, e1, _⟩ := hp.some st.heap hne
        rw [hpk] at e1; cases e1
      exact ⟨[], rfl, by rw [hempty st hi hh]⟩
    | some ch =>
      obtain ⟨c, h'⟩ := ch
      obtain ⟨hcne, _, hinv', _, hsize, _⟩ := pop_spec lexTotOrd hp hi hpk
      have hne : st.heap ≠ [] := by intro e; rw [e, hp.empty] at hpk; cases hpk
      obtain ⟨c1, h1, e1, hperm, _⟩ := hp.some st.heap hne
      rw [hpk] at e1
      cases e1
      have hch : st.chunks.Perm (c.rows :: (MState.refill ⟨st.streams, h'⟩ c.stream).chunks) := by
        have h2 := refill_chunks (⟨st.streams, h'⟩ : MState R) c.stream
        refine List.Perm.trans ?_ (h2.symm.cons c.rows)
        simp only [MState.chunks]
        exact List.Perm.append_right _ (by simpa using hperm.map SChunk.rows)
      have hdis' := (hch.pairwise_iff (fun h => FirstDisjoint.symm h)).mp hdis
      obtain ⟨hd1, hd2⟩ := List.pairwise_cons.mp hdis'
      have hq : queueLoop (intersectsR key) pick fuel [c] (MState.refill ⟨st.streams, h'⟩ c.stream) =
          some ([c], MState.refill ⟨st.streams, h'⟩ c.stream) := by
        cases fuel with
        | zero => rfl
        | succ fuel =>
          unfold queueLoop
          generalize hst' : MState.refill ⟨st.streams, h'⟩ c.stream = st' at *
          cases hpk' : pick st'.heap with
          | none => rfl
          | some dh =>
            obtain ⟨d, dh'⟩ := dh
            have hne' : st'.heap ≠ [] := by intro e; rw [e, hp.empty] at hpk'; cases hpk'
            obtain ⟨c2, h2, e2, hperm2, _⟩ := hp.some st'.heap hne'
            rw [hpk'] at e2
            cases e2
            have hdm : d ∈ st'.heap := hperm2.mem_iff.mpr (by simp)
            have hdne := (hinv'.heapSorted d hdm).1
            have hdc : d.rows ∈ st'.chunks := by
              simp only [MState.chunks, List.mem_append]
              exact Or.inl (List.mem_map_of_mem hdm)
            simp only [intersectsR_disjoint key c d hcne hdne (hd1 _ hdc)]
      obtain ⟨rest, r1, r2⟩ := ih _ hinv' (by omega) hd2
      simp only [hq, r1, List.length_singleton]
      refine ⟨c.rows :: rest, by simp, ?_⟩
      exact (r2.cons c.rows).trans hch.symm

/-- C12 as far as it holds: a replacing table returns exactly the latest version of every key
provided no two blocks handed to the merge share a range of the *first* key column. In particular
when nothing was flushed. Missing: blocks that share a first key value (the normal case). -/
theorem C12_partial {key : R → Int × Int} {sort : List R → List R}
    (hsort : IsSort lexLe key sort) (hst : IsStable key sort)
    {cut : List R → List (List R)} (hcut : IsCut cut)
    {pick : List (SChunk R) → Option (SChunk R × List (SChunk R))} (hp : IsPick lexLe key pick)
    (drain : List (Nat × (Int × Int)) → List (Nat × (Int × Int))) (size : Nat)
    (ops : List (SOp R)) (t : ATbl R)
    (hrun : ATbl.run (memChunk key sort 2 true) ⟨[], []⟩ ops = some t)
    (hdis : ∀ m, memChunk key sort 2 true t.mem = some m →
      ((t.parts.map cut).flatten ++ m.toList).Pairwise (FirstDisjoint key)) :
    ∃ out, t.scanR key sort cut pick drain size = some out ∧
      ∀ k, out.flatten.filter (fun r => decide (key r = k)) =
        (latest key (inserted ops) k).toList := by
  have hmk : ∀ l : List R, l ≠ [] →
      memChunk key sort 2 true l = some (some (lastOfRuns key (sort l))) :=
    fun l hl => memChunk_replacing key sort l (hsort.perm l) hl
  obtain ⟨t', segs, h1, h2, h3, h4⟩ := run_segments _ _ hmk ⟨[], []⟩ ops
  rw [hrun] at h1
  injection h1 with h1
  subst h1
  simp only [List.nil_append] at h2 h4
  -- the memory block
  obtain ⟨m, hm1, hm2⟩ : ∃ m, memChunk key sort 2 true t.mem = some m ∧
      m = (if t.mem = [] then none else some (lastOfRuns key (sort t.mem))) := by
    by_cases hm : t.mem = []
    · exact ⟨none, by simp [memChunk, hm], by simp [hm]⟩
    · exact ⟨_, hmk _ hm, by simp [hm]⟩
  have hdis' := hdis m hm1
  -- blocks per segment, memory being the last segment when non-empty
  let segs' := segs ++ (if t.mem = [] then [] else [t.mem])
  have hins : inserted ops = segs'.flatten := by
    simp only [segs', List.flatten_append, h4]
    by_cases hm : t.mem = [] <;> simp [hm]
  have hseg_ne : ∀ s ∈ segs', s ≠ [] := by
    intro s hs
    rcases List.mem_append.mp hs with hs | hs
    · exact h3 s hs
    · by_cases hm : t.mem = []
      · simp [hm] at hs
      · simp only [hm, if_false, List.mem_singleton] at hs
        subst hs; exact hm
  let f := fun s => lastOfRuns key (sort s)
  have hblocks : (t.parts.map cut).flatten.flatten ++ m.toList.flatten = (segs'.map f).flatten := by
    simp only [segs', List.map_append, List.flatten_append, hm2, h2]
    congr 1
    · clear h2 h4 hins hseg_ne hdis'
      induction segs with
      | nil => rfl
      | cons s segs ih =>
        simp only [List.map_cons, List.flatten_cons, List.flatten_append, hcut.flatten]
        rw [ih (fun x hx => h3 x (by simp [hx]))]
    · by_cases hm : t.mem = [] <;> simp [hm, f]
  -- every key lies in one segment only
  have hone : segs'.Pairwise fun a b => ∀ x ∈ a, ∀ y ∈ b, key x ≠ key y := by
    have hcov : ∀ s ∈ segs', ∀ x ∈ s, ∃ y ∈ f s, key y = key x := by
      intro s _ x hx
      exact lastOfRuns_covers key _ x ((hsort.perm s).mem_iff.mpr hx)
    have hchunks : ∃ cs : List (List (List R)), cs.flatten = (t.parts.map cut).flatten ++ m.toList ∧
        cs.map List.flatten = segs'.map f := by
      refine ⟨t.parts.map cut ++ m.toList.map (fun c => [c]), ?_, ?_⟩
      · simp only [List.flatten_append]
        congr 1
        cases m <;> simp
      · simp only [segs', List.map_append, List.map_map, h2]
        congr 1
        · apply List.map_congr_left
          intro s _
          simp [Function.comp_def, hcut.flatten, f]
        · rw [hm2]
          by_cases hm : t.mem = [] <;> simp [hm, f]
    obtain ⟨cs, hcs1, hcs2⟩ := hchunks
    rw [← hcs1] at hdis'
    have hpw : (segs'.map f).Pairwise (fun a b => ∀ x ∈ a, ∀ y ∈ b, key x ≠ key y) := by
      rw [← hcs2]
      rw [List.pairwise_map]
      rw [List.pairwise_flatten] at hdis'
      refine hdis'.2.imp ?_
      intro a b hab x hx y hy e
      obtain ⟨ca, hca, hxa⟩ := List.mem_flatten.mp hx
      obtain ⟨cb, hcb, hyb⟩ := List.mem_flatten.mp hy
      rcases hab ca hca cb hcb with h | h
      · have := h x hxa y hyb; rw [e] at this; omega
      · have := h x hxa y hyb; rw [e] at this; omega
    rw [List.pairwise_map] at hpw
    have : segs'.Pairwise fun a b => (∀ x ∈ f a, ∀ y ∈ f b, key x ≠ key y) ∧ a ∈ segs' ∧ b ∈ segs' := by
      rw [List.pairwise_iff_forall_sublist] at hpw ⊢
      intro a b hab
      exact ⟨hpw hab, hab.subset (by simp), hab.subset (by simp)⟩
    refine this.imp ?_
    intro a b hab x hx y hy e
    obtain ⟨x', hx', ex⟩ := hcov a hab.2.1 x hx
    obtain ⟨y', hy', ey⟩ := hcov b hab.2.2 y hy
    exact hab.1 x' hx' y' hy' (by rw [ex, ey, e])
  -- per key
  have hkey : ∀ k, ((segs'.map f).flatten).filter (fun r => decide (key r = k)) =
      (latest key segs'.flatten k).toList := by
    intro k
    have hblock : ∀ s, (f s).filter (fun r => decide (key r = k)) = (latest key s k).toList := by
      intro s
      have hstrict := lastOfRuns_strict lexTotOrd key _ (hsort.sorted s)
      cases hfl : (f s).filter (fun r => decide (key r = k)) with
      | nil =>
        have : s.filter (fun r => decide (key r = k)) = [] := by
          rw [List.filter_eq_nil_iff] at hfl ⊢
          intro x hx
          obtain ⟨y, hy, e⟩ := lastOfRuns_covers key _ x ((hsort.perm s).mem_iff.mpr hx)
          have := hfl y hy
          rw [e] at this
          exact this
        simp [latest, this]
      | cons o rest =>
        have ho : o ∈ (f s).filter (fun r => decide (key r = k)) := by rw [hfl]; simp
        obtain ⟨ho1, ho2⟩ := List.mem_filter.mp ho
        have hok : key o = k := by simpa using ho2
        have hl := lastOfRuns_last lexTotOrd key _ (hsort.sorted s) o ho1
        rw [hst s, hok] at hl
        simp only [latest, hl, Option.toList_some, List.cons.injEq, true_and]
        have hp2 := hstrict.filter (fun r => decide (key r = k))
        rw [show (lastOfRuns key (sort s)).filter (fun r => decide (key r = k)) = o :: rest from hfl]
          at hp2
        cases rest with
        | nil => rfl
        | cons p rest =>
          have := (List.pairwise_cons.mp hp2).1 p (by simp)
          have hpk : p ∈ (f s).filter (fun r => decide (key r = k)) := by rw [hfl]; simp
          have := this.2
          have : key p = k := by simpa using (List.mem_filter.mp hpk).2
          simp_all
    clear hblocks hins hseg_ne
    clear_value segs'
    induction segs' with
    | nil => rfl
    | cons s ss ih =>
      have hcons := List.pairwise_cons.mp hone
      simp only [List.map_cons, List.flatten_cons, List.filter_append]
      rw [hblock s, ih hcons.2]
      unfold latest
      rw [List.filter_append, List.getLast?_append]
      cases hA : (ss.flatten.filter fun r => decide (key r = k)).getLast? with
      | none => simp
      | some y =>
        have hy := List.mem_of_getLast? hA
        obtain ⟨hy1, hy2⟩ := List.mem_filter.mp hy
        obtain ⟨b, hb, hyb⟩ := List.mem_flatten.mp hy1
        have : s.filter (fun r => decide (key r = k)) = [] := by
          rw [List.filter_eq_nil_iff]
          intro x hx
          simp only [decide_eq_true_eq] at hy2 ⊢
          intro e
          exact hcons.1 b hb x hx y hyb (by rw [e, hy2])
        simp [this]
  unfold ATbl.scanR
  rw [hm1]
  simp only [scanWith]
  by_cases hparts : t.parts = []
  · refine ⟨m.toList, by simp [hparts], ?_⟩
    intro k
    rw [hins, ← hkey k, ← hblocks]
    simp [hparts]
  · have hpe : (t.parts.map cut).isEmpty = false := by simp [hparts]
    simp only [hpe, Bool.false_eq_true, if_false]
    generalize hstr : (t.parts.map cut ++ m.toList.map fun c => [c]) = streams
    have hblk_sorted : ∀ s, SortedBy lexLe key (f s) := fun s =>
      (lastOfRuns_strict lexTotOrd key _ (hsort.sorted s)).imp (fun h => h.1)
    have hsorted : ∀ s ∈ streams, SortedBy lexLe key s.flatten := by
      rw [← hstr]
      intro s hs
      rcases List.mem_append.mp hs with hs | hs
      · obtain ⟨p, hp', rfl⟩ := List.mem_map.mp hs
        rw [hcut.flatten]
        rw [h2] at hp'
        obtain ⟨q, _, rfl⟩ := List.mem_map.mp hp'
        exact hblk_sorted q
      · rw [hm2] at hs
        by_cases hm : t.mem = []
        · simp [hm] at hs
        · simp only [hm, if_false, Option.toList_some, List.map_cons, List.map_nil,
            List.mem_singleton] at hs
          subst hs
          simpa using hblk_sorted t.mem
    have hne : ∀ s ∈ streams, ∀ c ∈ s, c ≠ [] := by
      rw [← hstr]
      intro s hs c hc
      rcases List.mem_append.mp hs with hs | hs
      · obtain ⟨p, _, rfl⟩ := List.mem_map.mp hs
        exact hcut.nonempty p c hc
      · rw [hm2] at hs
        by_cases hm : t.mem = []
        · simp [hm] at hs
        · simp only [hm, if_false, Option.toList_some, List.map_cons, List.map_nil,
            List.mem_singleton] at hs
          subst hs
          simp only [List.mem_singleton] at hc
          subst hc
          intro e
          cases hmm : t.mem with
          | nil => exact hm hmm
          | cons x rest =>
            obtain ⟨y, hy, _⟩ := lastOfRuns_covers key (sort t.mem) x
              ((hsort.perm t.mem).mem_iff.mpr (by rw [hmm]; simp))
            rw [e] at hy; cases hy
    obtain ⟨hinv, hpend⟩ := startScan_inv streams hsorted hne
    have hchunks : (startScan streams).chunks.Perm streams.flatten := by
      have : ∀ (l : List Nat) (st : MState R),
          (l.foldl (fun st s => MState.refill st s) st).chunks.Perm st.chunks := by
        intro l
        induction l with
        | nil => intro st; exact List.Perm.refl _
        | cons a l ih => intro st; exact (ih _).trans (refill_chunks st a)
      have h := this (List.range streams.length) ⟨streams, []⟩
      simpa [startScan, MState.chunks] using h
    have hstrflat : streams.flatten = (t.parts.map cut).flatten ++ m.toList := by
      rw [← hstr, List.flatten_append]
      congr 1
      cases m <;> simp
    obtain ⟨out, o1, o2⟩ := runScan_disjoint hp (mergeReplacing key drain size) _ _ hinv
      (Nat.le_refl _) ((hchunks.pairwise_iff (fun h => FirstDisjoint.symm h)).mpr
        (by rw [hstrflat]; exact hdis'))
    refine ⟨out, o1, ?_⟩
    intro k
    have hperm : (out.flatten.filter fun r => decide (key r = k)).Perm
        (latest key (inserted ops) k).toList := by
      rw [hins, ← hkey k, ← hblocks]
      apply List.Perm.filter
      have := (o2.trans hchunks).flatten
      rw [hstrflat, List.flatten_append] at this
      exact this
    generalize latest key (inserted ops) k = o at hperm
    cases o with
    | none => simpa using hperm
    | some x => simpa using hperm

/-- Two projects flushed separately, two versions of a key in one block. -/
example : ∃ t, ATbl.run (memChunk Prod.fst (sortRows Prod.fst) 2 true) ⟨[], []⟩
      [.insert ((1, 1), 0), .insert ((1, 1), 1), .flush, .insert (((2, 2), 2) : DRow)] = some t ∧
    t.scanR Prod.fst (sortRows Prod.fst) cutOne (pickMin Prod.fst) sortDrain 10 =
      some [[((1, 1), 1)], [((2, 2), 2)]] := ⟨_, rfl, by decide +kernel⟩

end OptiPrism.Storage
