import Verif.Platform.CompactAnswer
import Verif.Platform.ChartAnswerProps

/-!
# C157: answers in the compact format
-/

namespace OptiPrism.Platform

open OptiPrism.Meta (Str)
open OptiPrism.Query (Tbl averageAndSort limitGroups SortsDown MeanZero valuesOf cellOf)

/-- Spec: the values of the columns of an answer for a row of the table with its mean. -/
def compactHeads (s : ChartShape) (t : Tbl GCell) : List (List (Option GCell) × Int → Slot) :=
  (fun x => slotOf .int64 (cellOf t.fields x.1 kSegment)) :: (fun x => slotOf .ts (cellOf t.fields x.1 kDate)) ::
    (fun x => .dec (some x.2)) :: s.aggs.map fun c x => slotOf .dec (cellOf t.fields x.1 c.1)

/-- Spec: the columns show the rows, a missing number as zero. -/
def PresentsRows (hs : List (List (Option GCell) × Int → Slot)) (l : List (List (Option GCell) × Int)) (cols : List (List JOut)) : Prop :=
  cols.length = hs.length ∧ ∀ (i : Nat) h, hs[i]? = some h → ∃ col, cols[i]? = some col ∧ col.length = l.length ∧
    ∀ (j : Nat) x, l[j]? = some x → ∃ o, col[j]? = some o ∧ Written (h x).orZero o

/-- Spec: the rows of the table, each once, with the mean of its aggregates, from the largest mean on. -/
def RankedRows (s : ChartShape) (t : Tbl GCell) (l : List (List (Option GCell) × Int)) : Prop :=
  (l.map Prod.fst).Perm t.rows ∧ l.Pairwise (fun x y => x.2 ≥ y.2) ∧
    ∀ x ∈ l, MeanZero (s.aggs.map fun c => (cellOf t.fields x.1 c.1).map mantissaOf) x.2

/-- A table of aggregates that are decimals of at most 96 bits. -/
structure ChartShape.Decimals (s : ChartShape) (t : Tbl GCell) : Prop where
  fields : t.fields = s.fields
  apart : s.fields.Nodup
  average : kAverage ∉ s.fields
  length : ∀ r ∈ t.rows, r.length = t.fields.length
  vals : ∀ r ∈ t.rows, ∀ c ∈ s.aggs, ∀ v, cellOf t.fields r c.1 = some v → ∃ m, v = .dec m ∧ m.natAbs < 2 ^ 96

/-- C157 as stated, for charts: whatever the aggregates and the breakdowns are, there is an answer. -/
def C157_full : Prop := ∀ (sortIdx : List Int → List Nat) (kinds : List GKind) (s : ChartShape) (t : Tbl GCell), SortsDown sortIdx →
  t.fields = s.fields → s.fields.Nodup → (∀ r ∈ t.rows, r.length = t.fields.length) → s.aggs ≠ [] → kinds.length = s.aggs.length →
  ∃ cols, compactAnswer sortIdx kinds s t = .ok cols

/-! ## Charts -/

theorem dated_plain {s : ChartShape} (hb : s.breaks = []) (hd : kDate ∈ s.order) (hn : s.fields.Nodup) : s.dated = [kDate] := by
  have hn' : s.dated.Nodup := by
    have : s.fields = kSegment :: (s.dated ++ s.aggs.map Prod.fst) := rfl
    rw [this] at hn
    exact (List.nodup_append.mp (List.nodup_cons.mp hn).2).1
  have hall : ∀ f ∈ s.dated, f = kDate := by
    intro f hf
    have := (List.mem_filter.mp hf).2
    simpa [hb] using this
  have hmem : kDate ∈ s.dated := List.mem_filter.mpr ⟨hd, by simp⟩
  match h : s.dated with
  | [] => rw [h] at hmem; cases hmem
  | [a] => rw [hall a (by rw [h]; simp)]
  | a :: b :: l =>
    rw [h] at hn'
    have e : a = b := by rw [hall a (by rw [h]; simp), hall b (by rw [h]; simp)]
    exact absurd (by simp [e]) (List.nodup_cons.mp hn').1

theorem map_cellOf_self {α : Type} : ∀ {l : List Str} {v : List (Option α)}, l.Nodup → v.length = l.length → l.map (cellOf l v) = v := by
  intro l v hn hl
  apply List.ext_getElem?
  intro i
  rw [List.getElem?_map]
  by_cases h : i < l.length
  · rw [List.getElem?_eq_getElem h, List.getElem?_eq_getElem (hl ▸ h : i < v.length)]
    simp only [Option.map_some, Option.some.injEq]
    exact cellOf_at hn (List.getElem?_eq_getElem h) (List.getElem?_eq_getElem _)
  · rw [List.getElem?_eq_none (by omega), List.getElem?_eq_none (by omega)]
    rfl

/-- C157, for charts without breakdowns whose aggregates are decimals: the answer has the segment, the date, the mean and the aggregates of
every row of the table. Missing: other aggregates and breakdowns. -/
theorem C157_chart_partial {sortIdx : List Int → List Nat} (hs : SortsDown sortIdx) {kinds : List GKind} {s : ChartShape} {t : Tbl GCell}
    (hb : s.breaks = []) (hd : kDate ∈ s.order) (ha : s.aggs ≠ []) (hk : ∀ k ∈ kinds, k = .dec) (ht : s.Decimals t) (hrows : t.rows ≠ []) :
    ∃ cols l, compactAnswer sortIdx kinds s t = .ok cols ∧ RankedRows s t l ∧ PresentsRows (compactHeads s t) l cols := by
  have hdt := dated_plain hb hd ht.apart
  have hfs : s.fields = kSegment :: kDate :: s.aggs.map Prod.fst := by
    show kSegment :: (s.dated ++ s.aggs.map Prod.fst) = _
    rw [hdt]; rfl
  have hnar : s.compactFields = kSegment :: kDate :: kAverage :: s.aggs.map Prod.fst := by
    unfold ChartShape.compactFields
    rw [hdt]; rfl
  have hnd : (kSegment :: kDate :: s.aggs.map Prod.fst).Nodup := hfs ▸ ht.apart
  have hav := ht.average
  rw [hfs] at hav
  simp only [List.mem_cons, not_or] at hav
  have hnd2 : (kSegment :: kDate :: kAverage :: s.aggs.map Prod.fst).Nodup := by
    simp only [List.nodup_cons, List.mem_cons, not_or] at hnd ⊢
    exact ⟨⟨hnd.1.1, fun e => hav.1 e.symm, hnd.1.2⟩, ⟨fun e => hav.2.1 e.symm, hnd.2.1⟩, hav.2.2, hnd.2.2⟩
  -- a row
  have hrow : ∀ r ∈ t.rows, ∃ a b vs, r = a :: b :: vs ∧ vs.length = s.aggs.length ∧ cellOf t.fields r kSegment = a ∧ cellOf t.fields r kDate = b ∧
      s.aggs.map (fun c => cellOf t.fields r c.1) = vs ∧ ∀ c ∈ s.aggs, cellOf t.fields r c.1 = cellOf (s.aggs.map Prod.fst) vs c.1 := by
    intro r hr
    have hl := ht.length r hr
    rw [ht.fields, hfs] at hl
    match r, hl with
    | a :: b :: vs, hl =>
      have hl' : vs.length = s.aggs.length := by simpa using hl
      have hc : ∀ c ∈ s.aggs, cellOf t.fields (a :: b :: vs) c.1 = cellOf (s.aggs.map Prod.fst) vs c.1 := by
        intro c hc
        rw [ht.fields, hfs]
        have hm : c.1 ∈ s.aggs.map Prod.fst := List.mem_map.mpr ⟨c, hc, rfl⟩
        simp only [List.nodup_cons, List.mem_cons, not_or] at hnd
        have n1 : ¬ kSegment = c.1 := fun e => hnd.1.2 (e ▸ hm)
        have n2 : ¬ kDate = c.1 := fun e => hnd.2.1 (e ▸ hm)
        simp [cellOf, n1, n2]
      refine ⟨a, b, vs, rfl, hl', ?_, ?_, ?_, hc⟩
      · rw [ht.fields, hfs]; simp [cellOf]
      · rw [ht.fields, hfs]
        exact cellOf_at (i := 1) hnd rfl rfl
      · rw [List.map_congr_left hc]
        have := map_cellOf_self (v := vs) (List.nodup_cons.mp (List.nodup_cons.mp hnd).2).2 (by simpa using hl')
        rw [List.map_map] at this
        exact this
  have hval : ∀ r ∈ t.rows, valuesOf mantissaOf 2 r = s.aggs.map fun c => (cellOf t.fields r c.1).map mantissaOf := by
    intro r hr
    obtain ⟨a, b, vs, rfl, -, -, -, h4, -⟩ := hrow r hr
    unfold valuesOf
    show vs.map (fun c => c.map mantissaOf) = _
    conv => lhs; rw [← h4]
    rw [List.map_map]
    rfl
  obtain ⟨out, ho, l, h1, h2, h3, h4⟩ := OptiPrism.Query.C119_zero_partial (num := mantissaOf) (dec := GCell.dec) (groups := 2) (rows := t.rows) hs (by
    intro r hr
    rw [hval r hr]
    intro e
    exact ha (List.map_eq_nil_iff.mp e))
  have hmem : ∀ x ∈ l, x.1 ∈ t.rows := fun x hx => h1.mem_iff.mp (List.mem_map.mpr ⟨x, hx, rfl⟩)
  have hmean : ∀ x ∈ l, MeanZero (s.aggs.map fun c => (cellOf t.fields x.1 c.1).map mantissaOf) x.2 := fun x hx => hval x.1 (hmem x hx) ▸ h2 x hx
  have hlne : l ≠ [] := by
    rintro rfl
    exact hrows (h1.symm.eq_nil)
  have htab : compactTable sortIdx kinds s t = .ok out := by
    unfold compactTable
    rw [if_neg (by simpa using hrows), if_pos (by simpa using hk), hdt]
    show (match averageAndSort mantissaOf GCell.dec sortIdx 2 t.rows with | none => _ | some rows => _) = _
    rw [ho]
    rfl
  have hbreak : ∀ f, s.breakOf f = none := by intro f; unfold ChartShape.breakOf; rw [hb]; rfl
  -- the values of a column
  have hkey : (compactHeads s t).map (fun h => columnJson (l.map h)) =
      s.compactFields.map fun f => columnJson (out.map fun r => slotOf (s.compactKind f) (shownCell s s.compactFields r f)) := by
    have hcell : ∀ f r, shownCell s s.compactFields r f = cellOf s.compactFields r f := by
      intro f r
      unfold shownCell
      rw [hbreak f]
      exact OptiPrism.Query.find_cell _ _ _
    have hout : ∀ (f : Str) (h : List (Option GCell) × Int → Slot),
        (∀ x ∈ l, slotOf (s.compactKind f) (cellOf s.compactFields (x.1.take 2 ++ some (.dec x.2) :: x.1.drop 2) f) = h x) →
        columnJson (l.map h) = columnJson (out.map fun r => slotOf (s.compactKind f) (shownCell s s.compactFields r f)) := by
      intro f h hh
      rw [h4, List.map_map]
      congr 1
      refine List.map_congr_left fun x hx => ?_
      rw [← hh x hx]
      simp only [Function.comp_apply, hcell]
    have hkd : kDate ≠ kSegment := by
      intro e
      simp only [List.nodup_cons, List.mem_cons, not_or] at hnd
      exact hnd.1.1 e.symm
    conv => rhs; arg 2; rw [hnar]
    unfold compactHeads
    simp only [List.map_cons, List.map_map]
    refine List.cons_eq_cons.mpr ⟨hout _ _ fun x hx => ?_, List.cons_eq_cons.mpr ⟨hout _ _ fun x hx => ?_, List.cons_eq_cons.mpr ⟨hout _ _ fun x hx => ?_, ?_⟩⟩⟩
    · obtain ⟨a, b, vs, e, -, h6, -, -, -⟩ := hrow x.1 (hmem x hx)
      rw [h6, hnar, e]
      simp [ChartShape.compactKind, hbreak, cellOf]
    · obtain ⟨a, b, vs, e, -, -, h6, -, -⟩ := hrow x.1 (hmem x hx)
      rw [h6, hnar, e, cellOf_at (i := 1) (v := b) hnd2 rfl rfl]
      simp [ChartShape.compactKind, hbreak, hkd]
    · obtain ⟨a, b, vs, e, -, -, -, -, -⟩ := hrow x.1 (hmem x hx)
      rw [hnar, e, cellOf_at (i := 2) (v := some (.dec x.2)) hnd2 rfl rfl]
      simp [ChartShape.compactKind, hbreak, hav.1, hav.2.1, slotOf]
    · refine List.map_congr_left fun c hc => ?_
      refine hout _ _ fun x hx => ?_
      obtain ⟨a, b, vs, e, -, -, -, -, h6⟩ := hrow x.1 (hmem x hx)
      have hm : c.1 ∈ s.aggs.map Prod.fst := List.mem_map.mpr ⟨c, hc, rfl⟩
      simp only [List.nodup_cons, List.mem_cons, not_or] at hnd2
      have n1 : c.1 ≠ kSegment := fun e => hnd2.1.2.2 (e ▸ hm)
      have n2 : c.1 ≠ kDate := fun e => hnd2.2.1.2 (e ▸ hm)
      have n3 : c.1 ≠ kAverage := fun e => hnd2.2.2.1 (e ▸ hm)
      show _ = slotOf GKind.dec (cellOf t.fields x.1 c.1)
      rw [h6 c hc, hnar, e]
      have : cellOf (kSegment :: kDate :: kAverage :: s.aggs.map Prod.fst) (List.take 2 (a :: b :: vs) ++ some (GCell.dec x.2) :: List.drop 2 (a :: b :: vs)) c.1 =
          cellOf (s.aggs.map Prod.fst) vs c.1 := by
        simp [cellOf, n1.symm, n2.symm, n3.symm]
      rw [this]
      simp [ChartShape.compactKind, hbreak, n1, n2]
  have hfit : ∀ h ∈ compactHeads s t, ∀ x ∈ l, (h x).Fits := by
    intro h hh x hx
    have hcap : ∀ c ∈ s.aggs, ∀ v, cellOf t.fields x.1 c.1 = some v → ∃ m, v = .dec m ∧ m.natAbs < 2 ^ 96 := ht.vals x.1 (hmem x hx)
    unfold compactHeads at hh
    simp only [List.mem_cons, List.mem_map] at hh
    rcases hh with rfl | rfl | rfl | ⟨c, hc, rfl⟩
    · intro m hm
      beta_reduce at hm
      unfold slotOf at hm
      split at hm <;> first | (cases hm; done) | (rename_i e _; cases e; done) | (rename_i e; cases e)
    · intro m hm
      beta_reduce at hm
      unfold slotOf at hm
      split at hm <;> first | (cases hm; done) | (rename_i e _; cases e; done) | (rename_i e; cases e)
    · intro m hm
      simp only [Slot.dec.injEq, Option.some.injEq] at hm
      subst hm
      have := mean_bound (M := 2 ^ 96 - 1) (hmean x hx) (by
        intro v hv m hm
        obtain ⟨c, hc, rfl⟩ := List.mem_map.mp hv
        obtain ⟨w, hw, rfl⟩ := Option.map_eq_some_iff.mp hm
        obtain ⟨m', rfl, hm'⟩ := hcap c hc w hw
        show m'.natAbs ≤ _
        omega)
      omega
    · intro m hm
      beta_reduce at hm
      cases hv : cellOf t.fields x.1 c.1 with
      | none => rw [hv] at hm; cases hm
      | some v =>
        obtain ⟨m', rfl, hm'⟩ := hcap c hc v hv
        rw [hv] at hm
        cases hm
        exact hm'
  have hcol : ∀ h ∈ compactHeads s t, ∃ data, columnJson (l.map h) = some data ∧ data.length = l.length ∧
      ∀ (j : Nat) x, l[j]? = some x → ∃ o, data[j]? = some o ∧ Written (h x).orZero o := by
    intro h hh
    obtain ⟨data, hdat⟩ := mapM_isSome (f := slotJson) (l := l.map h) (by
      intro sl hsl
      obtain ⟨x, hx, rfl⟩ := List.mem_map.mp hsl
      obtain ⟨j, hj, _⟩ := slotJson_zero (hfit h hh x hx)
      exact ⟨j, hj⟩)
    refine ⟨data, hdat, by rw [mapM_length hdat, List.length_map], fun j x hj => ?_⟩
    obtain ⟨o, ho, hs⟩ := mapM_get hdat (i := j) (a := h x) (by rw [List.getElem?_map, hj]; rfl)
    obtain ⟨o', ho', hw⟩ := slotJson_zero (hfit h hh x (List.mem_of_getElem? hj))
    rw [hs] at ho'
    exact ⟨o, ho, Option.some.inj ho' ▸ hw⟩
  obtain ⟨cols, hcols⟩ := mapM_isSome (f := fun h => columnJson (l.map h)) (l := compactHeads s t) (fun h hh => by
    obtain ⟨data, hd, -⟩ := hcol h hh
    exact ⟨data, hd⟩)
  refine ⟨cols, l, ?_, ⟨h1, h3, hmean⟩, by rw [mapM_length hcols], fun i h hi => ?_⟩
  · have hm : (s.compactFields.mapM fun f => columnJson (out.map fun r => slotOf (s.compactKind f) (shownCell s s.compactFields r f))) = some cols := by
      have e1 : ∀ {α β : Type} (f : α → Option β) (l : List α), l.mapM f = (l.map f).mapM id := by
        intro α β f l
        induction l with
        | nil => rfl
        | cons a l ih => rw [List.map_cons, List.mapM_cons, List.mapM_cons, ih]; rfl
      rw [e1, ← hkey, ← e1]
      exact hcols
    unfold compactAnswer
    rw [htab]
    cases hout : out with
    | nil =>
      rw [h4] at hout
      exact absurd (List.map_eq_nil_iff.mp hout) hlne
    | cons r rs =>
      rw [hout] at hm
      simp only [hm]
  · obtain ⟨col, hc, hcj⟩ := mapM_get hcols hi
    obtain ⟨data, hd, h5, h6⟩ := hcol h (List.mem_of_getElem? hi)
    rw [hcj] at hd
    cases hd
    exact ⟨col, hc, h5, h6⟩

/-- Without rows there are no columns. -/
theorem C157_chart_empty (sortIdx : List Int → List Nat) (kinds : List GKind) (s : ChartShape) (t : Tbl GCell) (h : t.rows = []) :
    compactAnswer sortIdx kinds s t = .ok [] := by
  unfold compactAnswer compactTable
  rw [h]
  rfl

/-- C157 fails for charts: if an aggregate is not a decimal, as counts are not, the process panics. -/
theorem C157_counts_violated (sortIdx : List Int → List Nat) {kinds : List GKind} {s : ChartShape} {t : Tbl GCell} {k : GKind} (hk : k ∈ kinds)
    (hd : k ≠ .dec) (hrows : t.rows ≠ []) : compactAnswer sortIdx kinds s t = .error .panic := by
  unfold compactAnswer compactTable
  rw [if_neg (by simpa using hrows), if_neg (by
    simp only [List.all_eq_true, beq_iff_eq, Classical.not_forall]
    exact ⟨k, hk, hd⟩)]

/-- C157 fails for charts with breakdowns: if the date is not the last of the columns of groups, the process panics, whatever the
aggregates. -/
theorem C157_breakdowns_violated (sortIdx : List Int → List Nat) (kinds : List GKind) {s : ChartShape} {t : Tbl GCell} {pre post : List Str} {f : Str}
    (hd : s.dated = pre ++ kDate :: f :: post) (hrows : t.rows ≠ []) : compactAnswer sortIdx kinds s t = .error .panic := by
  unfold compactAnswer
  have : compactTable sortIdx kinds s t = .error .panic := by
    unfold compactTable
    rw [if_neg (by simpa using hrows)]
    split
    · cases averageAndSort mantissaOf GCell.dec sortIdx (s.dated.length - 1 + 2) t.rows with
      | none => rfl
      | some rows =>
        have hlen : s.dated.length = pre.length + 2 + post.length := by
          rw [hd]
          simp only [List.length_append, List.length_cons]
          omega
        dsimp only
        rw [if_neg (by omega), if_neg]
        intro h
        have := List.all_eq_true.mp h kDate (by
          refine List.mem_of_getElem? (i := pre.length) ?_
          rw [List.getElem?_take, if_pos (by omega), hd, List.getElem?_append_right (by omega)]
          simp)
        simp [ChartShape.rawKind, GKind.limited] at this
    · rfl
  rw [this]

theorem C157_violated : ¬ C157_full := by
  intro h
  have e1 : kSegment = "segment".toList := by unfold kSegment; rfl
  have e2 : kDate = "created_at".toList := by unfold kDate; rfl
  let s : ChartShape := ⟨"Buy".toList, [kDate], [], [("0_0_count".toList, "Count".toList)], []⟩
  let t : Tbl GCell := ⟨[kSegment, kDate, "0_0_count".toList], [[some (.int 0), some (.ts 5), some (.int 3)]]⟩
  have hf : s.fields = [kSegment, kDate, "0_0_count".toList] := by
    simp [s, ChartShape.fields]
  obtain ⟨cols, hc⟩ := h OptiPrism.Query.exSort [.int64] s t OptiPrism.Query.exSort_sorts hf.symm (by rw [hf, e1, e2]; decide) (by simp [t]) (by simp [s]) (by simp [s])
  rw [C157_counts_violated _ (k := .int64) (by simp) (by decide) (by simp [t])] at hc
  cases hc

/-- The sums of two rows, as in `C157_chart_partial`. -/
def exCompactShape : ChartShape := ⟨"Buy".toList, [kDate], [], [("0_0_agg".toList, "SUM(Price)".toList)], []⟩

/-- Their table. -/
def exCompactTable : Tbl GCell :=
  ⟨[kSegment, kDate, "0_0_agg".toList], [[some (.int 0), some (.ts 5), some (.dec 20000000000000000)], [some (.int 0), some (.ts 6), some (.dec 30000000000000000)]]⟩

example : exCompactShape.breaks = [] ∧ kDate ∈ exCompactShape.order ∧ exCompactShape.aggs ≠ [] ∧ exCompactShape.Decimals exCompactTable ∧ exCompactTable.rows ≠ [] := by
  have e1 : kSegment = "segment".toList := by unfold kSegment; rfl
  have e2 : kDate = "created_at".toList := by unfold kDate; rfl
  have e3 : kAverage = "Average".toList := by unfold kAverage; rfl
  have hf : exCompactShape.fields = [kSegment, kDate, "0_0_agg".toList] := by simp [exCompactShape, ChartShape.fields]
  refine ⟨rfl, by simp [exCompactShape], by simp [exCompactShape], ⟨hf.symm, by rw [hf, e1, e2]; decide, by rw [hf, e1, e2, e3]; decide, by simp [exCompactTable], ?_⟩,
    by simp [exCompactTable]⟩
  intro r hr c hc v hv
  simp only [exCompactShape, List.mem_singleton] at hc
  subst hc
  simp only [exCompactTable, List.mem_cons, List.not_mem_nil, or_false] at hr
  rw [exCompactTable, e1, e2] at hv
  rcases hr with rfl | rfl
  · have : v = .dec 20000000000000000 := by
      have h : some (GCell.dec 20000000000000000) = some v := hv
      exact (Option.some.inj h).symm
    exact ⟨_, this, by decide⟩
  · have : v = .dec 30000000000000000 := by
      have h : some (GCell.dec 30000000000000000) = some v := hv
      exact (Option.some.inj h).symm
    exact ⟨_, this, by decide⟩

/-- What such an answer looks like: the later date has the larger sum. -/
example : compactAnswer OptiPrism.Query.exSort [.dec] exCompactShape exCompactTable =
    .ok [[.num (.int 0), .num (.int 0)], [.num (.int 6), .num (.int 5)], [.num (.dec 3000), .num (.dec 2000)], [.num (.dec 3000), .num (.dec 2000)]] := by
  unfold exCompactShape exCompactTable compactAnswer compactTable ChartShape.compactFields ChartShape.compactKind ChartShape.dated kSegment kDate kAverage
  decide +kernel

/-- As in `C157_breakdowns_violated`: the date comes before the country. -/
example : (⟨"Buy".toList, [kDate, "country".toList], [⟨"country".toList, "Country".toList, .str, id, .str⟩], [("0_0_agg".toList, "SUM(Price)".toList)], []⟩ : ChartShape).dated =
    [] ++ kDate :: "country".toList :: [] := by
  unfold ChartShape.dated kDate
  decide +kernel

/-! ## Searches -/

/-- C157 for searches: the compact answer is the values of the columns of the other, in their order, and the one fails where the other
does. -/
theorem C157_search (l : List FoundColumn) : columnsCompact l = (columnsJson l).map fun cols => cols.map (·.data) := by
  unfold columnsCompact columnsJson
  induction l with
  | nil => rfl
  | cons c l ih =>
    rw [List.mapM_cons, List.mapM_cons, ih]
    cases columnJson c.data with
    | none => rfl
    | some d =>
      cases l.mapM fun c => (columnJson c.data).map fun d => (⟨c.name, c.metric, d⟩ : AnswerCol) with
      | none => rfl
      | some cs => rfl

end OptiPrism.Platform
