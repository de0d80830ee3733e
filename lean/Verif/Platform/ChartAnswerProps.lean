import Verif.Platform.ChartAnswerLemmas

/-!
# What the answer to a chart shows (C140)
-/

namespace OptiPrism.Platform

open OptiPrism.Meta (Str)
open OptiPrism.Query (Tbl Name PErr cellOf restOf resultTable renameRow averageAndSort limitGroups MeanZero SortsDown valuesOf)

/-! ## Specification -/

/-- Spec: two rows of the table of aggregates are of the same segment and the same values of the breakdowns. -/
def SameGroup (s : ChartShape) (t : Tbl GCell) (r r' : List (Option GCell)) : Prop :=
  ∀ f ∈ kSegment :: s.groups, cellOf t.fields r f = cellOf t.fields r' f

/-- Spec: what the table says of the aggregate `c` of the group of row `r` at the moment `d`. -/
def ChartValue (s : ChartShape) (t : Tbl GCell) (r : List (Option GCell)) (c : Str) (d : Int) : Option Int → Prop
  | some m => ∃ r' ∈ t.rows, SameGroup s t r r' ∧ cellOf t.fields r' kDate = some (.ts d) ∧ (cellOf t.fields r' c).bind decimalOf = some m
  | none => ∀ r' ∈ t.rows, SameGroup s t r r' → cellOf t.fields r' kDate ≠ some (.ts d)

/-- A line of the answer: the group (as a row of the table), the aggregate and its label, the average and the values. -/
structure ChartRow where
  row : List (Option GCell)
  agg : Str
  label : Str
  mean : Int
  vals : List (Option Int)

/-- Spec: the line is right. -/
structure ChartRow.Of (s : ChartShape) (t : Tbl GCell) (e : ChartRow) : Prop where
  row : e.row ∈ t.rows
  agg : (e.agg, e.label) ∈ s.aggs
  length : e.vals.length = s.dates.length
  vals : ∀ (i : Nat) d, s.dates[i]? = some d → ∃ v, e.vals[i]? = some v ∧ ChartValue s t e.row e.agg d v
  mean : MeanZero e.vals e.mean

/-- Spec: a column of the answer: the column it comes from, its name, whether it is a value, its type and its cells. -/
structure Head where
  field : Str
  name : Str
  metric : Bool
  kind : GKind
  cell : ChartRow → Option GCell

/-- Spec: the columns of the answer: the event, the segment, the breakdowns in the order of the request, the label, the average and the
moments. -/
def ChartShape.heads (number : Nat → Str) (stamp : Int → Str) (s : ChartShape) (t : Tbl GCell) : List Head :=
  [⟨kEventName, kEventShown, false, .str, fun _ => some (.str s.event)⟩, ⟨kSegment, kSegmentShown, false, .int64, fun e => cellOf t.fields e.row kSegment⟩] ++
  ((s.first.zip (shownNames number [] s.first)).map fun x => ⟨x.1.col, x.2.2, false, x.1.shown, fun e => x.1.decode (cellOf t.fields e.row x.1.col)⟩) ++
  [⟨kAggName, kFormula, false, .str, fun e => some (.str e.label)⟩, ⟨kAverage, kAverage, false, .dec, fun e => some (.dec e.mean)⟩] ++
  s.dates.zipIdx.map fun d => ⟨stamp d.1, stamp d.1, true, .dec, fun e => (e.vals[d.2]?.getD none).map GCell.dec⟩

/-- The columns of the chart can be told apart, and the types of its breakdowns are known to the limit. -/
structure ChartShape.Apart (stamp : Int → Str) (s : ChartShape) : Prop where
  fields : s.fields.Nodup
  wide : (s.wide stamp).Nodup
  date : kDate ∈ s.order
  cols : ∀ b ∈ s.breaks, b.col ∈ s.order ∧ b.col ≠ kDate
  known : ∀ b ∈ s.breaks, b.kind = .int64 ∨ b.kind = .dec ∨ b.kind = .str
  aggs : s.aggs ≠ []

/-- And so can the names of the columns in the answer. -/
structure ChartShape.Proper (number : Nat → Str) (stamp : Int → Str) (s : ChartShape) : Prop extends s.Apart stamp where
  names : ∀ n ∈ [kEventShown, kSegmentShown, kFormula] ++ (shownNames number [] s.first).map Prod.snd, n ∉ s.dateCols stamp

/-- The table has one row for a group and a moment, of a moment of the chart, and its values can be written. -/
structure ChartShape.Tabled (s : ChartShape) (t : Tbl GCell) : Prop where
  fields : t.fields = s.fields
  length : ∀ r ∈ t.rows, r.length = t.fields.length
  dates : ∀ r ∈ t.rows, ∃ d ∈ s.dates, cellOf t.fields r kDate = some (.ts d)
  vals : ∀ r ∈ t.rows, ∀ c ∈ s.aggs, ∃ m, (cellOf t.fields r c.1).bind decimalOf = some m ∧ m.natAbs < 2 ^ 96
  once : t.rows.Pairwise fun r r' => ¬(SameGroup s t r r' ∧ cellOf t.fields r kDate = cellOf t.fields r' kDate)
  fits : ∀ r ∈ t.rows, ∀ b ∈ s.breaks, (slotOf b.shown (b.decode (cellOf t.fields r b.col))).Fits

/-- The group and the aggregate, as the pivot hashes them. -/
def ChartShape.key (s : ChartShape) (t : Tbl GCell) (r : List (Option GCell)) (c : Str) : List (Option GCell) :=
  (kSegment :: s.groups).map (cellOf t.fields r) ++ [some (.str c)]

/-- Spec: no value of a breakdown has more than fifty lines. -/
def ChartShape.Few (s : ChartShape) (t : Tbl GCell) : Prop :=
  ∀ f ∈ s.groups, ∀ v, ∀ M : List (List (Option GCell) × Str), M.Pairwise (fun x y => ¬(SameGroup s t x.1 y.1 ∧ x.2 = y.2)) →
    (∀ x ∈ M, x.1 ∈ t.rows ∧ x.2 ∈ s.aggs.map Prod.fst ∧ cellOf t.fields x.1 f = v) → M.length ≤ 50

/-- Spec: the columns `cols` show the lines `L`. A number that is missing is shown as zero. -/
def Presents (hs : List Head) (L : List ChartRow) (cols : List AnswerCol) : Prop :=
  cols.length = hs.length ∧ ∀ (i : Nat) h, hs[i]? = some h → ∃ col, cols[i]? = some col ∧ col.name = h.name ∧ col.metric = h.metric ∧
    col.data.length = L.length ∧ ∀ (j : Nat) e, L[j]? = some e → ∃ o, col.data[j]? = some o ∧ Written (slotOf h.kind (h.cell e)).orZero o

/-! ## Proof -/

section

variable {number : Nat → Str} {stamp : Int → Str} {s : ChartShape} {t : Tbl GCell}

theorem sameGroup_iff {r r' : List (Option GCell)} :
    SameGroup s t r r' ↔ (kSegment :: s.groups).map (cellOf t.fields r) = (kSegment :: s.groups).map (cellOf t.fields r') := by
  unfold SameGroup
  rw [List.map_inj_left]

theorem ChartShape.key_inj {r r' : List (Option GCell)} {c c' : Str} : s.key t r c = s.key t r' c' ↔ SameGroup s t r r' ∧ c = c' := by
  unfold ChartShape.key
  rw [sameGroup_iff]
  constructor
  · intro h
    obtain ⟨h1, h2⟩ := List.append_inj' h rfl
    exact ⟨h1, by simpa using h2⟩
  · rintro ⟨h1, rfl⟩
    rw [h1]

theorem ChartShape.mem_groups {f : Str} (h : f ∈ s.groups) : f ∈ s.order ∧ f ≠ kDate ∧ ∃ b ∈ s.breaks, b.col = f := by
  unfold ChartShape.groups at h
  simpa using h

theorem ChartShape.Apart.restOf_key (hp : s.Apart stamp) (ht : t.fields = s.fields) (r : List (Option GCell)) :
    restOf kDate (s.aggs.map Prod.fst) t.fields r = (kSegment :: s.groups).map (cellOf t.fields r) := by
  unfold restOf
  congr 1
  rw [ht]
  have hn := hp.fields
  unfold ChartShape.fields at hn ⊢
  rw [List.cons_append, List.nodup_cons, List.nodup_append] at hn
  obtain ⟨h1, h2, h3, h4⟩ := hn
  have hd : kDate ∈ s.order.filter fun f => f == kDate || s.breaks.any fun b => b.col == f := by
    simp [hp.date]
  rw [List.cons_append, List.filter_cons_of_pos, List.filter_append]
  · congr 1
    rw [List.filter_eq_nil_iff (l := s.aggs.map Prod.fst) |>.mpr, List.append_nil, List.filter_filter]
    · unfold ChartShape.groups
      refine List.filter_congr fun f hf => ?_
      by_cases e : f = kDate
      · simp [e]
      · cases hb : s.breaks.any fun b => b.col == f with
        | false => simp [e, hb]
        | true =>
          have : f ∉ s.aggs.map Prod.fst := fun hm => h4 f (by simp only [List.mem_filter]; exact ⟨hf, by simp [hb]⟩) f hm rfl
          simp [hb, this, bne, -List.mem_map]
    · intro f hf
      simp only [Bool.and_eq_true, Bool.not_eq_true', not_and, Bool.not_eq_false]
      intro _
      simpa using hf
  · simp only [List.mem_append, not_or] at h1
    have e1 : kSegment ≠ kDate := fun e => h1.1 (e ▸ hd)
    simp [e1, h1.2, -List.mem_map]

theorem ChartShape.Apart.aggs_nodup (hp : s.Apart stamp) : (s.aggs.map Prod.fst).Nodup := by
  have hn := hp.fields
  unfold ChartShape.fields at hn
  exact (List.nodup_append.mp hn).2.1

theorem ChartShape.Apart.date_agg (hp : s.Apart stamp) : kDate ∉ s.aggs.map Prod.fst := by
  have hn := hp.fields
  unfold ChartShape.fields at hn
  intro h
  exact (List.nodup_append.mp hn).2.2 kDate (by simp [hp.date]) kDate h rfl

/-- The value of a row. -/
def rowValue (t : Tbl GCell) (r : List (Option GCell)) (c : Str) : Int := ((cellOf t.fields r c).bind decimalOf).getD 0

/-- The values of a line, as the pivot finds them. -/
def lineValues (stamp : Int → Str) (s : ChartShape) (t : Tbl GCell) (r : List (Option GCell)) (c : Str) : List (Option Int) :=
  s.dates.map fun d => (t.rows.find? fun r' => decide ((kSegment :: s.groups).map (cellOf t.fields r') = (kSegment :: s.groups).map (cellOf t.fields r) ∧
    dateName stamp (cellOf t.fields r' kDate) = stamp d)).map fun r' => rowValue t r' c

theorem lineValues_spec (ht : s.Tabled t) (hst : ∀ d ∈ s.dates, ∀ d' ∈ s.dates, stamp d = stamp d' → d = d') {r : List (Option GCell)} {c : Str × Str} (hc : c ∈ s.aggs) :
    (∀ (i : Nat) d, s.dates[i]? = some d → ∃ v, (lineValues stamp s t r c.1)[i]? = some v ∧ ChartValue s t r c.1 d v) ∧
    ∀ v ∈ lineValues stamp s t r c.1, ∀ m, v = some m → m.natAbs < 2 ^ 96 := by
  refine ⟨fun i d hd => ?_, fun v hv m hm => ?_⟩
  · refine ⟨_, by unfold lineValues; rw [List.getElem?_map, hd]; rfl, ?_⟩
    have hdm := List.mem_of_getElem? hd
    beta_reduce
    cases hf : t.rows.find? fun r' => decide ((kSegment :: s.groups).map (cellOf t.fields r') = (kSegment :: s.groups).map (cellOf t.fields r) ∧
        dateName stamp (cellOf t.fields r' kDate) = stamp d) with
    | none =>
      rw [Option.map_none]
      intro r' hr' hg hd'
      rw [List.find?_eq_none] at hf
      refine hf r' hr' (decide_eq_true ⟨(sameGroup_iff.mp hg).symm, ?_⟩)
      rw [hd']
      rfl
    | some r' =>
      rw [Option.map_some]
      have hr' := List.mem_of_find?_eq_some hf
      have hdec := List.find?_some hf
      obtain ⟨h1, h2⟩ := of_decide_eq_true hdec
      obtain ⟨d', hd', e⟩ := ht.dates r' hr'
      obtain ⟨m, hm, _⟩ := ht.vals r' hr' c hc
      refine ⟨r', hr', sameGroup_iff.mpr h1.symm, ?_, ?_⟩
      · rw [e] at h2 ⊢
        rw [hst d' hd' d hdm h2]
      · unfold rowValue
        rw [hm]
        rfl
  · unfold lineValues at hv
    obtain ⟨d, hd, e⟩ := List.mem_map.mp hv
    rw [hm, Option.map_eq_some_iff] at e
    obtain ⟨r', hf, e⟩ := e
    obtain ⟨m', hm', hb⟩ := ht.vals r' (List.mem_of_find?_eq_some hf) c hc
    unfold rowValue at e
    rw [hm'] at e
    rw [← e]
    exact hb

/-- The cells of a line in the table. -/
def ChartRow.cells (s : ChartShape) (t : Tbl GCell) (e : ChartRow) : List (Option GCell) :=
  ((kSegment :: s.groups).map (cellOf t.fields e.row) ++ [some (.str e.label)]) ++ some (.dec e.mean) :: e.vals.map fun v => v.map GCell.dec

theorem cells_groups (e : ChartRow) : ((e.cells s t).drop 1).take s.groups.length = s.groups.map (cellOf t.fields e.row) := by
  unfold ChartRow.cells
  rw [List.map_cons, List.cons_append, List.cons_append, List.drop_one, List.tail_cons, List.append_assoc,
    List.take_append_of_le_length (by simp), List.take_of_length_le (by simp)]

theorem few_lines {L : List ChartRow} (hL : ∀ e ∈ L, e.Of s t) (hd : (L.map fun e => s.key t e.row e.agg).Nodup) (hf : s.Few t) {f : Str} (h : f ∈ s.groups)
    (v : Option GCell) : (L.filter fun e => decide (cellOf t.fields e.row f = v)).length ≤ 50 := by
  have := hf f h v ((L.filter fun e => decide (cellOf t.fields e.row f = v)).map fun e => (e.row, e.agg)) ?_ ?_
  · simpa using this
  · rw [List.pairwise_map]
    unfold List.Nodup at hd
    rw [List.pairwise_map] at hd
    refine (hd.sublist List.filter_sublist).imp fun {a b} hn => ?_
    rw [← ChartShape.key_inj]
    exact hn
  · intro x hx
    obtain ⟨e, he, rfl⟩ := List.mem_map.mp hx
    obtain ⟨he, hv⟩ := List.mem_filter.mp he
    exact ⟨(hL e he).row, List.mem_map_of_mem (hL e he).agg, of_decide_eq_true hv⟩

/-- The lines left by the limit. -/
theorem limited_lines {L : List ChartRow} (hL : ∀ e ∈ L, e.Of s t) (hne : L ≠ []) (hd : (L.map fun e => s.key t e.row e.agg).Nodup) :
    ∃ L' : List ChartRow, (limitGroups s.groups.length (fun r => (r.drop 1).take s.groups.length) 50 [L.map (ChartRow.cells s t)]).flatten = L'.map (ChartRow.cells s t) ∧
      L'.Sublist L ∧ L' ≠ [] ∧ (s.Few t → L' = L) ∧
      ∀ f ∈ s.groups, ∀ v, (L'.filter fun e => decide (cellOf t.fields e.row f = v)).length ≤ 50 := by
  by_cases h0 : s.groups.length = 0
  · refine ⟨L, ?_, List.Sublist.refl _, hne, fun _ => rfl, fun f hf => ?_⟩
    · unfold limitGroups
      simp [h0]
    · rw [List.length_eq_zero_iff] at h0
      rw [h0] at hf
      cases hf
  · have hcell : ∀ (L0 : List ChartRow) (j : Nat) f v, s.groups[j]? = some f →
        ((L0.map (ChartRow.cells s t)).filter fun r => decide (((r.drop 1).take s.groups.length)[j]? = some v)).length =
          (L0.filter fun e => decide (cellOf t.fields e.row f = v)).length := by
      intro L0 j f v hj
      rw [List.filter_map, List.length_map]
      congr 1
      refine List.filter_congr fun e _ => ?_
      show decide ((((e.cells s t).drop 1).take s.groups.length)[j]? = some v) = _
      rw [cells_groups, List.getElem?_map, hj]
      simp
    have hout : (limitGroups s.groups.length (fun r => (r.drop 1).take s.groups.length) 50 [L.map (ChartRow.cells s t)]).flatten =
        OptiPrism.Query.limitRows (fun r : List (Option GCell) => (r.drop 1).take s.groups.length) 50 (fun _ _ => 0) (L.map (ChartRow.cells s t)) := by
      unfold limitGroups
      rw [List.map_cons, if_neg h0]
      simp
    rw [hout]
    have hmost : ∀ L' : List ChartRow, OptiPrism.Query.limitRows (fun r : List (Option GCell) => (r.drop 1).take s.groups.length) 50 (fun _ _ => 0) (L.map (ChartRow.cells s t)) =
        L'.map (ChartRow.cells s t) → ∀ f ∈ s.groups, ∀ v, (L'.filter fun e => decide (cellOf t.fields e.row f = v)).length ≤ 50 := by
      intro L' hL' f hf v
      obtain ⟨j, hj⟩ := List.getElem?_of_mem hf
      rw [← hcell L' j f v hj, ← hL']
      have := (OptiPrism.Query.limitRows_bound (fun r : List (Option GCell) => (r.drop 1).take s.groups.length) 50 j v (L.map (ChartRow.cells s t))
        (fun _ _ => 0) (fun _ _ => Nat.zero_le _)).1
      omega
    by_cases hf : s.Few t
    · have hall : OptiPrism.Query.limitRows (fun r : List (Option GCell) => (r.drop 1).take s.groups.length) 50 (fun _ _ => 0) (L.map (ChartRow.cells s t)) =
          L.map (ChartRow.cells s t) := by
        refine limitRows_all _ _ _ _ ?_
        rintro j v ⟨r, hr, hv⟩
        obtain ⟨e, he, rfl⟩ := List.mem_map.mp hr
        rw [cells_groups, List.getElem?_map, Option.map_eq_some_iff] at hv
        obtain ⟨f, hj, _⟩ := hv
        rw [hcell L j f v hj]
        have := few_lines hL hd hf (List.mem_of_getElem? hj) v
        omega
      exact ⟨L, hall, List.Sublist.refl _, hne, fun _ => rfl, hmost L hall⟩
    · have hsub := (OptiPrism.Query.limitRows_bound (fun r : List (Option GCell) => (r.drop 1).take s.groups.length) 50 0 none (L.map (ChartRow.cells s t))
        (fun _ _ => 0) (fun _ _ => Nat.zero_le _)).2
      obtain ⟨L', h1, h2⟩ := List.sublist_map_iff.mp hsub
      refine ⟨L', h2, h1, ?_, fun h => absurd h hf, hmost L' h2⟩
      rintro rfl
      exact limitRows_first _ (by omega) (by simpa using hne) h2

/-- The lines of the table. -/
theorem chartTableWith_lines {labels : List (Str × Str)} (hln : (labels.map Prod.fst).Nodup) (hls : ∀ c ∈ s.aggs, c ∈ labels) (B : Nat) (hB : 1 ≤ B) (h : List (Option GCell) → Nat) {sortIdx : List Int → List Nat} (hs : SortsDown sortIdx)
    (hp : s.Apart stamp) (ht : s.Tabled t) (hst : ∀ d ∈ s.dates, ∀ d' ∈ s.dates, stamp d = stamp d' → d = d')
    (hinj : ∀ r ∈ t.rows, ∀ c ∈ s.aggs, ∀ r' ∈ t.rows, ∀ c' ∈ s.aggs, h (s.key t r c.1) = h (s.key t r' c'.1) → s.key t r c.1 = s.key t r' c'.1)
    (hsmall : ∃ ks : List (List (Option GCell)), ks.length ≤ 2 * B ∧ ∀ r ∈ t.rows, ∀ c ∈ s.aggs, s.key t r c.1 ∈ ks) (hrows : t.rows ≠ []) :
    ∃ L : List ChartRow, chartTableWith labels B h sortIdx stamp s t = .ok (L.map (ChartRow.cells s t)) ∧ L ≠ [] ∧ (∀ e ∈ L, e.Of s t) ∧
      (∀ e ∈ L, ∀ v ∈ e.vals, ∀ m, v = some m → m.natAbs < 2 ^ 96) ∧
      L.Pairwise (fun e e' => ¬(SameGroup s t e.row e'.row ∧ e.agg = e'.agg)) ∧ L.Pairwise (fun e e' => e.mean ≥ e'.mean) ∧
      (s.Few t → ∀ r ∈ t.rows, ∀ c ∈ s.aggs, ∃ e ∈ L, SameGroup s t e.row r ∧ (e.agg, e.label) = c) ∧
      ∀ f ∈ s.groups, ∀ v, (L.filter fun e => decide (cellOf t.fields e.row f = v)).length ≤ 50 := by
  have hrest := fun r => ChartShape.Apart.restOf_key (t := t) hp ht.fields r
  have hkey : ∀ r c, restOf kDate (s.aggs.map Prod.fst) t.fields r ++ [some (GCell.str c)] = s.key t r c := fun r c => by rw [hrest]; rfl
  have hdate : ∀ r ∈ t.rows, ∀ r' ∈ t.rows, dateName stamp (cellOf t.fields r kDate) = dateName stamp (cellOf t.fields r' kDate) →
      cellOf t.fields r kDate = cellOf t.fields r' kDate := by
    intro r hr r' hr' e
    obtain ⟨d, hd, e1⟩ := ht.dates r hr
    obtain ⟨d', hd', e2⟩ := ht.dates r' hr'
    rw [e1, e2] at e ⊢
    rw [hst d hd d' hd' e]
  have honce : t.rows.Pairwise fun a b => ¬(restOf kDate (s.aggs.map Prod.fst) t.fields a = restOf kDate (s.aggs.map Prod.fst) t.fields b ∧
      dateName stamp (cellOf t.fields a kDate) = dateName stamp (cellOf t.fields b kDate)) := by
    refine List.Pairwise.imp_of_mem ?_ ht.once
    rintro a b ha hb hn ⟨h1, h2⟩
    rw [hrest, hrest] at h1
    exact hn ⟨sameGroup_iff.mpr h1, hdate a ha b hb h2⟩
  obtain ⟨ks, hk1, hk2⟩ := hsmall
  obtain ⟨out, h1, h2, h3, h4⟩ := OptiPrism.Query.C87_partial B hB h decimalOf (dateName stamp) GCell.str (fun a b e => by injection e) kDate
    (s.aggs.map Prod.fst) (s.dateCols stamp) t (ht.fields ▸ hp.fields) (by
      rw [ht.fields]
      unfold ChartShape.fields
      exact List.sublist_append_right _ _)
    (by simpa using hp.aggs) (by
      rw [ht.fields]
      unfold ChartShape.fields
      simp [hp.date]) hp.date_agg ht.length (rowValue t) (by
      intro r hr c hc
      obtain ⟨x, hx, rfl⟩ := List.mem_map.mp hc
      obtain ⟨m, hm, _⟩ := ht.vals r hr x hx
      unfold rowValue
      rw [hm]
      rfl) honce (by
      intro r hr
      obtain ⟨d, hd, e⟩ := ht.dates r hr
      rw [e]
      exact List.mem_map_of_mem hd)
    (by
      intro r hr c hc r' hr' c' hc' e
      obtain ⟨x, hx, rfl⟩ := List.mem_map.mp hc
      obtain ⟨x', hx', rfl⟩ := List.mem_map.mp hc'
      rw [hkey, hkey] at e ⊢
      exact hinj r hr x hx r' hr' x' hx' e)
    ⟨ks, hk1, by
      intro r hr c hc
      obtain ⟨x, hx, rfl⟩ := List.mem_map.mp hc
      rw [hkey]
      exact hk2 r hr x hx⟩
  have hval : ∀ r c, ((s.dateCols stamp).map fun d => (t.rows.find? fun r' => decide (restOf kDate (s.aggs.map Prod.fst) t.fields r' =
      restOf kDate (s.aggs.map Prod.fst) t.fields r ∧ dateName stamp (cellOf t.fields r' kDate) = d)).map fun r' => rowValue t r' c) = lineValues stamp s t r c := by
    intro r c
    unfold lineValues ChartShape.dateCols
    rw [List.map_map]
    refine List.map_congr_left fun d _ => ?_
    simp only [Function.comp, hrest]
  -- the rows of the pivot
  obtain ⟨full, hfull⟩ : ∃ full : List {x : List (Option GCell) × (Str × Str) // x.1 ∈ t.rows ∧ x.2 ∈ s.aggs},
      out = full.map fun x => (s.key t x.1.1 x.1.2.1, lineValues stamp s t x.1.1 x.1.2.1) := by
    refine eq_map_of _ fun o ho => ?_
    obtain ⟨r, hr, c, hc, e⟩ := h3 o ho
    obtain ⟨x, hx, rfl⟩ := List.mem_map.mp hc
    refine ⟨⟨(r, x), hr, hx⟩, ?_⟩
    have hm := h2 r hr x.1 hc
    rw [hval, ← e] at hm
    rw [← hkey, ← e]
    obtain ⟨i, hi⟩ := List.getElem?_of_mem ho
    obtain ⟨j, hj⟩ := List.getElem?_of_mem hm
    have hi' : (out.map Prod.fst)[i]? = some o.1 := by rw [List.getElem?_map, hi]; rfl
    have hj' : (out.map Prod.fst)[j]? = some o.1 := by rw [List.getElem?_map, hj]; rfl
    have hij : i = j := (List.getElem?_inj (List.getElem?_eq_some_iff.mp hi').1 h4).mp (hi'.trans hj'.symm)
    rw [← hij, hi] at hj
    exact Option.some.inj hj
  have hone : out ≠ [] := by
    obtain ⟨r, hr⟩ := List.exists_mem_of_ne_nil _ hrows
    obtain ⟨c, hc⟩ := List.exists_mem_of_ne_nil _ hp.aggs
    exact List.ne_nil_of_mem (h2 r hr c.1 (List.mem_map_of_mem hc))
  have hlab : ∀ x : {x : List (Option GCell) × (Str × Str) // x.1 ∈ t.rows ∧ x.2 ∈ s.aggs},
      relabel labels (s.key t x.1.1 x.1.2.1, lineValues stamp s t x.1.1 x.1.2.1) =
        ((kSegment :: s.groups).map (cellOf t.fields x.1.1) ++ [some (.str x.1.2.2)]) ++ (lineValues stamp s t x.1.1 x.1.2.1).map fun v => v.map GCell.dec := by
    intro x
    unfold relabel ChartShape.key
    rw [List.dropLast_concat, List.getLast?_concat]
    simp only
    rw [(OptiPrism.Query.C88_rename labels hln).1 x.1.2.1 x.1.2.2 (hls _ x.2.2)]
    rfl
  have hdates : s.dates ≠ [] := by
    obtain ⟨r, hr⟩ := List.exists_mem_of_ne_nil _ hrows
    obtain ⟨d, hd, _⟩ := ht.dates r hr
    exact List.ne_nil_of_mem hd
  have hvals : ∀ x : {x : List (Option GCell) × (Str × Str) // x.1 ∈ t.rows ∧ x.2 ∈ s.aggs},
      valuesOf mantissaOf (s.groups.length + 2) (relabel labels (s.key t x.1.1 x.1.2.1, lineValues stamp s t x.1.1 x.1.2.1)) = lineValues stamp s t x.1.1 x.1.2.1 := by
    intro x
    rw [hlab]
    unfold valuesOf
    rw [List.drop_append, List.drop_eq_nil_of_le (by simp), List.nil_append,
      show s.groups.length + 2 - ((kSegment :: s.groups).map (cellOf t.fields x.1.1) ++ [some (GCell.str x.1.2.2)]).length = 0 by simp,
      List.drop_zero, List.map_map]
    conv => rhs; rw [← List.map_id (lineValues stamp s t x.1.1 x.1.2.1)]
    refine List.map_congr_left fun v _ => ?_
    cases v <;> rfl
  obtain ⟨rows, h5, l, h6, h7, h8, h9⟩ := OptiPrism.Query.C119_zero_partial (num := mantissaOf) (dec := GCell.dec) (groups := s.groups.length + 2)
    (rows := out.map (relabel labels)) hs (by
      intro r hr
      rw [hfull, List.map_map] at hr
      obtain ⟨x, hx, rfl⟩ := List.mem_map.mp hr
      show valuesOf _ _ (relabel labels _) ≠ []
      rw [hvals]
      unfold lineValues
      simpa using hdates)
  rw [hfull, List.map_map] at h6
  obtain ⟨L0, h10, h11⟩ := perm_map _ h6 full rfl
  obtain ⟨L1, h12, h13⟩ := lift_pairs _ h11
  -- the lines
  obtain ⟨L, hLdef⟩ : ∃ L : List ChartRow, L = L1.map fun y => ⟨y.1.1.1, y.1.1.2.1, y.1.1.2.2, y.2, lineValues stamp s t y.1.1.1 y.1.1.2.1⟩ := ⟨_, rfl⟩
  have hrowsL : rows = L.map (ChartRow.cells s t) := by
    rw [h9, h13, hLdef, List.map_map, List.map_map]
    refine List.map_congr_left fun y _ => ?_
    show (relabel labels _).take _ ++ some (GCell.dec y.2) :: (relabel labels _).drop _ = _
    rw [hlab, List.take_left' (by simp), List.drop_left' (by simp)]
    rfl
  have hof : ∀ e ∈ L, e.Of s t := by
    intro e he
    rw [hLdef] at he
    obtain ⟨y, hy, rfl⟩ := List.mem_map.mp he
    refine ⟨y.1.2.1, y.1.2.2, by simp [lineValues], (lineValues_spec ht hst y.1.2.2).1, ?_⟩
    have := h7 (relabel labels (s.key t y.1.1.1 y.1.1.2.1, lineValues stamp s t y.1.1.1 y.1.1.2.1), y.2) (by
      rw [h13]
      exact List.mem_map.mpr ⟨y, hy, rfl⟩)
    rw [hvals] at this
    exact this
  have hdist : (L.map fun e => s.key t e.row e.agg).Nodup := by
    have e1 : L.map (fun e => s.key t e.row e.agg) = L0.map fun x => s.key t x.1.1 x.1.2.1 := by
      rw [hLdef, ← h12, List.map_map, List.map_map]
      rfl
    rw [e1]
    have e2 : out.map Prod.fst = full.map fun x => s.key t x.1.1 x.1.2.1 := by
      rw [hfull, List.map_map]
      rfl
    rw [e2] at h4
    exact ((h10.map _).nodup_iff).mpr h4
  have hLne : L ≠ [] := by
    intro e
    rw [hLdef, List.map_eq_nil_iff] at e
    rw [e] at h12
    rw [← h12] at h10
    have := h10.symm.eq_nil
    rw [this] at hfull
    exact hone hfull
  have hcomp : ∀ r ∈ t.rows, ∀ c ∈ s.aggs, ∃ e ∈ L, SameGroup s t e.row r ∧ (e.agg, e.label) = c := by
    intro r hr c hc
    have hm := h2 r hr c.1 (List.mem_map_of_mem hc)
    rw [hfull] at hm
    obtain ⟨x, hx, e⟩ := List.mem_map.mp hm
    have hx0 : x ∈ L0 := h10.mem_iff.mpr hx
    rw [← h12] at hx0
    obtain ⟨y, hy, rfl⟩ := List.mem_map.mp hx0
    have e := congrArg Prod.fst e
    simp only [hkey] at e
    obtain ⟨g1, g2⟩ := ChartShape.key_inj.mp e
    refine ⟨_, by rw [hLdef]; exact List.mem_map.mpr ⟨y, hy, rfl⟩, g1, ?_⟩
    have : y.1.1.2 = c := by
      have a1 := (OptiPrism.Query.C88_rename s.aggs hp.aggs_nodup).1 y.1.1.2.1 y.1.1.2.2 y.1.2.2
      have a2 := (OptiPrism.Query.C88_rename s.aggs hp.aggs_nodup).1 c.1 c.2 hc
      rw [g2, a2] at a1
      exact Prod.ext g2 (Option.some.inj a1).symm
    rw [← this]
  have hsort : L.Pairwise fun e e' => e.mean ≥ e'.mean := by
    rw [hLdef, List.pairwise_map]
    rw [h13, List.pairwise_map] at h8
    exact h8
  obtain ⟨L', g1, g2, g3, g4, g5⟩ := limited_lines hof hLne hdist
  refine ⟨L', ?_, g3, fun e he => hof e (g2.mem he), ?_, ?_, hsort.sublist g2, ?_, g5⟩
  · unfold chartTableWith
    rw [h1]
    cases ho : out with
    | nil => exact absurd ho hone
    | cons o os =>
      rw [← ho]
      simp only [h5]
      rw [if_pos, hrowsL, g1]
      rw [List.all_eq_true]
      intro f hf
      obtain ⟨_, _, b, hb, e⟩ := ChartShape.mem_groups hf
      unfold ChartShape.breakOf
      cases hfind : s.breaks.find? fun b => b.col == f with
      | none =>
        rw [List.find?_eq_none] at hfind
        exact absurd (by simpa using e) (hfind b hb)
      | some b' =>
        show b'.kind.limited = true
        rcases hp.known b' (List.mem_of_find?_eq_some hfind) with h | h | h <;> rw [h] <;> rfl
  · intro e he
    have he' := g2.mem he
    rw [hLdef] at he'
    obtain ⟨y, hy, rfl⟩ := List.mem_map.mp he'
    exact (lineValues_spec ht hst y.1.2.2).2
  · unfold List.Nodup at hdist
    rw [List.pairwise_map] at hdist
    refine (hdist.sublist g2).imp fun {a b} hn => ?_
    rw [← ChartShape.key_inj]
    exact hn
  · intro hf
    rw [g4 hf]
    exact hcomp

theorem chartTable_lines (B : Nat) (hB : 1 ≤ B) (h : List (Option GCell) → Nat) {sortIdx : List Int → List Nat} (hs : SortsDown sortIdx)
    (hp : s.Apart stamp) (ht : s.Tabled t) (hst : ∀ d ∈ s.dates, ∀ d' ∈ s.dates, stamp d = stamp d' → d = d')
    (hinj : ∀ r ∈ t.rows, ∀ c ∈ s.aggs, ∀ r' ∈ t.rows, ∀ c' ∈ s.aggs, h (s.key t r c.1) = h (s.key t r' c'.1) → s.key t r c.1 = s.key t r' c'.1)
    (hsmall : ∃ ks : List (List (Option GCell)), ks.length ≤ 2 * B ∧ ∀ r ∈ t.rows, ∀ c ∈ s.aggs, s.key t r c.1 ∈ ks) (hrows : t.rows ≠ []) :
    ∃ L : List ChartRow, chartTable B h sortIdx stamp s t = .ok (L.map (ChartRow.cells s t)) ∧ L ≠ [] ∧ (∀ e ∈ L, e.Of s t) ∧
      (∀ e ∈ L, ∀ v ∈ e.vals, ∀ m, v = some m → m.natAbs < 2 ^ 96) ∧
      L.Pairwise (fun e e' => ¬(SameGroup s t e.row e'.row ∧ e.agg = e'.agg)) ∧ L.Pairwise (fun e e' => e.mean ≥ e'.mean) ∧
      (s.Few t → ∀ r ∈ t.rows, ∀ c ∈ s.aggs, ∃ e ∈ L, SameGroup s t e.row r ∧ (e.agg, e.label) = c) ∧
      ∀ f ∈ s.groups, ∀ v, (L.filter fun e => decide (cellOf t.fields e.row f = v)).length ≤ 50 :=
  chartTableWith_lines hp.aggs_nodup (fun _ hc => hc) B hB h hs hp ht hst hinj hsmall hrows

/-! ### The columns -/

theorem ChartShape.Apart.first_groups (hp : s.Apart stamp) {b : BreakCol} (hb : b ∈ s.breaks) : b.col ∈ s.groups := by
  obtain ⟨h1, h2⟩ := hp.cols b hb
  unfold ChartShape.groups
  simp only [List.mem_filter, Bool.and_eq_true, List.any_eq_true, beq_iff_eq]
  exact ⟨h1, by simpa using h2, b, hb, rfl⟩

/-- The parts of the columns are apart. -/
theorem ChartShape.Apart.apart (hp : s.Apart stamp) :
    kEventName ≠ kSegment ∧ kAggName ≠ kAverage ∧ s.groups.Nodup ∧ (s.dateCols stamp).Nodup ∧
    (∀ f ∈ [kEventName, kSegment], f ∉ s.groups ∧ f ∉ [kAggName, kAverage] ∧ f ∉ s.dateCols stamp) ∧
    (∀ f ∈ s.groups, f ∉ [kAggName, kAverage] ∧ f ∉ s.dateCols stamp) ∧
    ∀ f ∈ [kAggName, kAverage], f ∉ s.dateCols stamp := by
  have hw := hp.wide
  unfold ChartShape.wide at hw
  rw [List.nodup_append, List.nodup_append, List.nodup_append] at hw
  obtain ⟨⟨⟨h1, h2, h3⟩, h4, h5⟩, h6, h7⟩ := hw
  refine ⟨by simpa using h1, by simpa using h4, h2, h6, ?_, ?_, ?_⟩
  · intro f hf
    exact ⟨fun h => h3 f hf f h rfl, fun h => h5 f (List.mem_append_left _ hf) f h rfl,
      fun h => h7 f (List.mem_append_left _ (List.mem_append_left _ hf)) f h rfl⟩
  · intro f hf
    exact ⟨fun h => h5 f (List.mem_append_right _ hf) f h rfl, fun h => h7 f (List.mem_append_left _ (List.mem_append_right _ hf)) f h rfl⟩
  · intro f hf h
    exact h7 f (List.mem_append_right _ hf) f h rfl

theorem ChartShape.Apart.breakOf_none (hp : s.Apart stamp) {f : Str} (hf : f ∉ s.groups) : s.breakOf f = none := by
  unfold ChartShape.breakOf
  rw [List.find?_eq_none]
  intro b hb e
  simp only [beq_iff_eq] at e
  exact hf (e ▸ hp.first_groups hb)

theorem breakOf_first {b : BreakCol} (hb : b ∈ s.first) : s.breakOf b.col = some b := (newBreaks_mem hb).2.2

theorem ChartShape.Apart.renames_nodup (hp : s.Apart stamp) : ((s.renames number).map Prod.fst).Nodup := by
  obtain ⟨a1, a2, a3, a4, a5, a6, a7⟩ := hp.apart
  have hsub : ∀ f ∈ s.first.map (·.col), f ∈ s.groups := by
    intro f hf
    obtain ⟨b, hb, rfl⟩ := List.mem_map.mp hf
    exact hp.first_groups (newBreaks_mem hb).1
  unfold ChartShape.renames
  rw [List.map_append, List.map_append, shownNames_fst]
  rw [List.nodup_append, List.nodup_append]
  refine ⟨⟨by simpa using a1, newBreaks_nodup _ _, ?_⟩, by simp, ?_⟩
  · rintro f hf g hg rfl
    exact (a5 f (by simpa using hf)).1 (hsub f hg)
  · rintro f hf g hg rfl
    rw [List.mem_append] at hf
    have hg : f ∈ [kAggName, kAverage] := by simp at hg; simp [hg]
    rcases hf with hf | hf
    · exact (a5 f (by simpa using hf)).2.1 hg
    · exact (a6 f (hsub f hf)).1 hg

theorem renameColumn_mem {l : List (Str × Str)} (hn : (l.map Prod.fst).Nodup) {f n : Str} (h : (f, n) ∈ l) : renameColumn l f = n := by
  have := (OptiPrism.Query.C88_rename l hn).1 f n h
  rw [renameRow_column] at this
  exact Option.some.inj this

theorem renameColumn_other {l : List (Str × Str)} {f : Str} (h : f ∉ l.map Prod.fst) : renameColumn l f = f := by
  unfold renameColumn
  rw [List.find?_eq_none.mpr]
  intro p hp e
  simp only [beq_iff_eq] at e
  exact h (e ▸ List.mem_map_of_mem hp)

/-- The cells of a line. -/
theorem wide_cells (hp : s.Apart stamp) {e : ChartRow} (he : e.vals.length = s.dates.length) :
    let g := fun f => cellAt (s.wide stamp) (some (.str s.event) :: e.cells s t) f
    g kEventName = some (.str s.event) ∧ (∀ f ∈ kSegment :: s.groups, g f = cellOf t.fields e.row f) ∧ g kAggName = some (.str e.label) ∧
    g kAverage = some (.dec e.mean) ∧ ∀ (i : Nat) d, s.dates[i]? = some d → g (stamp d) = (e.vals[i]?.getD none).map GCell.dec := by
  obtain ⟨a1, a2, a3, a4, a5, a6, a7⟩ := hp.apart
  have hw : s.wide stamp = [kEventName] ++ ((kSegment :: s.groups) ++ ([kAggName] ++ ([kAverage] ++ s.dateCols stamp))) := by
    unfold ChartShape.wide
    simp
  have hc : some (GCell.str s.event) :: e.cells s t = [some (GCell.str s.event)] ++ ((kSegment :: s.groups).map (cellOf t.fields e.row) ++
      ([some (.str e.label)] ++ ([some (.dec e.mean)] ++ e.vals.map fun v => v.map GCell.dec))) := by
    unfold ChartRow.cells
    simp
  have hone : ∀ (f : Str) (v : Option GCell), cellOf [f] [v] f = v := fun f v => if_pos rfl
  intro g
  have hg : ∀ f, g f = cellOf ([kEventName] ++ ((kSegment :: s.groups) ++ ([kAggName] ++ ([kAverage] ++ s.dateCols stamp))))
      ([some (GCell.str s.event)] ++ ((kSegment :: s.groups).map (cellOf t.fields e.row) ++
        ([some (.str e.label)] ++ ([some (.dec e.mean)] ++ e.vals.map fun v => v.map GCell.dec)))) f := by
    intro f
    rw [← hw, ← hc]
    exact OptiPrism.Query.find_cell _ _ _
  have hseg : ∀ f, f ∈ [kAggName, kAverage] ∨ f ∈ s.dateCols stamp → f ∉ [kEventName] ∧ f ∉ kSegment :: s.groups := by
    intro f hf
    refine ⟨?_, ?_⟩
    · intro h
      have h : f ∈ [kEventName, kSegment] := by simp at h; simp [h]
      rcases hf with hf | hf
      · exact (a5 f h).2.1 hf
      · exact (a5 f h).2.2 hf
    · intro h
      rcases List.mem_cons.mp h with h | h
      · have h : f ∈ [kEventName, kSegment] := by simp [h]
        rcases hf with hf | hf
        · exact (a5 f h).2.1 hf
        · exact (a5 f h).2.2 hf
      · rcases hf with hf | hf
        · exact (a6 f h).1 hf
        · exact (a6 f h).2 hf
  simp only [hg]
  refine ⟨?_, ?_, ?_, ?_, ?_⟩
  · rw [cellOf_left rfl (by simp), hone]
  · intro f hf
    have hne : f ∉ [kEventName] := by
      intro h
      have h : f = kEventName := by simpa using h
      rcases List.mem_cons.mp hf with hf | hf
      · exact a1 (h.symm.trans hf)
      · exact (a5 kEventName (by simp)).1 (h ▸ hf)
    rw [cellOf_right rfl hne, cellOf_left (by simp) hf, OptiPrism.Query.cellOf_map _ _ _ hf]
  · obtain ⟨b1, b2⟩ := hseg kAggName (.inl (by simp))
    rw [cellOf_right rfl b1, cellOf_right (by simp) b2, cellOf_left rfl (by simp), hone]
  · obtain ⟨b1, b2⟩ := hseg kAverage (.inl (by simp))
    rw [cellOf_right rfl b1, cellOf_right (by simp) b2, cellOf_right rfl (by simpa using Ne.symm a2), cellOf_left rfl (by simp), hone]
  · intro i d hd
    have hm : stamp d ∈ s.dateCols stamp := List.mem_map_of_mem (List.mem_of_getElem? hd)
    obtain ⟨b1, b2⟩ := hseg (stamp d) (.inr hm)
    have b3 : stamp d ≠ kAggName := fun e => a7 kAggName (by simp) (e ▸ hm)
    have b4 : stamp d ≠ kAverage := fun e => a7 kAverage (by simp) (e ▸ hm)
    rw [cellOf_right rfl b1, cellOf_right (by simp) b2, cellOf_right rfl (by simpa using b3), cellOf_right rfl (by simpa using b4)]
    have hi : i < e.vals.length := by
      rw [he]
      exact (List.getElem?_eq_some_iff.mp hd).1
    refine cellOf_at (i := i) a4 ?_ ?_
    · unfold ChartShape.dateCols
      rw [List.getElem?_map, hd]
      rfl
    · rw [List.getElem?_map, List.getElem?_eq_getElem hi]
      rfl

/-- What is known of a column. -/
structure HeadOk (number : Nat → Str) (stamp : Int → Str) (s : ChartShape) (t : Tbl GCell) (h : Head) : Prop where
  name : renameColumn (s.renames number) h.field = h.name
  metric : decide (h.name ∈ s.dateCols stamp) = h.metric
  kind : s.kindOf stamp h.field = h.kind
  cell : ∀ e : ChartRow, e.vals.length = s.dates.length → shownCell s (s.wide stamp) (some (.str s.event) :: e.cells s t) h.field = h.cell e
  fits : ∀ e : ChartRow, e.Of s t → (∀ v ∈ e.vals, ∀ m, v = some m → m.natAbs < 2 ^ 96) → (slotOf h.kind (h.cell e)).Fits

theorem fits_str (c : Option GCell) : (slotOf .str c).Fits := by
  intro m h
  cases c with
  | none => cases h
  | some c => cases c <;> cases h

theorem fits_int (c : Option GCell) : (slotOf .int64 c).Fits := by
  intro m h
  cases c with
  | none => cases h
  | some c => cases c <;> cases h

theorem headOk (hp : s.Proper number stamp) (ht : s.Tabled t) {h : Head} (hh : h ∈ s.heads number stamp t) : HeadOk number stamp s t h := by
  obtain ⟨a1, a2, a3, a4, a5, a6, a7⟩ := hp.apart
  have hrn := hp.renames_nodup (number := number)
  have hnd : ∀ n ∈ [kEventShown, kSegmentShown, kFormula] ++ (shownNames number [] s.first).map Prod.snd, decide (n ∈ s.dateCols stamp) = false :=
    fun n hn => decide_eq_false (hp.names n hn)
  have hother : ∀ f, f = kAverage ∨ f ∈ s.dateCols stamp → f ∉ (s.renames number).map Prod.fst ∧ f ∉ s.groups ∧ f ≠ kSegment := by
    intro f hf
    have c1 : f ∉ [kEventName, kSegment] := by
      intro h
      rcases hf with hf | hf
      · exact (a5 f h).2.1 (by simp [hf])
      · exact (a5 f h).2.2 hf
    have c2 : f ∉ s.groups := by
      intro h
      rcases hf with hf | hf
      · exact (a6 f h).1 (by simp [hf])
      · exact (a6 f h).2 hf
    have c3 : f ≠ kAggName := by
      rintro rfl
      rcases hf with hf | hf
      · exact a2 hf
      · exact a7 kAggName (by simp) hf
    refine ⟨?_, c2, fun e => c1 (by simp [e])⟩
    unfold ChartShape.renames
    rw [List.map_append, List.map_append, shownNames_fst, List.mem_append, List.mem_append]
    rintro ((h | h) | h)
    · exact c1 (by simpa using h)
    · obtain ⟨b, hb, rfl⟩ := List.mem_map.mp h
      exact c2 (hp.first_groups (newBreaks_mem hb).1)
    · exact c3 (by simpa using h)
  have hshown : ∀ f row, f ∉ s.groups → shownCell s (s.wide stamp) row f = cellAt (s.wide stamp) row f := by
    intro f row hf
    unfold shownCell
    rw [hp.breakOf_none hf]
  have hkind : ∀ f, f ∉ s.groups → s.kindOf stamp f = if f = kSegment then .int64 else if f = kAverage ∨ f ∈ s.dateCols stamp then .dec else .str := by
    intro f hf
    unfold ChartShape.kindOf
    rw [hp.breakOf_none hf]
  have hagg : kAggName ∉ s.groups := fun h => (a6 _ h).1 (by simp)
  unfold ChartShape.heads at hh
  simp only [List.mem_append, List.mem_cons, List.not_mem_nil, or_false, List.mem_map] at hh
  rcases hh with ((((rfl | rfl) | ⟨x, hx, rfl⟩) | (rfl | rfl)) | ⟨d, hd, rfl⟩)
  · -- the event
    refine ⟨renameColumn_mem hrn (by simp [ChartShape.renames]), hnd _ (by simp), ?_, ?_, fun e _ _ => fits_str _⟩
    · have e1 := a5 kEventName (by simp)
      simp only [List.mem_cons, List.not_mem_nil, or_false, not_or] at e1
      rw [hkind _ e1.1, if_neg a1, if_neg]
      rintro (h | h)
      · exact e1.2.1.2 h
      · exact e1.2.2 h
    · intro e he
      rw [hshown _ _ (a5 kEventName (by simp)).1]
      exact (wide_cells (t := t) hp.toApart he).1
  · -- the segment
    refine ⟨renameColumn_mem hrn (by simp [ChartShape.renames]), hnd _ (by simp), ?_, ?_, fun e _ _ => fits_int _⟩
    · rw [hkind _ (a5 kSegment (by simp)).1, if_pos rfl]
    · intro e he
      rw [hshown _ _ (a5 kSegment (by simp)).1]
      exact (wide_cells (t := t) hp.toApart he).2.1 _ (by simp)
  · -- a breakdown
    have hb : x.1 ∈ s.first := (List.of_mem_zip hx).1
    have hn := (List.of_mem_zip hx).2
    have hf := newBreaks_mem hb
    refine ⟨renameColumn_mem hrn ?_, hnd _ ?_, ?_, ?_, fun e he _ => ht.fits _ he.row _ hf.1⟩
    · have e : (x.1.col, x.2.2) = x.2 := Prod.ext (shownNames_zip number hx).symm rfl
      show (x.1.col, x.2.2) ∈ _
      rw [e]
      unfold ChartShape.renames
      simp [hn]
    · exact List.mem_append_right _ (List.mem_map_of_mem hn)
    · show s.kindOf stamp x.1.col = x.1.shown
      unfold ChartShape.kindOf
      rw [breakOf_first hb]
    · intro e he
      show shownCell s _ _ x.1.col = _
      unfold shownCell
      rw [breakOf_first hb]
      exact congrArg x.1.decode ((wide_cells (t := t) hp.toApart he).2.1 _ (List.mem_cons_of_mem _ (hp.first_groups hf.1)))
  · -- the label
    refine ⟨renameColumn_mem hrn (by simp [ChartShape.renames]), hnd _ (by simp), ?_, ?_, fun e _ _ => fits_str _⟩
    · rw [hkind _ hagg, if_neg (fun h => (a5 kSegment (by simp)).2.1 (by simp [h])), if_neg]
      rintro (h | h)
      · exact a2 h
      · exact a7 kAggName (by simp) h
    · intro e he
      rw [hshown _ _ hagg]
      exact (wide_cells (t := t) hp.toApart he).2.2.1
  · -- the average
    obtain ⟨c1, c2, c3⟩ := hother kAverage (.inl rfl)
    refine ⟨renameColumn_other c1, decide_eq_false (a7 kAverage (by simp)), ?_, ?_, ?_⟩
    · rw [hkind _ c2, if_neg c3, if_pos (.inl rfl)]
    · intro e he
      rw [hshown _ _ c2]
      exact (wide_cells (t := t) hp.toApart he).2.2.2.1
    · intro e he hv m hm
      have hm : e.mean = m := by simpa [slotOf] using hm
      have := mean_bound (M := 2 ^ 96 - 1) he.mean (fun v hv' m' hm' => by have := hv v hv' m' hm'; omega)
      omega
  · -- a moment
    obtain ⟨d, i⟩ := d
    have hdi : s.dates[i]? = some d := by
      have := List.mem_zipIdx_iff_getElem?.mp hd
      simpa using this
    have hm : stamp d ∈ s.dateCols stamp := List.mem_map_of_mem (List.mem_of_getElem? hdi)
    obtain ⟨c1, c2, c3⟩ := hother (stamp d) (.inr hm)
    refine ⟨renameColumn_other c1, decide_eq_true hm, ?_, ?_, ?_⟩
    · rw [hkind _ c2, if_neg c3, if_pos (.inr hm)]
    · intro e he
      rw [hshown _ _ c2]
      exact (wide_cells (t := t) hp.toApart he).2.2.2.2 i d hdi
    · intro e he hv m hm'
      obtain ⟨v, hv1, _⟩ := he.vals i d hdi
      have hm' : slotOf .dec ((e.vals[i]?.getD none).map GCell.dec) = .dec (some m) := hm'
      rw [hv1] at hm'
      cases v with
      | none => cases hm'
      | some m' =>
        have : m' = m := by simpa [slotOf] using hm'
        exact this ▸ hv _ (List.mem_of_getElem? hv1) m' rfl

/-- The columns of the table in the order of the answer. -/
theorem heads_fields (hp : s.Proper number stamp) :
    reordered ([kEventName, kSegment] ++ s.first.map (·.col) ++ [kAggName]) (s.wide stamp) = (s.heads number stamp t).map (·.field) := by
  obtain ⟨a1, a2, a3, a4, a5, a6, a7⟩ := hp.apart
  have hfirst : ∀ f, f ∈ s.first.map (·.col) ↔ f ∈ s.groups := by
    intro f
    constructor
    · intro h
      obtain ⟨b, hb, rfl⟩ := List.mem_map.mp h
      exact hp.first_groups (newBreaks_mem hb).1
    · intro h
      obtain ⟨_, _, b, hb, rfl⟩ := ChartShape.mem_groups h
      rcases newBreaks_all (seen := [kEventName, kSegment]) hb with h' | h'
      · exact absurd h (a5 _ h').1
      · exact h'
  have hrest : (s.wide stamp).filter (fun f => !([kEventName, kSegment] ++ s.first.map (·.col) ++ [kAggName]).contains f) = kAverage :: s.dateCols stamp := by
    have hw : s.wide stamp = ([kEventName, kSegment] ++ s.groups ++ [kAggName]) ++ (kAverage :: s.dateCols stamp) := by
      unfold ChartShape.wide
      simp
    rw [hw, List.filter_append, List.filter_eq_nil_iff.mpr, List.nil_append, List.filter_eq_self.mpr]
    · intro f hf
      have hf : f = kAverage ∨ f ∈ s.dateCols stamp := List.mem_cons.mp hf
      have c1 : f ∉ [kEventName, kSegment] := by
        intro h
        rcases hf with hf | hf
        · exact (a5 f h).2.1 (by simp [hf])
        · exact (a5 f h).2.2 hf
      have c2 : f ∉ s.groups := by
        intro h
        rcases hf with hf | hf
        · exact (a6 f h).1 (by simp [hf])
        · exact (a6 f h).2 hf
      have c3 : f ≠ kAggName := by
        rintro rfl
        rcases hf with hf | hf
        · exact a2 hf
        · exact a7 kAggName (by simp) hf
      rw [← hfirst] at c2
      have : f ∉ [kEventName, kSegment] ++ s.first.map (·.col) ++ [kAggName] := by
        simp only [List.mem_append, not_or]
        exact ⟨⟨c1, c2⟩, by simpa using c3⟩
      rw [Bool.not_eq_true', Bool.eq_false_iff]
      simpa only [ne_eq, List.contains_iff_mem] using this
    · intro f hf
      have : f ∈ [kEventName, kSegment] ++ s.first.map (·.col) ++ [kAggName] := by
        simp only [List.mem_append] at hf ⊢
        rw [hfirst]
        exact hf
      rw [Bool.not_eq_true', Bool.not_eq_false]
      simpa only [List.contains_iff_mem] using this
  unfold reordered
  rw [hrest]
  unfold ChartShape.heads
  rw [List.map_append, List.map_append, List.map_append, List.map_map, List.map_map]
  have e1 : (s.first.zip (shownNames number [] s.first)).map ((·.field) ∘ fun x : BreakCol × (Str × Str) =>
      (⟨x.1.col, x.2.2, false, x.1.shown, fun e => x.1.decode (cellOf t.fields e.row x.1.col)⟩ : Head)) = s.first.map (·.col) := by
    have : (s.first.zip (shownNames number [] s.first)).map Prod.fst = s.first := List.map_fst_zip (by rw [shownNames_length])
    conv => rhs; rw [← this, List.map_map]
    rfl
  have e2 : s.dates.zipIdx.map ((·.field) ∘ fun d : Int × Nat => (⟨stamp d.1, stamp d.1, true, .dec, fun e => (e.vals[d.2]?.getD none).map GCell.dec⟩ : Head)) =
      s.dateCols stamp := by
    have : s.dates.zipIdx.map Prod.fst = s.dates := List.zipIdx_map_fst 0 _
    unfold ChartShape.dateCols
    conv => rhs; rw [← this, List.map_map]
    rfl
  rw [e1, e2]
  simp

/-- The columns show the lines. -/
theorem answerColumns_shows (hp : s.Proper number stamp) (ht : s.Tabled t) {L : List ChartRow} (hne : L ≠ []) (hL : ∀ e ∈ L, e.Of s t)
    (hv : ∀ e ∈ L, ∀ v ∈ e.vals, ∀ m, v = some m → m.natAbs < 2 ^ 96) :
    ∃ cols, answerColumns number stamp s (L.map (ChartRow.cells s t)) = .ok cols ∧ Presents (s.heads number stamp t) L cols := by
  have hcol : ∀ h ∈ s.heads number stamp t, ∃ data, columnJson (L.map fun e => slotOf h.kind (h.cell e)) = some data ∧ data.length = L.length ∧
      ∀ (j : Nat) e, L[j]? = some e → ∃ o, data[j]? = some o ∧ Written (slotOf h.kind (h.cell e)).orZero o := by
    intro h hh
    have hok := headOk hp ht hh
    obtain ⟨data, hd⟩ := mapM_isSome (f := slotJson) (l := L.map fun e => slotOf h.kind (h.cell e)) (by
      intro sl hsl
      obtain ⟨e, he, rfl⟩ := List.mem_map.mp hsl
      obtain ⟨j, hj, _⟩ := slotJson_zero (hok.fits e (hL e he) (hv e he))
      exact ⟨j, hj⟩)
    refine ⟨data, hd, by rw [mapM_length hd, List.length_map], fun j e hj => ?_⟩
    obtain ⟨o, ho, hs⟩ := mapM_get hd (i := j) (a := slotOf h.kind (h.cell e)) (by rw [List.getElem?_map, hj]; rfl)
    have he := List.mem_of_getElem? hj
    obtain ⟨o', ho', hw⟩ := slotJson_zero (hok.fits e (hL e he) (hv e he))
    rw [hs] at ho'
    exact ⟨o, ho, Option.some.inj ho' ▸ hw⟩
  have hstep : ∀ h ∈ s.heads number stamp t, ((columnJson ((L.map (ChartRow.cells s t)).map fun r => slotOf (s.kindOf stamp h.field)
      (shownCell s (s.wide stamp) (some (.str s.event) :: r) h.field))).map fun data =>
        (⟨renameColumn (s.renames number) h.field, decide (renameColumn (s.renames number) h.field ∈ s.dateCols stamp), data⟩ : AnswerCol)) =
      (columnJson (L.map fun e => slotOf h.kind (h.cell e))).map fun data => ⟨h.name, h.metric, data⟩ := by
    intro h hh
    have hok := headOk hp ht hh
    rw [hok.name, hok.metric, hok.kind, List.map_map]
    congr 2
    refine List.map_congr_left fun e he => ?_
    show slotOf h.kind (shownCell s (s.wide stamp) (some (.str s.event) :: e.cells s t) h.field) = _
    rw [hok.cell e (hL e he).length]
  obtain ⟨cols, hcols⟩ := mapM_isSome (f := fun f => (columnJson ((L.map (ChartRow.cells s t)).map fun r => slotOf (s.kindOf stamp f)
      (shownCell s (s.wide stamp) (some (.str s.event) :: r) f))).map fun data =>
        (⟨renameColumn (s.renames number) f, decide (renameColumn (s.renames number) f ∈ s.dateCols stamp), data⟩ : AnswerCol))
      (l := (s.heads number stamp t).map (·.field)) (by
    intro f hf
    obtain ⟨h, hh, rfl⟩ := List.mem_map.mp hf
    obtain ⟨data, hd, _⟩ := hcol h hh
    exact ⟨_, by rw [hstep h hh, hd]; rfl⟩)
  refine ⟨cols, ?_, by rw [mapM_length hcols, List.length_map], fun i h hi => ?_⟩
  · unfold answerColumns
    cases hm : L.map (ChartRow.cells s t) with
    | nil => exact absurd (List.map_eq_nil_iff.mp hm) hne
    | cons r rs =>
      rw [← heads_fields (t := t) hp, hm] at hcols
      simp only [hcols]
  · obtain ⟨col, hc, hs⟩ := mapM_get hcols (i := i) (a := h.field) (by rw [List.getElem?_map, hi]; rfl)
    have hh := List.mem_of_getElem? hi
    rw [hstep h hh] at hs
    obtain ⟨data, hd, h1, h2⟩ := hcol h hh
    rw [hd] at hs
    have hs : (⟨h.name, h.metric, data⟩ : AnswerCol) = col := Option.some.inj hs
    subst hs
    exact ⟨_, hc, rfl, rfl, h1, h2⟩

end

/-! ## C140 -/

/-- C140 as stated: the answer shows every group and every aggregate of the table, whatever the breakdowns are. -/
def C140_full : Prop :=
  ∀ (B : Nat) (h : List (Option GCell) → Nat) (sortIdx : List Int → List Nat) (number : Nat → Str) (stamp : Int → Str) (s : ChartShape) (t : Tbl GCell),
    1 ≤ B → SortsDown sortIdx → s.fields.Nodup → (s.wide stamp).Nodup → s.Tabled t → t.rows ≠ [] →
    ∃ cols L, chartAnswer B h sortIdx number stamp s t = .ok cols ∧ Presents (s.heads number stamp t) L cols ∧ (∀ e ∈ L, e.Of s t) ∧
      ∀ r ∈ t.rows, ∀ c ∈ s.aggs, ∃ e ∈ L, SameGroup s t e.row r ∧ (e.agg, e.label) = c

/-- C140 (partial): the answer to a chart of one event has the event, the segment, the breakdowns, the label, the average and the moments as
columns; its lines are different groups and aggregates of the table, in the order of their averages, with the values of the table, and all of
them are there unless a value of a breakdown has more than fifty. Missing: breakdowns of the types the limit does not know, the hash of the
pivot (C63), and values that are missing, which are shown as zero. -/
theorem C140_partial (B : Nat) (hB : 1 ≤ B) (h : List (Option GCell) → Nat) {sortIdx : List Int → List Nat} (hs : SortsDown sortIdx)
    (number : Nat → Str) (stamp : Int → Str) (s : ChartShape) (t : Tbl GCell)
    (hp : s.Proper number stamp) (ht : s.Tabled t) (hst : ∀ d ∈ s.dates, ∀ d' ∈ s.dates, stamp d = stamp d' → d = d')
    (hinj : ∀ r ∈ t.rows, ∀ c ∈ s.aggs, ∀ r' ∈ t.rows, ∀ c' ∈ s.aggs, h (s.key t r c.1) = h (s.key t r' c'.1) → s.key t r c.1 = s.key t r' c'.1)
    (hsmall : ∃ ks : List (List (Option GCell)), ks.length ≤ 2 * B ∧ ∀ r ∈ t.rows, ∀ c ∈ s.aggs, s.key t r c.1 ∈ ks) (hrows : t.rows ≠ []) :
    ∃ cols L, chartAnswer B h sortIdx number stamp s t = .ok cols ∧ Presents (s.heads number stamp t) L cols ∧ L ≠ [] ∧ (∀ e ∈ L, e.Of s t) ∧
      L.Pairwise (fun e e' => ¬(SameGroup s t e.row e'.row ∧ e.agg = e'.agg)) ∧ L.Pairwise (fun e e' => e.mean ≥ e'.mean) ∧
      (s.Few t → ∀ r ∈ t.rows, ∀ c ∈ s.aggs, ∃ e ∈ L, SameGroup s t e.row r ∧ (e.agg, e.label) = c) ∧
      ∀ f ∈ s.groups, ∀ v, (L.filter fun e => decide (cellOf t.fields e.row f = v)).length ≤ 50 := by
  obtain ⟨L, h1, h2, h3, h4, h5, h6, h7, h8⟩ := chartTable_lines B hB h hs hp.toApart ht hst hinj hsmall hrows
  obtain ⟨cols, h9, h10⟩ := answerColumns_shows hp ht h2 h3 h4
  refine ⟨cols, L, ?_, h10, h2, h3, h5, h6, h7, h8⟩
  unfold chartAnswer
  rw [h1]
  exact h9

theorem chartTableWith_empty (labels : List (Str × Str)) (B : Nat) (hB : 1 ≤ B) (h : List (Option GCell) → Nat) (sortIdx : List Int → List Nat)
    (stamp : Int → Str) (s : ChartShape) (t : Tbl GCell)
    (hp : s.Apart stamp) (ht : s.Tabled t) (hrows : t.rows = []) : chartTableWith labels B h sortIdx stamp s t = .ok [] := by
  obtain ⟨out, h1, -, h3, -⟩ := OptiPrism.Query.C87_partial B hB h decimalOf (dateName stamp) GCell.str (fun a b e => by injection e) kDate
    (s.aggs.map Prod.fst) (s.dateCols stamp) t (ht.fields ▸ hp.fields) (by
      rw [ht.fields]
      unfold ChartShape.fields
      exact List.sublist_append_right _ _)
    (by simpa using hp.aggs) (by
      rw [ht.fields]
      unfold ChartShape.fields
      simp [hp.date]) hp.date_agg ht.length (rowValue t) (by simp [hrows]) (by simp [hrows]) (by simp [hrows]) (by simp [hrows])
    ⟨[], by simp, by simp [hrows]⟩
  have ho : out = [] := by
    cases out with
    | nil => rfl
    | cons o os =>
      obtain ⟨r, hr, _⟩ := h3 o (by simp)
      rw [hrows] at hr
      cases hr
  unfold chartTableWith
  rw [h1, ho]

/-- The answer to a chart without groups has no columns. -/
theorem C140_empty (B : Nat) (hB : 1 ≤ B) (h : List (Option GCell) → Nat) (sortIdx : List Int → List Nat)
    (number : Nat → Str) (stamp : Int → Str) (s : ChartShape) (t : Tbl GCell)
    (hp : s.Proper number stamp) (ht : s.Tabled t) (hrows : t.rows = []) : chartAnswer B h sortIdx number stamp s t = .ok [] := by
  unfold chartAnswer chartTable
  rw [chartTableWith_empty _ B hB h sortIdx stamp s t hp.toApart ht hrows]
  rfl

/-! ### Cells and names -/

/-- A cell of a chart is written as what it is; a missing number as zero, any other missing value as `null`. -/
theorem C140_cells (o : JOut) :
    (∀ v, Written (slotOf .int64 (some (.int v))).orZero o ↔ ∃ x : JNum, o = .num x ∧ x.Is v) ∧
    (∀ v, Written (slotOf .int (some (.int v))).orZero o ↔ ∃ x : JNum, o = .num x ∧ x.Is v) ∧
    (∀ m, Written (slotOf .dec (some (.dec m))).orZero o ↔ ∃ x : JNum, o = .num x ∧ x.Near m) ∧
    (∀ v, Written (slotOf .str (some (.str v))).orZero o ↔ o = .str v) ∧
    (∀ v, Written (slotOf .bool (some (.bool v))).orZero o ↔ o = .bool v) ∧
    (∀ t, Written (slotOf .ts (some (.ts t))).orZero o ↔ ∃ x : JNum, o = .num x ∧ x.Is t) ∧
    (Written (slotOf .int64 none).orZero o ↔ ∃ x : JNum, o = .num x ∧ x.Is 0) ∧ (Written (slotOf .int none).orZero o ↔ ∃ x : JNum, o = .num x ∧ x.Is 0) ∧
    (Written (slotOf .dec none).orZero o ↔ ∃ x : JNum, o = .num x ∧ x.Near 0) ∧
    (Written (slotOf .str none).orZero o ↔ o = .null) ∧ (Written (slotOf .bool none).orZero o ↔ o = .null) ∧ (Written (slotOf .ts none).orZero o ↔ o = .null) :=
  ⟨fun _ => .rfl, fun _ => .rfl, fun _ => .rfl, fun _ => .rfl, fun _ => .rfl, fun _ => .rfl, .rfl, .rfl, .rfl, .rfl, .rfl, .rfl⟩

theorem shownNames_get (number : Nat → Str) : ∀ (bs : List BreakCol) (used : List Str) (i : Nat) (b : BreakCol), bs[i]? = some b →
    (shownNames number used bs)[i]? = some (b.col, let k := (used ++ (bs.take i).map (·.name)).count b.name
      if k = 0 then b.name else b.name ++ ' ' :: number (k + 1))
  | [], _, _, _, h => by simp at h
  | c :: bs, used, 0, b, h => by
    have : c = b := by simpa using h
    subst this
    simp [shownNames]
  | c :: bs, used, i + 1, b, h => by
    have := shownNames_get number bs (used ++ [c.name]) i b (by simpa using h)
    simpa [shownNames, List.append_assoc] using this

/-- The breakdowns are shown under their names, the second of a name with a two behind it, the third with a three and so on. -/
theorem C140_names (number : Nat → Str) {s : ChartShape} {i : Nat} {b : BreakCol} (h : s.first[i]? = some b) :
    (∀ j c, j < i → s.first[j]? = some c → c.name ≠ b.name) ∧ (shownNames number [] s.first)[i]? = some (b.col, b.name) ∨
    ∃ k, 0 < k ∧ k = (s.first.take i).countP (fun c => c.name = b.name) ∧
      (shownNames number [] s.first)[i]? = some (b.col, b.name ++ ' ' :: number (k + 1)) := by
  have hg := shownNames_get number s.first [] i b h
  have e : ([] ++ (s.first.take i).map (fun c : BreakCol => c.name)).count b.name = (s.first.take i).countP (fun c => c.name = b.name) := by
    rw [List.nil_append, List.count, List.countP_map]
    exact List.countP_congr (by simp)
  rw [e] at hg
  by_cases hk : (s.first.take i).countP (fun c => c.name = b.name) = 0
  · refine .inl ⟨fun j c hj hc hn => ?_, by simpa [hk] using hg⟩
    rw [List.countP_eq_zero] at hk
    exact hk c (List.mem_of_getElem? (i := j) (by rw [List.getElem?_take, if_pos hj]; exact hc)) (by simpa using hn)
  · exact .inr ⟨_, Nat.pos_of_ne_zero hk, rfl, by simpa only [hk, if_false] using hg⟩

/-! ### Labels -/

theorem before_mark {c : Char} : ∀ {a b x y : Str}, c ∉ a → c ∉ b → a ++ c :: x = b ++ c :: y → a = b ∧ x = y
  | [], [], _, _, _, _, h => ⟨rfl, by simpa using h⟩
  | [], d :: b, _, _, _, hb, h => by
    simp only [List.nil_append, List.cons_append, List.cons.injEq] at h
    exact absurd (by simp [h.1]) hb
  | d :: a, [], _, _, ha, _, h => by
    simp only [List.nil_append, List.cons_append, List.cons.injEq] at h
    exact absurd (by simp [h.1]) ha
  | d :: a, e :: b, x, y, ha, hb, h => by
    simp only [List.cons_append, List.cons.injEq] at h
    obtain ⟨h1, h2⟩ := before_mark (fun hc => ha (List.mem_cons_of_mem _ hc)) (fun hc => hb (List.mem_cons_of_mem _ hc)) h.2
    exact ⟨by rw [h.1, h1], h2⟩

/-- C140: the aggregates of an event have columns of their own, and there is one for every query. -/
theorem C140_columns {number : Nat → Str} (hinj : ∀ i j, number i = number j → i = j) (hmark : ∀ i, '_' ∉ number i) {e : Nat} {qs : List CQuery}
    {l : List (Str × Str)} (h : labelsOf number e qs = some l) : l.length = qs.length ∧ (l.map Prod.fst).Nodup := by
  have hlen : l.length = qs.length := by
    have := mapM_length h
    simpa using this
  refine ⟨hlen, ?_⟩
  have hget : ∀ (i : Nat) c, l[i]? = some c → ∃ x, c.1 = number e ++ '_' :: (number i ++ '_' :: x) := by
    intro i c hi
    have hlt : i < qs.length := by
      rw [← hlen]
      exact (List.getElem?_eq_some_iff.mp hi).1
    obtain ⟨c', h1, h2⟩ := mapM_get h (i := i) (a := (qs[i], i)) (by
      rw [List.getElem?_zipIdx, List.getElem?_eq_getElem hlt]
      simp)
    rw [hi] at h1
    cases h1
    unfold labelOf at h2
    cases hx : initialName qs[i] with
    | none => simp [hx] at h2
    | some x =>
      cases hn : queryName qs[i] with
      | none => simp [hn] at h2
      | some n =>
        refine ⟨x, ?_⟩
        simp only [hx, hn] at h2
        have h2 : some (number e ++ '_' :: (number i ++ '_' :: x), n) = some c := h2
        cases h2
        rfl
  rw [List.nodup_iff_getElem?_ne_getElem?]
  intro i j hij hj hc
  rw [List.length_map] at hj
  rw [List.getElem?_map, List.getElem?_map, List.getElem?_eq_getElem hj, List.getElem?_eq_getElem (by omega)] at hc
  obtain ⟨x, hx⟩ := hget i l[i] (List.getElem?_eq_getElem (by omega))
  obtain ⟨y, hy⟩ := hget j l[j] (List.getElem?_eq_getElem hj)
  have hc : l[i].1 = l[j].1 := by simpa using hc
  rw [hx, hy] at hc
  obtain ⟨-, h1⟩ := before_mark (hmark e) (hmark e) hc
  obtain ⟨h2, -⟩ := before_mark (hmark i) (hmark j) h1
  exact absurd (hinj _ _ h2) (by omega)

/-- C140 (violated): different queries have the same label, so that their lines cannot be told apart: the number of events and the number of
events per group, and two aggregates of properties of the same name of an event and of a group. -/
theorem C140_labels_violated :
    queryName .countEvents = queryName (.countPerGroup .count) ∧
    (∀ n g a, queryName (.aggregateProperty (.event n) a) = queryName (.aggregateProperty (.group n g) a)) ∧
    (∀ n a g, queryName (.aggregateProperty (.event (partAggShown g ++ '(' :: (n ++ ")".toList))) a) = queryName (.aggregatePropertyPerGroup (.event n) g a)) := by
  refine ⟨rfl, fun n g a => rfl, fun n a g => ?_⟩
  have e : "))".toList = ")".toList ++ ")".toList := by decide +kernel
  simp only [queryName, propertyShown, Option.map_some, e]
  simp

/-! ### Examples -/

/-- Two dates of five digits. -/
def exStamp (d : Int) : Str := '2' :: '0' :: '2' :: '4' :: '-' :: (Nat.repr d.toNat).toList

def exNumber (n : Nat) : Str := (Nat.repr n).toList

/-- A chart by a property of the event, with a count. -/
def exShape (kind : GKind) (decode : Option GCell → Option GCell) (shown : GKind) : ChartShape where
  event := "Buy".toList
  order := ["project_id".toList, kDate, "event".toList, "string_0".toList]
  breaks := [⟨"string_0".toList, "City".toList, kind, decode, shown⟩]
  aggs := [("0_0_count".toList, "Count".toList)]
  dates := [1, 2]

/-- The dictionary of the cities. -/
def exDecode : Option GCell → Option GCell
  | some (.int 1) => some (.str "Oslo".toList)
  | some (.int 2) => some (.str "Rome".toList)
  | _ => none

/-- Seven events in Oslo, two on the first day; one in Rome. -/
def exTable (v w : GCell) : Tbl GCell where
  fields := [kSegment, kDate, "string_0".toList, "0_0_count".toList]
  rows := [[some (.int 0), some (.ts 1), some v, some (.int 2)], [some (.int 0), some (.ts 2), some w, some (.int 1)],
    [some (.int 0), some (.ts 2), some v, some (.int 5)]]

/-- Sums of the cells. -/
def exHash (k : List (Option GCell)) : Nat := (k.map fun c => match c with | some (.int v) => v.toNat | _ => 0).sum

/-- The answer by city. -/
example : chartAnswer 4 exHash OptiPrism.Query.exSort exNumber exStamp (exShape .int64 exDecode .str) (exTable (.int 1) (.int 2)) = .ok
    [⟨"Event".toList, false, [.str "Buy".toList, .str "Buy".toList]⟩, ⟨"Segment".toList, false, [.num (.int 0), .num (.int 0)]⟩,
      ⟨"City".toList, false, [.str "Oslo".toList, .str "Rome".toList]⟩, ⟨"Formula".toList, false, [.str "Count".toList, .str "Count".toList]⟩,
      ⟨"Average".toList, false, [.num (.dec 3500), .num (.dec 500)]⟩, ⟨"2024-1".toList, true, [.num (.dec 2000), .num (.dec 0)]⟩,
      ⟨"2024-2".toList, true, [.num (.dec 5000), .num (.dec 1000)]⟩] := by
  decide +kernel

theorem newBreaks_one {seen : List Str} {b : BreakCol} (h : b.col ∉ seen) : newBreaks seen [b] = [b] := by
  rw [newBreaks, if_neg h]
  rfl

theorem exShape_first (decode : Option GCell → Option GCell) (shown : GKind) :
    (exShape .int64 decode shown).first = [⟨"string_0".toList, "City".toList, .int64, decode, shown⟩] :=
  newBreaks_one (by
    show "string_0".toList ∉ [kEventName, kSegment]
    decide +kernel)

theorem exShape_proper (decode : Option GCell → Option GCell) (shown : GKind) : (exShape .int64 decode shown).Proper exNumber exStamp where
  fields := by
    show (exShape .int64 id .str).fields.Nodup
    decide +kernel
  wide := by
    show ((exShape .int64 id .str).wide exStamp).Nodup
    decide +kernel
  date := by
    show kDate ∈ (exShape .int64 id .str).order
    decide +kernel
  cols := by
    intro b hb
    have hb : b = ⟨"string_0".toList, "City".toList, .int64, decode, shown⟩ := by simpa [exShape] using hb
    subst hb
    show "string_0".toList ∈ (exShape .int64 id .str).order ∧ "string_0".toList ≠ kDate
    decide +kernel
  known := by
    intro b hb
    have hb : b = ⟨"string_0".toList, "City".toList, .int64, decode, shown⟩ := by simpa [exShape] using hb
    subst hb
    exact .inl rfl
  aggs := by simp [exShape]
  names := by
    have e : (shownNames exNumber [] (exShape .int64 decode shown).first).map Prod.snd = ["City".toList] := by
      rw [exShape_first]
      rfl
    rw [e]
    show ∀ n ∈ [kEventShown, kSegmentShown, kFormula] ++ ["City".toList], n ∉ (exShape .int64 id .str).dateCols exStamp
    decide +kernel

theorem exTable_tabled : (exShape .int64 exDecode .str).Tabled (exTable (.int 1) (.int 2)) where
  fields := by decide +kernel
  length := by decide +kernel
  dates := by decide +kernel
  vals := by
    intro r hr c hc
    have hc : c = ("0_0_count".toList, "Count".toList) := by simpa [exShape] using hc
    subst hc
    have : ∀ r ∈ (exTable (.int 1) (.int 2)).rows, ∃ m ∈ [2 * 10 ^ 16, 10 ^ 16, 5 * 10 ^ 16],
        (cellOf (exTable (.int 1) (.int 2)).fields r "0_0_count".toList).bind decimalOf = some m ∧ m.natAbs < 2 ^ 96 := by
      decide +kernel
    obtain ⟨m, -, h⟩ := this r hr
    exact ⟨m, h⟩
  once := by
    unfold SameGroup
    decide +kernel
  fits := by
    intro r hr b hb
    have hb : b = ⟨"string_0".toList, "City".toList, .int64, exDecode, .str⟩ := by simpa [exShape] using hb
    subst hb
    exact fits_str _

/-- The hypotheses of C140 are met, and nothing is left out. -/
example : (exShape .int64 exDecode .str).Proper exNumber exStamp ∧ (exShape .int64 exDecode .str).Tabled (exTable (.int 1) (.int 2)) ∧
    (∀ d ∈ [1, 2], ∀ d' ∈ [1, 2], exStamp d = exStamp d' → d = d') ∧ (exShape .int64 exDecode .str).Few (exTable (.int 1) (.int 2)) ∧
    (∀ r ∈ (exTable (.int 1) (.int 2)).rows, ∀ c ∈ (exShape .int64 exDecode .str).aggs, ∀ r' ∈ (exTable (.int 1) (.int 2)).rows,
      ∀ c' ∈ (exShape .int64 exDecode .str).aggs, exHash ((exShape .int64 exDecode .str).key (exTable (.int 1) (.int 2)) r c.1) =
        exHash ((exShape .int64 exDecode .str).key (exTable (.int 1) (.int 2)) r' c'.1) →
      (exShape .int64 exDecode .str).key (exTable (.int 1) (.int 2)) r c.1 = (exShape .int64 exDecode .str).key (exTable (.int 1) (.int 2)) r' c'.1) := by
  refine ⟨exShape_proper _ _, exTable_tabled, by decide +kernel, ?_, by decide +kernel⟩
  intro f hf v M hM hm
  -- lines of the same group and aggregate are the same line, and there are not more groups than rows
  have hsub : (M.map fun x => (exShape .int64 exDecode .str).key (exTable (.int 1) (.int 2)) x.1 x.2).Nodup := by
    unfold List.Nodup
    rw [List.pairwise_map]
    refine hM.imp fun {x y} hn => ?_
    rw [ne_eq, ChartShape.key_inj]
    exact hn
  have hlen := hsub.length_le_of_subset (l₂ := (exTable (.int 1) (.int 2)).rows.map fun r =>
      (exShape .int64 exDecode .str).key (exTable (.int 1) (.int 2)) r "0_0_count".toList) (by
    intro k hk
    obtain ⟨x, hx, rfl⟩ := List.mem_map.mp hk
    obtain ⟨h1, h2, -⟩ := hm x hx
    have h2 : x.2 = "0_0_count".toList := by simpa [exShape] using h2
    rw [h2]
    exact List.mem_map_of_mem h1)
  have e : ((exTable (.int 1) (.int 2)).rows.map fun r => (exShape .int64 exDecode .str).key (exTable (.int 1) (.int 2)) r "0_0_count".toList).length = 3 := rfl
  rw [e, List.length_map] at hlen
  omega

/-- C140 (violated): a chart by a property that is true or false, or by a moment, is a panic, as is one by the numbers of a small dictionary. -/
theorem C140_violated : ¬ C140_full ∧
    chartAnswer 4 exHash OptiPrism.Query.exSort exNumber exStamp (exShape .bool id .bool) (exTable (.bool true) (.bool false)) = .error .panic ∧
    chartAnswer 4 exHash OptiPrism.Query.exSort exNumber exStamp (exShape .ts id .ts) (exTable (.ts 1) (.ts 2)) = .error .panic ∧
    chartAnswer 4 exHash OptiPrism.Query.exSort exNumber exStamp (exShape .int exDecode .str) (exTable (.int 1) (.int 2)) = .error .panic := by
  have h3 : chartAnswer 4 exHash OptiPrism.Query.exSort exNumber exStamp (exShape .int exDecode .str) (exTable (.int 1) (.int 2)) = .error .panic := by decide +kernel
  refine ⟨?_, by decide +kernel, by decide +kernel, h3⟩
  intro h
  have ht : (exShape .int exDecode .str).Tabled (exTable (.int 1) (.int 2)) :=
    ⟨exTable_tabled.fields, exTable_tabled.length, exTable_tabled.dates, exTable_tabled.vals, exTable_tabled.once, by
      intro r hr b hb
      have hb : b = ⟨"string_0".toList, "City".toList, .int, exDecode, .str⟩ := by simpa [exShape] using hb
      subst hb
      exact fits_str _⟩
  obtain ⟨cols, L, h1, -⟩ := h 4 exHash OptiPrism.Query.exSort exNumber exStamp (exShape .int exDecode .str) (exTable (.int 1) (.int 2)) (by omega)
    OptiPrism.Query.exSort_sorts (exShape_proper exDecode .str).fields (exShape_proper exDecode .str).wide ht (by simp [exTable])
  rw [h3] at h1
  cases h1

end OptiPrism.Platform
