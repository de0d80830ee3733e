import Verif.Platform.ChartAnswerProps
import Verif.Query.CountProps

/-!
# From the requests of sources to the numbers of a chart (C141)

C116 says what the evaluators make of the rows the ingester stores; this is the rest of the way, to the columns of the answer.
-/

namespace OptiPrism.Platform

open OptiPrism.Meta (Str Event Hist eventsC)
open OptiPrism.Query
open OptiPrism.Ingest (Act App UtmNotEvent Track)

/-- The counts: of events, of users, and of the users "daily". -/
inductive CountKind where
  | events
  | users
  | daily
deriving DecidableEq, Repr

/-- The query of the chart. -/
def CountKind.query : CountKind → CQuery
  | .events => .countEvents
  | .users => .countUniqueGroups
  | .daily => .dailyActiveGroups

/-- The name of the aggregate's column. -/
def CountKind.word : CountKind → Str
  | .events => "count".toList
  | .users | .daily => "partitioned_count".toList

/-- Spec: what the answer calls it. -/
def CountKind.label : CountKind → Str
  | .events => "Count".toList
  | .users => "Count unique".toList
  | .daily => "Daily active".toList

/-- The chart that counts an event per interval: without breakdowns, the columns that are read in any order. -/
def countShape (k : CountKind) (number : Nat → Str) (name : Str) (order : List Str) (dates : List Int) : ChartShape where
  event := name
  order := order
  breaks := []
  aggs := (labelsOf number 0 [k.query]).getD []
  dates := dates

/-- The column of the count. -/
def countCol (k : CountKind) (number : Nat → Str) : Str := number 0 ++ '_' :: (number 0 ++ '_' :: k.word)

/-- The table of the final stage: the segment, the interval and the count as an `Int64` (segmented_aggregate.rs 640-648 and 789-845,
aggregate/count.rs 93-96, planner/partitioned_aggregate.rs 130), a row for each group. -/
def countTable (k : CountKind) (number : Nat → Str) (l : List (Option Int × Rat)) : Tbl GCell where
  fields := [kSegment, kDate, countCol k number]
  rows := l.map fun x => [some (.int 0), x.1.map GCell.ts, some (.int x.2.num)]

/-- Moments are printed differently, and not as a name of a column. -/
structure Stamps (stamp : Int → Str) (dates : List Int) : Prop where
  inj : ∀ d ∈ dates, ∀ d' ∈ dates, stamp d = stamp d' → d = d'
  other : ∀ d ∈ dates, stamp d ∉ [kEventName, kSegment, kAggName, kAverage, kEventShown, kSegmentShown, kFormula]

/-- Spec: a cell shows the number `n`. -/
def ShowsNumber (n : Int) (o : JOut) : Prop := ∃ x : JNum, o = .num x ∧ x.Is n

/-- Spec: the answer with one line: the event, the segment of all, what is counted, the average `a` (a mantissa) and the numbers. -/
structure CountShown (stamp : Int → Str) (label name : Str) (a : Int) (nums : List (Int × Nat)) (cols : List AnswerCol) : Prop where
  columns : cols.map (fun c => (c.name, c.metric)) = [("Event".toList, false), ("Segment".toList, false), ("Formula".toList, false), ("Average".toList, false)] ++
    nums.map fun x => (stamp x.1, true)
  event : (cols[0]?.map AnswerCol.data) = some [.str name]
  segment : ∃ o, (cols[1]?.map AnswerCol.data) = some [o] ∧ ShowsNumber 0 o
  formula : (cols[2]?.map AnswerCol.data) = some [.str label]
  average : ∃ x : JNum, (cols[3]?.map AnswerCol.data) = some [.num x] ∧ x.Near a
  numbers : ∀ (i : Nat) x, nums[i]? = some x → ∃ o, (cols[i + 4]?.map AnswerCol.data) = some [o] ∧ ShowsNumber x.2 o

section

variable {k : CountKind} {number : Nat → Str} {stamp : Int → Str} {name : Str} {order : List Str} {dates : List Int}

theorem countShape_aggs : (countShape k number name order dates).aggs = [(countCol k number, k.label)] := by cases k <;> rfl

theorem countShape_groups : (countShape k number name order dates).groups = [] := by
  unfold ChartShape.groups countShape
  simp

theorem countShape_fields (hn : order.Nodup) (hd : kDate ∈ order) : (countShape k number name order dates).fields = [kSegment, kDate, countCol k number] := by
  have e : order.filter (fun f => f == kDate || ([] : List BreakCol).any fun b => b.col == f) = [kDate] := by
    have : (fun f : Str => f == kDate || ([] : List BreakCol).any fun b => b.col == f) = fun f => f == kDate := by
      funext f
      simp
    rw [this, List.filter_beq, hn.count]
    simp [hd]
  unfold ChartShape.fields
  rw [countShape_aggs]
  show kSegment :: (order.filter (fun f => f == kDate || ([] : List BreakCol).any fun b => b.col == f)) ++ _ = _
  rw [e]
  rfl

theorem word_end : ∃ w, k.word = w ++ "count".toList := by
  cases k
  · exact ⟨[], rfl⟩
  · exact ⟨"partitioned_".toList, rfl⟩
  · exact ⟨"partitioned_".toList, rfl⟩

theorem count_col_ne : countCol k number ≠ kSegment ∧ countCol k number ≠ kDate := by
  have key : ∀ w : Str, w.reverse.take 5 ≠ "tnuoc".toList → countCol k number ≠ w := by
    intro w hw e
    refine hw ?_
    rw [← e]
    unfold countCol
    obtain ⟨x, hx⟩ := word_end (k := k)
    rw [hx]
    simp
  exact ⟨key _ (by decide +kernel), key _ (by decide +kernel)⟩

theorem seg_ne_date : kSegment ≠ kDate := by decide +kernel

theorem countShape_proper (hn : order.Nodup) (hd : kDate ∈ order) (hs : Stamps stamp dates) (hdates : dates.Nodup) :
    (countShape k number name order dates).Proper number stamp where
  fields := by
    rw [countShape_fields hn hd]
    have := count_col_ne (k := k) (number := number)
    simp [seg_ne_date, Ne.symm this.1, Ne.symm this.2]
  wide := by
    unfold ChartShape.wide
    rw [countShape_groups, List.append_nil, List.nodup_append]
    refine ⟨by decide +kernel, ?_, ?_⟩
    · show (dates.map stamp).Nodup
      unfold List.Nodup
      rw [List.pairwise_map]
      exact List.Pairwise.imp_of_mem (fun {a b} ha hb hne e => hne (hs.inj a ha b hb e)) hdates
    · intro f hf g hg e
      obtain ⟨d, hdm, rfl⟩ := List.mem_map.mp (show g ∈ dates.map stamp from hg)
      refine hs.other d hdm ?_
      rw [← e]
      simp only [List.mem_append, List.mem_cons, List.not_mem_nil, or_false] at hf ⊢
      rcases hf with (h | h) | (h | h) <;> simp [h]
  date := hd
  cols := by simp [countShape]
  known := by simp [countShape]
  aggs := by rw [countShape_aggs]; simp
  names := by
    have e : (shownNames number [] (countShape k number name order dates).first).map Prod.snd = [] := rfl
    rw [e]
    intro n hm h
    obtain ⟨d, hdm, rfl⟩ := List.mem_map.mp (show n ∈ dates.map stamp from h)
    refine hs.other d hdm ?_
    simp only [List.append_nil, List.mem_cons, List.not_mem_nil, or_false] at hm ⊢
    rcases hm with h | h | h <;> simp [h]

theorem count_cells (a b c : Option GCell) : cellOf [kSegment, kDate, countCol k number] [a, b, c] kSegment = a ∧
    cellOf [kSegment, kDate, countCol k number] [a, b, c] kDate = b ∧ cellOf [kSegment, kDate, countCol k number] [a, b, c] (countCol k number) = c := by
  obtain ⟨h1, h2⟩ := count_col_ne (k := k) (number := number)
  refine ⟨if_pos rfl, ?_, ?_⟩
  · show (if kSegment = kDate then a else if kDate = kDate then b else _) = b
    rw [if_neg seg_ne_date, if_pos rfl]
  · show (if kSegment = countCol k number then a else if kDate = countCol k number then b else if countCol k number = countCol k number then c else _) = c
    rw [if_neg (Ne.symm h1), if_neg (Ne.symm h2), if_pos rfl]

/-- The table of counts is as the chart needs it. -/
structure Counts (cnt : Int → Nat) (dates : List Int) (l : List (Option Int × Rat)) : Prop where
  once : (l.map Prod.fst).Nodup
  mem : ∀ x ∈ l, ∃ b ∈ dates, x = (some b, ((cnt b : Nat) : Rat)) ∧ cnt b ≠ 0
  all : ∀ b ∈ dates, cnt b ≠ 0 → (some b, ((cnt b : Nat) : Rat)) ∈ l
  small : ∀ b ∈ dates, cnt b < 10 ^ 12

theorem count_row {cnt : Int → Nat} {l : List (Option Int × Rat)} (hc : Counts cnt dates l) {r : List (Option GCell)}
    (hr : r ∈ (countTable k number l).rows) : ∃ b ∈ dates, r = [some (.int 0), some (.ts b), some (.int (cnt b))] ∧ cnt b ≠ 0 := by
  obtain ⟨x, hx, rfl⟩ := List.mem_map.mp hr
  obtain ⟨b, hb, rfl, h0⟩ := hc.mem x hx
  exact ⟨b, hb, by simp, h0⟩

theorem decimal_count {n : Nat} (h : n < 10 ^ 12) : decimalOf (.int (n : Int)) = some ((n : Int) * 10 ^ 16) := by
  show (if (n : Int).natAbs * 10 ^ 16 < 10 ^ 28 then some ((n : Int) * 10 ^ 16) else none) = _
  rw [if_pos]
  rw [Int.natAbs_natCast]
  omega

theorem countTable_tabled (hn : order.Nodup) (hd : kDate ∈ order) {cnt : Int → Nat} {l : List (Option Int × Rat)} (hc : Counts cnt dates l) :
    (countShape k number name order dates).Tabled (countTable k number l) where
  fields := (countShape_fields hn hd).symm
  length := by
    intro r hr
    obtain ⟨b, -, rfl, -⟩ := count_row hc hr
    rfl
  dates := by
    intro r hr
    obtain ⟨b, hb, rfl, -⟩ := count_row hc hr
    exact ⟨b, hb, (count_cells _ _ _).2.1⟩
  vals := by
    intro r hr c hcm
    obtain ⟨b, hb, rfl, -⟩ := count_row hc hr
    rw [countShape_aggs, List.mem_singleton] at hcm
    subst hcm
    refine ⟨(cnt b : Int) * 10 ^ 16, ?_, ?_⟩
    · show (cellOf [kSegment, kDate, countCol k number] _ (countCol k number)).bind decimalOf = _
      rw [(count_cells _ _ _).2.2, Option.bind_some, decimal_count (hc.small b hb)]
    · have := hc.small b hb
      omega
  once := by
    unfold countTable
    rw [List.pairwise_map]
    have h := hc.once
    unfold List.Nodup at h
    rw [List.pairwise_map] at h
    refine h.imp ?_
    rintro x y hne ⟨-, e⟩
    have e : cellOf [kSegment, kDate, countCol k number] _ kDate = cellOf [kSegment, kDate, countCol k number] _ kDate := e
    rw [(count_cells _ _ _).2.1, (count_cells _ _ _).2.1] at e
    refine hne ?_
    cases hx : x.1 <;> cases hy : y.1 <;> simp_all
  fits := by simp [countShape]

theorem near_is {x : JNum} {v : Int} (h : x.Near (v * 10 ^ 16)) : x.Is v := by
  unfold JNum.Near at h
  unfold JNum.Is
  cases x with
  | int w =>
    simp only [JNum.top, JNum.bottom] at h ⊢
    omega
  | dec w =>
    simp only [JNum.top, JNum.bottom] at h ⊢
    omega

/-- The columns of the chart. -/
def countHeads (k : CountKind) (number : Nat → Str) (stamp : Int → Str) (name : Str) (dates : List Int) (l : List (Option Int × Rat)) : List Head :=
  [⟨kEventName, kEventShown, false, .str, fun _ => some (.str name)⟩, ⟨kSegment, kSegmentShown, false, .int64, fun e => cellOf (countTable k number l).fields e.row kSegment⟩,
    ⟨kAggName, kFormula, false, .str, fun e => some (.str e.label)⟩, ⟨kAverage, kAverage, false, .dec, fun e => some (.dec e.mean)⟩] ++
  dates.zipIdx.map fun d => ⟨stamp d.1, stamp d.1, true, .dec, fun e => (e.vals[d.2]?.getD none).map GCell.dec⟩

/-- The columns of a chart of counts. -/
theorem count_shown (B : Nat) (hB : 1 ≤ B) (h : List (Option GCell) → Nat) {sortIdx : List Int → List Nat} (hs : SortsDown sortIdx)
    (hn : order.Nodup) (hd : kDate ∈ order) (hst : Stamps stamp dates) (hdates : dates.Nodup) {cnt : Int → Nat} {l : List (Option Int × Rat)} (hc : Counts cnt dates l) :
    (l = [] → chartAnswer B h sortIdx number stamp (countShape k number name order dates) (countTable k number l) = .ok []) ∧
    (l ≠ [] → ∃ cols a, chartAnswer B h sortIdx number stamp (countShape k number name order dates) (countTable k number l) = .ok cols ∧
      MeanZero (dates.map fun b => some ((cnt b : Int) * 10 ^ 16)) a ∧ CountShown stamp k.label name a (dates.map fun b => (b, cnt b)) cols) := by
  have hp : (countShape k number name order dates).Proper number stamp := countShape_proper hn hd hst hdates
  have ht : (countShape k number name order dates).Tabled (countTable k number l) := countTable_tabled hn hd hc
  refine ⟨fun hl => C140_empty B hB h sortIdx number stamp _ _ hp ht (by rw [hl]; rfl), fun hl => ?_⟩
  have hkey : ∀ r ∈ (countTable k number l).rows, ∀ c ∈ (countShape k number name order dates).aggs,
      (countShape k number name order dates).key (countTable k number l) r c.1 = [some (.int 0), some (.str (countCol k number))] := by
    intro r hr c hcm
    obtain ⟨b, hb, rfl, -⟩ := count_row hc hr
    rw [countShape_aggs, List.mem_singleton] at hcm
    subst hcm
    unfold ChartShape.key
    rw [countShape_groups]
    show [cellOf [kSegment, kDate, countCol k number] _ kSegment] ++ _ = _
    rw [(count_cells _ _ _).1]
    rfl
  obtain ⟨cols, L, h1, ⟨h2, h3⟩, h4, h5, h6, -, -, -⟩ := C140_partial B hB h hs number stamp (countShape k number name order dates) (countTable k number l) hp ht hst.inj
    (fun r hr c hcm r' hr' c' hcm' _ => by rw [hkey r hr c hcm, hkey r' hr' c' hcm'])
    ⟨[[some (.int 0), some (.str (countCol k number))]], by simp; omega, fun r hr c hcm => by rw [hkey r hr c hcm]; simp⟩
    (by unfold countTable; simpa using hl)
  -- there is one line
  obtain ⟨e, hLe⟩ : ∃ e, L = [e] := by
    match L, h4, h5, h6 with
    | [], h4, _, _ => exact absurd rfl h4
    | [e], _, _, _ => exact ⟨e, rfl⟩
    | e :: e' :: L, _, h5, h6 =>
      exfalso
      have hne := (List.pairwise_cons.mp h6).1 e' (by simp)
      have o1 := h5 e (by simp)
      have o2 := h5 e' (by simp)
      refine hne ?_
      rw [← ChartShape.key_inj]
      exact (hkey e.row o1.row _ o1.agg).trans (hkey e'.row o2.row _ o2.agg).symm
  subst hLe
  have he := h5 e (by simp)
  obtain ⟨b0, -, hrow, -⟩ := count_row hc he.row
  have hagg := he.agg
  rw [countShape_aggs, List.mem_singleton, Prod.mk.injEq] at hagg
  -- its values
  have hval : ∀ (i : Nat) d, dates[i]? = some d → ∃ v, e.vals[i]? = some v ∧ v.getD 0 = (cnt d : Int) * 10 ^ 16 := by
    intro i d hi
    have hdm := List.mem_of_getElem? hi
    obtain ⟨v, hv, hcv⟩ := he.vals i d hi
    refine ⟨v, hv, ?_⟩
    cases v with
    | some m =>
      obtain ⟨r', hr', -, hdate, hm⟩ := hcv
      obtain ⟨b, hb, rfl, -⟩ := count_row hc hr'
      have hdate : cellOf [kSegment, kDate, countCol k number] _ kDate = _ := hdate
      rw [(count_cells _ _ _).2.1] at hdate
      rw [hagg.1] at hm
      have hm : (cellOf [kSegment, kDate, countCol k number] _ (countCol k number)).bind decimalOf = _ := hm
      rw [(count_cells _ _ _).2.2] at hm
      have hbd : b = d := by simpa using hdate
      subst hbd
      rw [Option.bind_some, decimal_count (hc.small b hb)] at hm
      exact (Option.some.inj hm).symm
    | none =>
      have h0 : cnt d = 0 := by
        rcases Nat.eq_zero_or_pos (cnt d) with h0 | h0
        · exact h0
        · exfalso
          have hm := hc.all d hdm (by omega)
          refine hcv [some (.int 0), some (.ts d), some (.int (cnt d))] (List.mem_map.mpr ⟨_, hm, by simp⟩) ?_ (count_cells _ _ _).2.1
          intro f hf
          rw [countShape_groups, List.mem_singleton] at hf
          subst hf
          show cellOf [kSegment, kDate, countCol k number] _ kSegment = cellOf [kSegment, kDate, countCol k number] _ kSegment
          rw [hrow, (count_cells _ _ _).1, (count_cells _ _ _).1]
      rw [h0]
      simp
  have hlen : e.vals.length = dates.length := he.length
  have hvals : e.vals.map (fun v => v.getD 0) = dates.map fun b => (cnt b : Int) * 10 ^ 16 := by
    refine List.ext_getElem? fun i => ?_
    rw [List.getElem?_map, List.getElem?_map]
    cases hi : dates[i]? with
    | none =>
      have : e.vals[i]? = none := by
        rw [List.getElem?_eq_none_iff] at hi ⊢
        omega
      rw [this]
      rfl
    | some d =>
      obtain ⟨v, hv, hcv⟩ := hval i d hi
      rw [hv, Option.map_some, hcv]
      rfl
  refine ⟨cols, e.mean, h1, ?_, ?_⟩
  · have := he.mean
    unfold MeanZero at this ⊢
    rw [hvals, hlen] at this
    rw [List.map_map, List.length_map]
    exact this
  · -- the columns
    have hheads : (countShape k number name order dates).heads number stamp (countTable k number l) =
        countHeads k number stamp name dates l := rfl
    rw [hheads] at h2 h3
    have hdata : ∀ (i : Nat) (hd : Head), (countHeads k number stamp name dates l)[i]? = some hd →
        ∃ o, (cols[i]?.map AnswerCol.data) = some [o] ∧ Written (slotOf hd.kind (hd.cell e)).orZero o := by
      intro i hd hi
      obtain ⟨col, k1, -, -, k2, k3⟩ := h3 i hd hi
      obtain ⟨o, k4, k5⟩ := k3 0 e rfl
      refine ⟨o, ?_, k5⟩
      rw [k1, Option.map_some]
      cases hdt : col.data with
      | nil => rw [hdt] at k2; simp at k2
      | cons x xs =>
        rw [hdt] at k2 k4
        have : xs = [] := by
          simp only [List.length_cons, List.length_nil] at k2
          exact List.eq_nil_of_length_eq_zero (by omega)
        rw [this] at k4 ⊢
        simp at k4
        rw [k4]
    have w1 : kEventShown = "Event".toList := by decide +kernel
    have w2 : kSegmentShown = "Segment".toList := by decide +kernel
    have w3 : kFormula = "Formula".toList := by decide +kernel
    have w4 : kAverage = "Average".toList := by decide +kernel
    refine ⟨?_, ?_, ?_, ?_, ?_, ?_⟩
    · rw [← w1, ← w2, ← w3, ← w4, List.map_map]
      have e1 : cols.map (fun c => (c.name, c.metric)) = (countHeads k number stamp name dates l).map fun hd => (hd.name, hd.metric) := by
        refine List.ext_getElem? fun i => ?_
        rw [List.getElem?_map, List.getElem?_map]
        cases hi : (countHeads k number stamp name dates l)[i]? with
        | none =>
          have : cols[i]? = none := by
            rw [List.getElem?_eq_none_iff] at hi ⊢
            omega
          rw [this]
          rfl
        | some hd =>
          obtain ⟨col, k1, k2, k3, -⟩ := h3 i hd hi
          rw [k1, Option.map_some, Option.map_some, k2, k3]
      rw [e1]
      unfold countHeads
      rw [List.map_append, List.map_map]
      have e2 : dates.zipIdx.map Prod.fst = dates := List.zipIdx_map_fst 0 _
      have e3 : dates.map ((fun x : Int × Nat => (stamp x.1, true)) ∘ fun b => (b, cnt b)) = dates.zipIdx.map fun d => (stamp d.1, true) := by
        conv => lhs; rw [← e2, List.map_map]
        rfl
      rw [e3]
      rfl
    · obtain ⟨o, k1, k2⟩ := hdata 0 _ rfl
      rw [k1, show o = .str name from k2]
    · obtain ⟨o, k1, k2⟩ := hdata 1 _ rfl
      refine ⟨o, k1, ?_⟩
      have hcell : cellOf (countTable k number l).fields e.row kSegment = some (.int 0) := by
        rw [hrow]
        exact (count_cells _ _ _).1
      have k2 : Written (slotOf .int64 (cellOf (countTable k number l).fields e.row kSegment)).orZero o := k2
      rw [hcell] at k2
      exact k2
    · obtain ⟨o, k1, k2⟩ := hdata 2 _ rfl
      have k2 : o = .str e.label := k2
      rw [k1, k2, hagg.2]
    · obtain ⟨o, k1, k2⟩ := hdata 3 _ rfl
      obtain ⟨x, rfl, k3⟩ := (show ∃ x : JNum, o = .num x ∧ x.Near e.mean from k2)
      exact ⟨x, k1, k3⟩
    · intro i x hx
      rw [List.getElem?_map, Option.map_eq_some_iff] at hx
      obtain ⟨d, hi, rfl⟩ := hx
      obtain ⟨v, hv, hcv⟩ := hval i d hi
      obtain ⟨o, k1, k2⟩ := hdata (i + 4) ⟨stamp d, stamp d, true, .dec, fun e => (e.vals[i]?.getD none).map GCell.dec⟩ (by
        unfold countHeads
        rw [List.getElem?_append_right (by simp)]
        simp [hi])
      refine ⟨o, k1, ?_⟩
      have k2 : Written (slotOf .dec ((e.vals[i]?.getD none).map GCell.dec)).orZero o := k2
      rw [hv] at k2
      have hsl : (slotOf .dec ((((some v : Option (Option Int)).getD none)).map GCell.dec)).orZero = .dec (some (v.getD 0)) := by
        cases v <;> rfl
      rw [hsl, hcv] at k2
      obtain ⟨y, rfl, k3⟩ := (show ∃ y : JNum, o = .num y ∧ y.Near ((cnt d : Int) * 10 ^ 16) from k2)
      exact ⟨y, rfl, near_is k3⟩

end

/-! ## C141 -/

/-- **C141.** After any acts of sources and administrators of which none renames or deletes an event of the project, the answer to a chart that
counts an event per interval, computed from the stored rows by any workers, has no columns if no request of the event was accepted in the
range, and else one line with the event, "Count", the mean over the intervals and for each interval of the range the exact number of accepted
requests. -/
theorem C141 {Q : Type} {S : Meta.Env Q} (hsys : ∀ n, '/' ∉ S.sys n) (hutm : UtmNotEvent S.sys) {K : Nat} {p : Nat} (hp : p < 2 ^ 64) (l : List (Act Q))
    (hx : ∀ x ∈ l, x.Fits S K) (hs : ∀ x ∈ l, x.SparesEvents p) {a : App} {n : Nat} (h : Hist S n a.world.kv) (hr : a.world.rows = []) (hn : n + (l.map (Act.cost K)).sum < 2 ^ 62)
    (htimes : ∀ x ∈ a.accepted S l, SaneTime x.2.time) (hmany : (a.accepted S l).length < 10 ^ 12)
    {name : Str} (hb : name ≠ Ingest.kSessionBegin) {ev : Event} (hev : (eventsC p).getBy .name name (a.acts S l).world.kv = .ok ev)
    {F : Type} (md : Md F) (hmd : md.event name = .ok ev.id) (Sm : Sem) (hS : ∀ a b, Sm.lt (.ts a) (.ts b) = decide (a < b)) (fuel : Nat) (q : QueryTime) (cur : Int)
    (hq : ∀ n, (q = .last n .month → -2147483648 ≤ n ∧ n < 2147483648) ∧ (q = .last n .year → -178956970 ≤ n ∧ n ≤ 178956970))
    (u : Unit') (gc : Str) {order : List Str} (ho : order.Nodup) (hod : "created_at".toList ∈ order) :
    ∃ e f t, segmentationFilter md (fuel + 1) .ms p q cur ⟨.regularName name, none⟩ none = .ok e ∧ Denotes q cur f t ∧
      ∀ (B : Bounds) (workers : List (List (List (List OptiPrism.Storage.NamedValue)) × List (Option Int × Rat))) (final : List (Option Int × Rat)),
        (workers.map Prod.fst).flatten.flatten.Perm (((a.acts S l).world.rows.filter fun x => x.1 = "events".toList).map Prod.snd) →
        (∀ w ∈ workers, Listing (fun g => (countEval none false (fun _ => none) (w.1.map (planned Sm u gc e)) g).map fun n : Nat => (n : Rat)) w.2) →
        Listing (fun g => (combine B .count 0 (workers.map fun w => workerRows [w.2]) g).bind AggFn.result) final →
        ∀ (buf : Nat) (hash : List (Option GCell) → Nat) (sortIdx : List Int → List Nat) (number : Nat → Str) (stamp : Int → Str),
          1 ≤ buf → SortsDown sortIdx → Stamps stamp (timeColumns f t u) →
          ((∀ b, requestCount (a.accepted S l) p name f t u b = 0) →
            chartAnswer buf hash sortIdx number stamp (countShape .events number name order (timeColumns f t u)) (countTable .events number final) = .ok []) ∧
          ((∃ b, requestCount (a.accepted S l) p name f t u b ≠ 0) → ∃ cols mean,
            chartAnswer buf hash sortIdx number stamp (countShape .events number name order (timeColumns f t u)) (countTable .events number final) = .ok cols ∧
            MeanZero ((timeColumns f t u).map fun b => some ((requestCount (a.accepted S l) p name f t u b : Int) * 10 ^ 16)) mean ∧
            CountShown stamp "Count".toList name mean ((timeColumns f t u).map fun b => (b, requestCount (a.accepted S l) p name f t u b)) cols) := by
  obtain ⟨e, f, t, h1, h2, h3, h4⟩ := C116 hsys hutm hp l hx hs h hr hn htimes hb hev md hmd Sm hS fuel q cur hq u gc
  refine ⟨e, f, t, h1, h2, ?_⟩
  intro B workers final hperm hw hfinal buf hash sortIdx number stamp hbuf hsort hst
  obtain ⟨g1, g2, g3⟩ := h3 B workers hperm hw
  have hdate : kDate ∈ order := by
    have : kDate = "created_at".toList := by decide +kernel
    rw [this]
    exact hod
  have hnod : (timeColumns f t u).Nodup := (C66_columns u f t).2.2.imp fun h => Int.ne_of_lt h
  have hres : ∀ b, requestCount (a.accepted S l) p name f t u b ≠ 0 →
      (combine B .count 0 (workers.map fun w => workerRows [w.2]) (some b)).bind AggFn.result = some ((requestCount (a.accepted S l) p name f t u b : Nat) : Rat) := by
    intro b hb0
    obtain ⟨fn, k1, k2⟩ := g2 b hb0
    rw [k1]
    exact k2
  have hc : Counts (requestCount (a.accepted S l) p name f t u) (timeColumns f t u) final := by
    refine ⟨hfinal.1, ?_, ?_, ?_⟩
    · rintro ⟨g, v⟩ hm
      have hm := (hfinal.2 g v).mp hm
      beta_reduce at hm
      cases g with
      | none =>
        rw [g3] at hm
        cases hm
      | some b =>
        by_cases h0 : requestCount (a.accepted S l) p name f t u b = 0
        · rw [g1 b h0] at hm
          cases hm
        · rw [hres b h0] at hm
          exact ⟨b, h4 b h0, by rw [Option.some.inj hm], h0⟩
    · intro b _ h0
      exact (hfinal.2 _ _).mpr (hres b h0)
    · intro b _
      refine Nat.lt_of_le_of_lt ?_ hmany
      unfold requestCount
      exact List.length_filter_le _ _
  obtain ⟨r1, r2⟩ := count_shown (k := .events) (number := number) (stamp := stamp) (name := name) buf hbuf hash hsort ho hdate hst hnod hc
  refine ⟨fun h0 => r1 ?_, fun ⟨b, h0⟩ => r2 ?_⟩
  · cases hfl : final with
    | nil => rfl
    | cons x xs =>
      obtain ⟨b, -, -, hb0⟩ := hc.mem x (by rw [hfl]; simp)
      exact absurd (h0 b) hb0
  · exact List.ne_nil_of_mem (hc.all b (h4 b h0) h0)

/-- Two intervals, one with three requests. -/
example : ∃ cols a, chartAnswer 4 exHash exSort exNumber exStamp (countShape .events exNumber "Buy".toList ["event".toList, "created_at".toList] [1, 2])
      (countTable .events exNumber [(some 2, 3)]) = .ok cols ∧ MeanZero [some 0, some (3 * 10 ^ 16)] a ∧ CountShown exStamp "Count".toList "Buy".toList a [(1, 0), (2, 3)] cols := by
  obtain ⟨cols, a, h1, h2, h3⟩ := (count_shown (k := .events) (number := exNumber) (stamp := exStamp) (name := "Buy".toList) (order := ["event".toList, "created_at".toList])
    (dates := [1, 2]) (cnt := fun b => if b = 2 then 3 else 0) (l := [(some 2, 3)]) 4 (by omega) exHash exSort_sorts (by decide +kernel) (by decide +kernel)
    ⟨by decide +kernel, by decide +kernel⟩ (by decide) ⟨by simp, by simp, by simp, by simp⟩).2 (by simp)
  exact ⟨cols, a, h1, h2, h3⟩

end OptiPrism.Platform
