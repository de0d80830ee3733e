import Verif.Platform.Answer
import Verif.Platform.Request
import Verif.Query.ResultProps
import Verif.Query.Average

/-!
# Model: the answer to a chart

From the table of aggregates of one event to the columns of the answer, in the format `Json`: query/src/event_segmentation.rs (the plan,
cited as `event_segmentation.rs`), the operators it is made of (query/src/physical_plan) and platform/src/event_segmentation.rs. Unpivot,
pivot, renaming of rows, averages and limits are the models of C62 to C64, C88 and C119; the aggregates are those of C51 to C54.

Several events are in `ChartsAnswer`, the format `JsonCompact` in `CompactAnswer`. Left out: the flags `is_nullable` and `data_type` of a column.
`B` is the length of the buffers of the pivot, `h` its hash, `sortIdx` the sort of arrow, `stamp` the way a moment is printed: arrow's cast of a
timestamp to a string and the format of `time_columns` agree on whole seconds.
-/

namespace OptiPrism.Platform

open OptiPrism.Meta (Str)
open OptiPrism.Query (Tbl Name PErr resultTable renameRow averageAndSort limitGroups)

/-- A cell that is not NULL. A decimal is its mantissa. -/
inductive GCell where
  | int (v : Int)
  | dec (m : Int)
  | str (s : Str)
  | bool (b : Bool)
  | ts (t : Int)
deriving DecidableEq, Repr

/-- The data types of columns, as far as operators tell them apart; `int` are the integers other than `Int64`. -/
inductive GKind where
  | int64
  | int
  | dec
  | str
  | bool
  | ts
deriving DecidableEq, Repr

/-- A slot of a column. Cells are of the type of their column. -/
def slotOf (k : GKind) (c : Option GCell) : Slot :=
  match k, c with
  | .int64, some (.int v) => .int (some v)
  | .int64, _ => .int none
  | .int, some (.int v) => .int (some v)
  | .int, _ => .int none
  | .dec, some (.dec m) => .dec (some m)
  | .dec, _ => .dec none
  | .str, some (.str s) => .str (some s)
  | .str, _ => .str none
  | .bool, some (.bool b) => .bool (some b)
  | .bool, _ => .bool none
  | .ts, some (.ts t) => .ts (some t)
  | .ts, _ => .ts none

/-- The cast of an aggregate to `Decimal128(28, 16)` (unpivot.rs 441-455; common/src/types.rs 14-15): NULL if there are too many digits. -/
def decimalOf : GCell → Option Int
  | .int v => if v.natAbs * 10 ^ 16 < 10 ^ 28 then some (v * 10 ^ 16) else none
  | .dec m => some m
  | _ => none

/-- The mantissa of a decimal. -/
def mantissaOf : GCell → Int
  | .dec m => m
  | _ => 0

/-- The name of the column of a date: the cast to a string (pivot.rs 253); the string of a NULL is empty. -/
def dateName (stamp : Int → Str) : Option GCell → Name
  | some (.ts t) => stamp t
  | _ => []

@[irreducible] def kDate : Str := "created_at".toList
@[irreducible] def kEventName : Str := "event".toList
@[irreducible] def kSegment : Str := "segment".toList
@[irreducible] def kAggName : Str := "agg_name".toList
@[irreducible] def kAverage : Str := "Average".toList
@[irreducible] def kEventShown : Str := "Event".toList
@[irreducible] def kSegmentShown : Str := "Segment".toList
@[irreducible] def kFormula : Str := "Formula".toList

/-- A breakdown: the column and the name of its property, the type of the column, and what decoding the dictionary makes of its cells and
its type. -/
structure BreakCol where
  col : Str
  name : Str
  kind : GKind
  decode : Option GCell → Option GCell
  shown : GKind

/-- What a chart of one event asks for: the name of the event, the columns of the table in their order, the breakdowns of the event and
then those of the request, the aggregate columns with their labels, and the moments of the columns. -/
structure ChartShape where
  event : Str
  order : List Str
  breaks : List BreakCol
  aggs : List (Str × Str)
  dates : List Int

/-! ### Labels -/

/-- `Query::initial_name` (common/src/event_segmentation.rs 82-94). -/
def initialName : CQuery → Option Str
  | .countEvents => some "count".toList
  | .countUniqueGroups | .dailyActiveGroups | .countPerGroup _ => some "partitioned_count".toList
  | .weeklyActiveGroups | .monthlyActiveGroups => none
  | .aggregatePropertyPerGroup _ _ _ => some "partitioned_agg".toList
  | .aggregateProperty _ _ => some "agg".toList
  | .formula _ => none

/-- `Display` of `AggregateFunction` (common/src/query.rs 66-70). -/
def aggShown : CAgg → Str
  | .count => "COUNT".toList
  | .sum => "SUM".toList
  | .min => "MIN".toList
  | .max => "MAX".toList
  | .avg => "AVG".toList

/-- `Display` of `PartitionedAggregateFunction` (common/src/query.rs 107-111). -/
def partAggShown : CPAgg → Str
  | .count => "COUNT".toList
  | .sum => "SUM".toList
  | .min => "MIN".toList
  | .max => "MAX".toList
  | .avg => "AVG".toList

/-- `PropertyRef::name` (common/src/query.rs 207-213). -/
def propertyShown : Meta.PropertyRef → Option Str
  | .group n _ => some n
  | .event n => some n
  | .custom _ => none

/-- `Query::name` (common/src/event_segmentation.rs 95-128). The name given in the request is not used (query/src/event_segmentation.rs 702). -/
def queryName : CQuery → Option Str
  | .countEvents => some "Count".toList
  | .countUniqueGroups => some "Count unique".toList
  | .dailyActiveGroups => some "Daily active".toList
  | .weeklyActiveGroups => some "Weekly active".toList
  | .monthlyActiveGroups => some "Monthly active".toList
  | .countPerGroup .count => some "Count".toList
  | .countPerGroup .sum => some "Sum".toList
  | .countPerGroup .min => some "Min".toList
  | .countPerGroup .max => some "Max".toList
  | .countPerGroup .avg => some "Avg".toList
  | .aggregatePropertyPerGroup p g a => (propertyShown p).map fun n => aggShown a ++ '(' :: (partAggShown g ++ '(' :: (n ++ "))".toList))
  | .aggregateProperty p a => (propertyShown p).map fun n => aggShown a ++ '(' :: (n ++ ")".toList)
  | .formula f => some f

/-- The column of the query `i` of the event `e` and its label (query/src/event_segmentation.rs 698-703); `none` is a panic. -/
def labelOf (number : Nat → Str) (e i : Nat) (q : CQuery) : Option (Str × Str) := do
  let x ← initialName q
  let n ← queryName q
  return (number e ++ '_' :: (number i ++ '_' :: x), n)

/-- The aggregates of an event. -/
def labelsOf (number : Nat → Str) (e : Nat) (qs : List CQuery) : Option (List (Str × Str)) :=
  qs.zipIdx.mapM fun x => labelOf number e x.2 x.1

/-- How a request fails. -/
inductive ChartErr where
  | refused
  | panic
deriving DecidableEq, Repr

/-- The breakdowns whose column is met for the first time (event_segmentation.rs 369-441: `group_cols.contains`). -/
def newBreaks : List Str → List BreakCol → List BreakCol
  | _, [] => []
  | seen, b :: bs => if b.col ∈ seen then newBreaks seen bs else b :: newBreaks (seen ++ [b.col]) bs

/-- The columns of the groups in front of the others in the answer (event_segmentation.rs 352-356 and 369-443). -/
def ChartShape.first (s : ChartShape) : List BreakCol := newBreaks [kEventName, kSegment] s.breaks

/-- The name of a breakdown in the answer: with a number if the name has been used before (event_segmentation.rs 388-402). -/
def shownNames (number : Nat → Str) : List Str → List BreakCol → List (Str × Str)
  | _, [] => []
  | used, b :: bs =>
    let found := used.count b.name
    (b.col, if found = 0 then b.name else b.name ++ ' ' :: number (found + 1)) :: shownNames number (used ++ [b.name]) bs

/-- `rename_groups` (event_segmentation.rs 360-367, 388-441 and 444). -/
def ChartShape.renames (number : Nat → Str) (s : ChartShape) : List (Str × Str) :=
  [(kEventName, kEventShown), (kSegment, kSegmentShown)] ++ shownNames number [] s.first ++ [(kAggName, kFormula)]

/-- `RenameColumnsExec` (rename_columns.rs 38-54). -/
def renameColumn (l : List (Str × Str)) (f : Str) : Str :=
  match l.find? fun p => p.1 == f with
  | none => f
  | some p => p.2

/-- The columns the table is grouped by besides the date, in the order of the table (event_segmentation.rs 850-864; segmented_aggregate.rs
176-182). -/
def ChartShape.groups (s : ChartShape) : List Str := s.order.filter fun f => f != kDate && s.breaks.any fun b => b.col == f

/-- The fields of the table of aggregates (segmented_aggregate.rs 640-648). -/
def ChartShape.fields (s : ChartShape) : List Str :=
  kSegment :: (s.order.filter fun f => f == kDate || s.breaks.any fun b => b.col == f) ++ s.aggs.map Prod.fst

/-- `ReorderColumnsExec`, the fields (reorder_columns.rs 41-48). -/
def reordered (cols fields : List Str) : List Str := cols ++ fields.filter fun f => !cols.contains f

/-- The value of a field in a row (`column_by_name`, reorder_columns.rs 133). -/
def cellAt (fields : List Str) (row : List (Option GCell)) (f : Str) : Option GCell :=
  (((fields.zip row).find? fun x => x.1 == f).map Prod.snd).getD none

/-- Whether `LimitGroupsExec` knows the type (limit_groups.rs 153-176). -/
def GKind.limited : GKind → Bool
  | .int64 | .dec | .str => true
  | _ => false

/-- The breakdown of a column. -/
def ChartShape.breakOf (s : ChartShape) (f : Str) : Option BreakCol := s.breaks.find? fun b => b.col == f

/-- The dates as they are printed. -/
def ChartShape.dateCols (stamp : Int → Str) (s : ChartShape) : List Str := s.dates.map stamp

/-- One row of the pivot with the aggregate renamed (event_segmentation.rs 698-713): the groups, the label, the values. -/
def relabel (aggs : List (Str × Str)) (x : List (Option GCell) × List (Option Int)) : List (Option GCell) :=
  x.1.dropLast ++ [match x.1.getLast? with
    | some (some (.str n)) => (renameRow aggs (some n)).map GCell.str
    | some c => c
    | none => none] ++ x.2.map fun v => v.map GCell.dec

/-- The table of one event after `build_event_logical_plan` (event_segmentation.rs 614-732): segment, groups, label, average, dates. The
pivot gives one batch, or none if there is no group (pivot.rs 223-231). `labels` are those of the aggregates of all events (698-705). -/
def chartTableWith (labels : List (Str × Str)) (B : Nat) (h : List (Option GCell) → Nat) (sortIdx : List Int → List Nat) (stamp : Int → Str) (s : ChartShape) (t : Tbl GCell) :
    Except ChartErr (List (List (Option GCell))) :=
  match resultTable B h decimalOf (dateName stamp) GCell.str kDate (s.aggs.map Prod.fst) (s.dateCols stamp) t with
  | none => .error .refused
  | some (.error .unknownName) => .error .refused
  | some (.error .panic) => .error .panic
  | some (.ok []) => .ok []
  | some (.ok out) =>
    match averageAndSort mantissaOf GCell.dec sortIdx (s.groups.length + 2) (out.map (relabel labels)) with
    | none => .error .panic
    | some rows =>
      if s.groups.all fun f => ((s.breakOf f).map fun b => b.kind.limited).getD false then
        .ok ((limitGroups s.groups.length (fun r => (r.drop 1).take s.groups.length) 50 [rows]).flatten)
      else .error .panic

/-- The table of the only event. -/
def chartTable (B : Nat) (h : List (Option GCell) → Nat) (sortIdx : List Int → List Nat) (stamp : Int → Str) (s : ChartShape) (t : Tbl GCell) :
    Except ChartErr (List (List (Option GCell))) :=
  chartTableWith s.aggs B h sortIdx stamp s t

/-- The fields of that table with the event in front (add_string_column.rs 41-45; aggregate_and_sort_columns.rs 50-65). -/
def ChartShape.wide (stamp : Int → Str) (s : ChartShape) : List Str :=
  [kEventName, kSegment] ++ s.groups ++ [kAggName, kAverage] ++ s.dateCols stamp

/-- A column of the answer (platform/src/lib.rs 571-583). -/
structure AnswerCol where
  name : Str
  metric : Bool
  data : List JOut
deriving DecidableEq, Repr

/-- The cell of a row under a field: the event (add_string_column.rs 130-135), or the cell of the table, decoded if it is that of a
breakdown (event_segmentation.rs 347 and 589-612). -/
def shownCell (s : ChartShape) (fields : List Str) (row : List (Option GCell)) (f : Str) : Option GCell :=
  match s.breakOf f with
  | some b => b.decode (cellAt fields row f)
  | none => cellAt fields row f

/-- The type of a field of the answer. -/
def ChartShape.kindOf (stamp : Int → Str) (s : ChartShape) (f : Str) : GKind :=
  match s.breakOf f with
  | some b => b.shown
  | none => if f = kSegment then .int64 else if f = kAverage ∨ f ∈ s.dateCols stamp then .dec else .str

/-- The columns of the answer for the rows of the table: the order and the names of the columns (event_segmentation.rs 443-451), their kind
(134-158) and their values (platform/src/lib.rs 611-630). An answer without rows has no columns (platform/src/event_segmentation.rs 79-81). -/
def answerColumns (number : Nat → Str) (stamp : Int → Str) (s : ChartShape) (rows : List (List (Option GCell))) : Except ChartErr (List AnswerCol) :=
  match rows with
  | [] => .ok []
  | rows =>
    match (reordered ([kEventName, kSegment] ++ s.first.map (·.col) ++ [kAggName]) (s.wide stamp)).mapM fun f =>
      (columnJson (rows.map fun r => slotOf (s.kindOf stamp f) (shownCell s (s.wide stamp) (some (.str s.event) :: r) f))).map fun data =>
        (⟨renameColumn (s.renames number) f, decide (renameColumn (s.renames number) f ∈ s.dateCols stamp), data⟩ : AnswerCol) with
    | none => .error .panic
    | some cols => .ok cols

/-- The answer to a chart of one event whose aggregates are the table `t`. -/
def chartAnswer (B : Nat) (h : List (Option GCell) → Nat) (sortIdx : List Int → List Nat) (number : Nat → Str) (stamp : Int → Str)
    (s : ChartShape) (t : Tbl GCell) : Except ChartErr (List AnswerCol) :=
  match chartTable B h sortIdx stamp s t with
  | .error e => .error e
  | .ok rows => answerColumns number stamp s rows

end OptiPrism.Platform
