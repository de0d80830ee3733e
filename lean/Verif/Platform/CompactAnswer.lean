import Verif.Platform.ChartAnswer

/-!
# Model: answers in the format `JsonCompact`

A chart of one event (query/src/event_segmentation.rs, platform/src/event_segmentation.rs) and the columns of a search
(platform/src/lib.rs). In this format the plan of a chart has no unpivot, no pivot and no names (event_segmentation.rs 309-318, 349-351, 631
and 684); the averages and the limit of the groups stay (715-732).

`kinds` are the types of the columns of aggregates. The table of aggregates is taken to be one batch; a table without rows is an answer
without columns.
-/

namespace OptiPrism.Platform

open OptiPrism.Meta (Str)
open OptiPrism.Query (Tbl averageAndSort limitGroups)

/-- The columns of the table of aggregates behind the segment: the date and the breakdowns in the order of the table
(segmented_aggregate.rs 640-648). -/
def ChartShape.dated (s : ChartShape) : List Str := s.order.filter fun f => f == kDate || s.breaks.any fun b => b.col == f

/-- The type of such a column before dictionaries are decoded. -/
def ChartShape.rawKind (s : ChartShape) (f : Str) : Option GKind :=
  if f = kDate then some .ts else (s.breakOf f).map (·.kind)

/-- The table of one event (event_segmentation.rs 614-732, with the format `Compact`). The columns behind the groups are read as decimals, or
there is a panic (aggregate_and_sort_columns.rs 146-151); the groups that are limited are as many columns behind the segment as there are
groups without the date (event_segmentation.rs 722-731), and of a known type, or there is a panic (limit_groups.rs 147-176). -/
def compactTable (sortIdx : List Int → List Nat) (kinds : List GKind) (s : ChartShape) (t : Tbl GCell) :
    Except ChartErr (List (List (Option GCell))) :=
  if t.rows.isEmpty then .ok []
  else if kinds.all fun k => k == .dec then
    match averageAndSort mantissaOf GCell.dec sortIdx (s.dated.length - 1 + 2) t.rows with
    | none => .error .panic
    | some rows =>
      let n := s.dated.length - 1
      if n = 0 then .ok rows
      else if (s.dated.take n).all fun f => ((s.rawKind f).map fun k => k.limited).getD false then
        .ok ((limitGroups n (fun r => (r.drop 1).take n) 50 [rows]).flatten)
      else .error .panic
  else .error .panic

/-- The fields of that table (aggregate_and_sort_columns.rs 50-65). -/
def ChartShape.compactFields (s : ChartShape) : List Str := kSegment :: s.dated ++ kAverage :: s.aggs.map Prod.fst

/-- The type of a field of the answer; only decimals are left of the aggregates. -/
def ChartShape.compactKind (s : ChartShape) (f : Str) : GKind :=
  match s.breakOf f with
  | some b => b.shown
  | none => if f = kSegment then .int64 else if f = kDate then .ts else .dec

/-- The answer: the values of every column (platform/src/lib.rs 632-640), breakdowns decoded (event_segmentation.rs 347). An answer without
rows has no columns (platform/src/event_segmentation.rs 79-81). -/
def compactAnswer (sortIdx : List Int → List Nat) (kinds : List GKind) (s : ChartShape) (t : Tbl GCell) : Except ChartErr (List (List JOut)) :=
  match compactTable sortIdx kinds s t with
  | .error e => .error e
  | .ok [] => .ok []
  | .ok rows =>
    match s.compactFields.mapM fun f => columnJson (rows.map fun r => slotOf (s.compactKind f) (shownCell s s.compactFields r f)) with
    | none => .error .panic
    | some cols => .ok cols

/-- A column of a search as the query gives it (query/src/lib.rs `Column`), without its flags. -/
structure FoundColumn where
  name : Str
  metric : Bool
  data : List Slot

/-- `columns_to_json` (platform/src/lib.rs 611-630); `none` is a panic. -/
def columnsJson (l : List FoundColumn) : Option (List AnswerCol) :=
  l.mapM fun c => (columnJson c.data).map fun d => ⟨c.name, c.metric, d⟩

/-- `columns_to_json_compact` (platform/src/lib.rs 632-640). -/
def columnsCompact (l : List FoundColumn) : Option (List (List JOut)) := l.mapM fun c => columnJson c.data

end OptiPrism.Platform
