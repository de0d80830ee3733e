import Verif.Platform.ChartAnswer
import Verif.Query.Table

/-!
# Model: the answer to a chart of several events

Query/src/event_segmentation.rs: the tables of the events are made one by one and merged (320-344), the breakdowns of all events come in front of
those of the request (369-441). The merge is the model of C65.
-/

namespace OptiPrism.Platform

open OptiPrism.Meta (Str)
open OptiPrism.Query (Tbl Name mergeStreams mergeSchema)

/-- An event of the chart: its name, its own breakdowns, its aggregates with their labels. -/
structure EventPart where
  name : Str
  own : List BreakCol
  aggs : List (Str × Str)

/-- What the chart asks for: the columns of the table in their order, the breakdowns of the request, the moments, the events. -/
structure ChartsShape where
  order : List Str
  common : List BreakCol
  dates : List Int
  events : List EventPart

/-- The chart of one of the events (event_segmentation.rs 801-848). -/
def ChartsShape.part (M : ChartsShape) (e : EventPart) : ChartShape := ⟨e.name, M.order, e.own ++ M.common, e.aggs, M.dates⟩

/-- The chart of all: the breakdowns of the events and then those of the request (event_segmentation.rs 369-441), the aggregates of all events
(698-705). -/
def ChartsShape.whole (M : ChartsShape) : ChartShape := ⟨[], M.order, M.events.flatMap EventPart.own ++ M.common, M.events.flatMap EventPart.aggs, M.dates⟩

/-- The schema of the table of an event: the segment (segmented_aggregate.rs 640), the groups as they are in the table of events, the label
(unpivot.rs 112), the average (aggregate_and_sort_columns.rs 57-61) and the moments (pivot.rs 89). -/
def ChartsShape.schema (nullable : Str → Bool) (stamp : Int → Str) (M : ChartsShape) (e : EventPart) : List (Name × Bool) :=
  (kSegment, false) :: (M.part e).groups.map (fun f => (f, nullable f)) ++ [(kAggName, false), (kAverage, false)] ++ M.dates.map fun d => (stamp d, true)

/-- The stream of an event: one batch, or none (pivot.rs 223-231). -/
def streamOf (fields : List Name) (rows : List (List (Option GCell))) : List (Tbl GCell) :=
  match rows with
  | [] => []
  | rows => [⟨fields, rows⟩]

/-- The columns of the answer for the merged rows (as `answerColumns`, with the columns of the merge). -/
def fieldsAnswer (number : Nat → Str) (stamp : Int → Str) (s : ChartShape) (fields : List Str) (rows : List (List (Option GCell))) : Except ChartErr (List AnswerCol) :=
  match rows with
  | [] => .ok []
  | rows =>
    match (reordered ([kEventName, kSegment] ++ s.first.map (·.col) ++ [kAggName]) fields).mapM fun f =>
      (columnJson (rows.map fun r => slotOf (s.kindOf stamp f) (shownCell s fields r f))).map fun data =>
        (⟨renameColumn (s.renames number) f, decide (renameColumn (s.renames number) f ∈ s.dateCols stamp), data⟩ : AnswerCol) with
    | none => .error .panic
    | some cols => .ok cols

/-- The tables of the events. -/
def chartTables (B : Nat) (h : List (Option GCell) → Nat) (sortIdx : List Int → List Nat) (stamp : Int → Str) (M : ChartsShape) :
    List (EventPart × Tbl GCell) → Except ChartErr (List (List (List (Option GCell))))
  | [] => .ok []
  | x :: xs =>
    match chartTableWith M.whole.aggs B h sortIdx stamp (M.part x.1) x.2 with
    | .error e => .error e
    | .ok rows =>
      match chartTables B h sortIdx stamp M xs with
      | .error e => .error e
      | .ok rest => .ok (rows :: rest)

/-- The answer to a chart of several events with the tables of their aggregates (event_segmentation.rs 320-451). -/
def chartsAnswer (B : Nat) (h : List (Option GCell) → Nat) (sortIdx : List Int → List Nat) (number : Nat → Str) (stamp : Int → Str) (nullable : Str → Bool)
    (M : ChartsShape) (tables : List (Tbl GCell)) : Except ChartErr (List AnswerCol) :=
  match chartTables B h sortIdx stamp M (M.events.zip tables) with
  | .error e => .error e
  | .ok rowss =>
    let schemas := M.events.map (M.schema nullable stamp)
    match mergeStreams GCell.str (mergeSchema (some kEventName) schemas) (M.events.map fun e => some e.name)
      ((M.events.zip rowss).map fun x => streamOf ((M.schema nullable stamp x.1).map Prod.fst) x.2) with
    | none => .error .refused
    | some rows => fieldsAnswer number stamp M.whole ((mergeSchema (some kEventName) schemas).map Prod.fst) rows

end OptiPrism.Platform
