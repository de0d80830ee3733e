import Verif.Query.Agg

/-!
Behavioural segments of the query crate: expressions/segmentation/count.rs, comparison.rs,
time_range.rs, boolean_op.rs, physical_plan/segment.rs, and their use in the planner and in
segmented_aggregate.rs.
-/

namespace OptiPrism.Query

/-- `Operator` (expressions/segmentation/boolean_op.rs 4-12). -/
inductive SegOp where
  | eq | notEq | lt | ltEq | gt | gtEq
deriving DecidableEq

/-- The comparison of a count with the threshold (expressions/segmentation/count.rs 110-117,
136-143). -/
def SegOp.holds : SegOp → Int → Int → Bool
  | .lt, a, b => decide (a < b)
  | .ltEq, a, b => decide (a ≤ b)
  | .eq, a, b => decide (a = b)
  | .notEq, a, b => decide (a ≠ b)
  | .gt, a, b => decide (a > b)
  | .gtEq, a, b => decide (a ≥ b)

/-- `TimeRange` (expressions/segmentation/time_range.rs 7-13). -/
inductive TimeRange where
  | between (a b : Int)
  | from_ (a : Int)
  | last (since start : Int)
  | none

/-- `TimeRange::check_bounds` (expressions/segmentation/time_range.rs 43-50). -/
def TimeRange.check : TimeRange → Int → Bool
  | .between a b, ts => decide (ts ≥ a) && decide (ts ≤ b)
  | .from_ a, ts => decide (ts ≥ a)
  | .last since start, ts => decide (ts ≥ start - since)
  | .none, _ => true

/-- A row as seen by a segment predicate: partition column, timestamp, filter
(expressions/segmentation/count.rs 69-97). -/
structure SRow where
  user : Option Int
  ts : Int
  pass : Option Bool

/-- `Inner` (expressions/segmentation/count.rs 21-27); `res` is the builder, oldest entry first. -/
structure SegState where
  count : Int
  last : Int
  res : List (Option Int)
  first : Bool

/-- The entry for the current user: its id, NULL if it does not match
(expressions/segmentation/count.rs 119-124). -/
def SegState.entry (op : SegOp) (right : Int) (s : SegState) : Option Int :=
  if op.holds s.count right then some s.last else none

/-- The body of the loop after the unwrap of the first partition
(expressions/segmentation/count.rs 101-129); `none` is the panic of `unwrap`. -/
def segUse (op : SegOp) (right : Int) (tr : TimeRange) (s : SegState) (r : SRow) :
    Option SegState :=
  if !tr.check r.ts then some s
  else if !checkFilter r.pass then some s
  else match r.user with
    | none => none
    | some u =>
      if s.last ≠ u then
        some { s with res := s.res ++ [s.entry op right], last := u, count := 1 }
      else some { s with count := s.count + 1 }

/-- The loop body of `Count::evaluate` (expressions/segmentation/count.rs 96-130). -/
def segRow (op : SegOp) (right : Int) (tr : TimeRange) (s : SegState) (r : SRow) :
    Option SegState :=
  if s.first then
    match r.user with
    | none => none
    | some u => segUse op right tr { s with first := false, last := u } r
  else segUse op right tr s r

/-- The initial state (expressions/segmentation/count.rs 48-53). -/
def SegState.init : SegState := ⟨0, 0, [], true⟩

/-- `Count` evaluated on all batches and finalised
(expressions/segmentation/count.rs 69-153, physical_plan/segment.rs 161-194). -/
def segCount (op : SegOp) (right : Int) (tr : TimeRange) (batches : List (List SRow)) :
    Option (List (Option Int)) :=
  (batches.foldlM (fun s (rows : List SRow) => rows.foldlM (segRow op right tr) s) SegState.init).map
    fun s => s.res ++ [s.entry op right]

/-- `And::and` (expressions/segmentation/comparison.rs 28-41). -/
def segAnd (l r : List (Option Int)) : List (Option Int) :=
  (l.zip r).map fun p => match p with
    | (some a, some _) => some a
    | _ => none

/-- `Or::or` (expressions/segmentation/comparison.rs 72-84). -/
def segOr (l r : List (Option Int)) : List (Option Int) :=
  (l.zip r).map fun p => match p with
    | (some a, _) => some a
    | (none, some b) => some b
    | (none, none) => none

/-- The segment inputs kept by the planner: `physical_inputs[1..c.len()]`, where the first physical
input is the query input and the following ones are the segments
(physical_plan/planner/mod.rs 219-223; no segments at all stands for `None`). -/
def plannedSegments {α : Type} (input : α) (segments : List α) : List α :=
  (((input :: segments).take segments.length).drop 1)

/-- The users of one segment: every value is unwrapped
(segmented_aggregate.rs 370-391). `none` is the panic on NULL. -/
def collectSegment : List (Option Int) → Option (List Int)
  | [] => some []
  | none :: _ => none
  | some u :: l => (collectSegment l).map (u :: ·)

/-- The restrictions under which the aggregates are evaluated, one result per entry: without segment
streams there is a single unrestricted one (segmented_aggregate.rs 365-457). -/
def segmentSets (segments : List (List (Option Int))) : Option (List (Option (List Int))) :=
  match plannedSegments [] segments with
  | [] => some [none]
  | s => (s.mapM collectSegment).map fun l => l.map some

end OptiPrism.Query
