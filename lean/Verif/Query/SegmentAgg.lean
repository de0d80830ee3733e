import Verif.Query.Segment

/-!
Segments by an aggregate of a property: query/src/physical_plan/expressions/segmentation/aggregate.rs and their use in physical_plan/planner/segment.rs.

The accumulators are of type `i128` for the columns the planner has (`Int64`, `Decimal128`). They are integers without bound here, so that sums do not
overflow; the first values of a minimum and a maximum are those of `i128`.
-/

namespace OptiPrism.Query

/-- `AggregateFunction` without its accumulators (logical_plan/segment.rs 22-29). -/
inductive SegFn where
  | sum | min | max | avg | count
deriving DecidableEq, Repr

/-- `AggregateFunction<T>` (expressions/segmentation/aggregate.rs 33-42). -/
inductive SegAcc where
  | sum (s : Int)
  | min (m : Int)
  | max (m : Int)
  | avg (s c : Int)
  | count (n : Int)
deriving DecidableEq, Repr

def i128Max : Int := 2 ^ 127 - 1
def i128Min : Int := -2 ^ 127

/-- `new_sum` to `new_count` (aggregate.rs 47-65) as chosen by the planner (planner/segment.rs 34-43). -/
def SegFn.new : SegFn → SegAcc
  | .sum => .sum 0
  | .min => .min i128Max
  | .max => .max i128Min
  | .avg => .avg 0 0
  | .count => .count 0

/-- `accumulate` (aggregate.rs 76-105). -/
def SegAcc.add : SegAcc → Int → SegAcc
  | .sum s, v => .sum (s + v)
  | .min m, v => .min (if v < m then v else m)
  | .max m, v => .max (if v > m then v else m)
  | .avg s c, v => .avg (s + v) (c + 1)
  | .count n, _ => .count (n + 1)

/-- `result` (aggregate.rs 107-115); `none` is the panic of a division by zero. -/
def SegAcc.result : SegAcc → Option Int
  | .sum s => some s
  | .min m => some m
  | .max m => some m
  | .avg s c => if c = 0 then none else some (s.tdiv c)
  | .count n => some n

/-- `reset` (aggregate.rs 116-127). -/
def SegAcc.reset : SegAcc → SegAcc
  | .sum _ => .sum 0
  | .min _ => .min i128Max
  | .max _ => .max i128Min
  | .avg _ _ => .avg 0 0
  | .count _ => .count 0

/-- A row with the property: `val` is NULL or the number as it is stored. -/
structure ValRow extends SRow where
  val : Option Int

/-- `Inner` (aggregate.rs 141-149). -/
structure PropState where
  agg : SegAcc
  last : Int
  res : List (Option Int)
  first : Bool

/-- The entry of the current user (aggregate.rs 252-259, 272-278). -/
def PropState.entry (op : SegOp) (right : Int) (s : PropState) : Option (Option Int) :=
  s.agg.result.map fun x => if op.holds x right then some s.last else none

/-- The body of the loop after the first partition (aggregate.rs 243-265). `value(row_id)` of a NULL is what the buffer happens to have there, `nul`. -/
def propUse (op : SegOp) (right : Int) (tr : TimeRange) (nul : Int) (s : PropState) (r : ValRow) : Option PropState :=
  if !tr.check r.ts then some s
  else if !checkFilter r.pass then some s
  else match r.user with
    | none => none
    | some u =>
      if s.last ≠ u then
        (s.entry op right).map fun e => { s with res := s.res ++ [e], last := u, agg := s.agg.reset.add (r.val.getD nul) }
      else some { s with agg := s.agg.add (r.val.getD nul) }

/-- The loop body (aggregate.rs 238-266). -/
def propRow (op : SegOp) (right : Int) (tr : TimeRange) (nul : Int) (s : PropState) (r : ValRow) : Option PropState :=
  if s.first then
    match r.user with
    | none => none
    | some u => propUse op right tr nul { s with first := false, last := u } r
  else propUse op right tr nul s r

/-- The initial state (aggregate.rs 178-183). -/
def PropState.init (f : SegFn) : PropState := ⟨f.new, 0, [], true⟩

/-- `Aggregate` evaluated on all batches and finalised (aggregate.rs 201-282, physical_plan/segment.rs 161-194). -/
def segProp (f : SegFn) (op : SegOp) (right : Int) (tr : TimeRange) (nul : Int) (batches : List (List ValRow)) : Option (List (Option Int)) :=
  (batches.foldlM (fun s (rows : List ValRow) => rows.foldlM (propRow op right tr nul) s) (PropState.init f)).bind fun s =>
    (s.entry op right).map fun e => s.res ++ [e]

/-- The number compared with, `Int64` or `Decimal128` (of a precision and a scale). -/
inductive SegRight where
  | int (v : Int)
  | decimal (v : Int) (precision scale : Nat)
  | other

/-- The column of the property. -/
inductive SegCol where
  | int
  | decimal (scale : Nat)
deriving DecidableEq

/-- planner/segment.rs 80-207: the kind of the number decides which array the column is taken for (another kind of array is a panic, aggregate.rs
219-226), and the scale of a decimal is not used. -/
def segRight : SegCol → SegRight → Option Int
  | .int, .int v => some v
  | .decimal _, .decimal v _ _ => some v
  | _, _ => none

end OptiPrism.Query
