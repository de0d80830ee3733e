import Verif.Platform.RecordsAnswer
import Verif.Ingest.ValueProps
import Verif.Query.Funnel

/-!
# Model: how answers are written

The conversions of result columns and of single values to JSON (platform/src/lib.rs), and the assembly of the answer to a funnel: the
columns the evaluator gives out (query/src/physical_plan/expressions/aggregate/partitioned/funnel/funnel.rs, cited as `partitioned
funnel.rs`), their sums and averages over the workers (query/src/physical_plan/funnel.rs, cited as `physical funnel.rs`) and the way
they are read (query/src/funnel.rs 98-247). `none` is a panic.

A number rounded to `ROUND_DIGITS` digits is the number of its thousandths: that the `f64` it is turned into is written with the same
digits is not part of the model. `Float32` and `Float64` columns are left out, no table has them.
-/

namespace OptiPrism.Platform

open OptiPrism.Meta (Str)
open OptiPrism.Query (StepResult conversionRatio avgTime)

/-- The number of units of `d` nearest to `m`, the even one of two: `Decimal::round_dp` of the library, for a mantissa `m` of which the
digits below `d` are to go. -/
def roundTo (m : Int) (d : Nat) : Int :=
  let q := m.natAbs / d
  let r := m.natAbs % d
  let n := if 2 * r > d || (2 * r == d && q % 2 == 1) then q + 1 else q
  if m < 0 then -(n : Int) else n

/-- `Decimal::from_i128_with_scale(m, DECIMAL_SCALE).round_dp(ROUND_DIGITS)` (platform/src/lib.rs 187-188 and 250-251; common/src/types.rs
15 and 17), in thousandths. A mantissa of more than 96 bits is a panic. -/
def thousandths (m : Int) : Option Int :=
  if m.natAbs < 2 ^ 96 then some (roundTo m (10 ^ 13)) else none

/-- A number of serde: an integer or an `f64` of so many thousandths. -/
inductive JNum where
  | int (v : Int)
  | dec (t : Int)
deriving DecidableEq, Repr

/-- What is written. -/
inductive JOut where
  | null
  | bool (b : Bool)
  | num (n : JNum)
  | str (s : Str)
deriving DecidableEq, Repr

/-- A slot of an arrow array, or a `ScalarValue`; `none` is NULL. A decimal is its mantissa. -/
inductive Slot where
  | int (v : Option Int)
  | dec (m : Option Int)
  | bool (v : Option Bool)
  | str (v : Option Str)
  | ts (v : Option Int)
deriving DecidableEq, Repr

/-- One slot in `array_ref_to_json_values`, platform/src/lib.rs 212-267, with the macros of 160-178: a NULL number is `0.0`. -/
def slotJson : Slot → Option JOut
  | .int none => some (.num (.dec 0))
  | .int (some v) => some (.num (.int v))
  | .dec none => some (.num (.dec 0))
  | .dec (some m) => (thousandths m).map fun t => .num (.dec t)
  | .bool none => some .null
  | .bool (some b) => some (.bool b)
  | .str none => some .null
  | .str (some s) => some (.str s)
  | .ts none => some .null
  | .ts (some t) => some (.num (.int t))

/-- `array_ref_to_json_values`, platform/src/lib.rs 212-267. -/
def columnJson (l : List Slot) : Option (List JOut) := l.mapM slotJson

/-- `scalar_to_json`, platform/src/lib.rs 180-211. -/
def scalarJson : Slot → Option JOut
  | .int none | .dec none | .bool none | .str none | .ts none => some .null
  | .int (some v) => some (.num (.int v))
  | .dec (some m) => (thousandths m).map fun t => .num (.dec t)
  | .bool (some b) => some (.bool b)
  | .str (some s) => some (.str s)
  | .ts (some t) => some (.num (.int t))

/-! ## Funnels -/

/-- A value of a column of a step. -/
inductive FCell where
  | int (v : Int)
  | dec (m : Int)
deriving DecidableEq, Repr

/-- The mantissa the evaluator makes of a ratio: `Decimal::from_f64` and `rescale(DECIMAL_SCALE)` (partitioned funnel.rs 763-814). -/
abbrev Mantissa := Rat → Int

/-- The average time since the first step (partitioned funnel.rs 803-814). -/
def avgFromStart (b : Nat → StepResult) (i : Nat) : Rat :=
  if i = 0 then 0
  else if (b i).total > 0 then ((b i).fromStart : Rat) / ((b i).total : Rat) * 100 else 0

/-- The cells of step `i` in a row of the evaluator (partitioned funnel.rs 760-820 and 836-873). The drop-off ratio is taken from 100 (787;
as if `f64` were exact), the ratio computed in 776-786 is not used. -/
def stepCells (D : Mantissa) (b : Nat → StepResult) (i : Nat) : List FCell :=
  [.int (b i).total, .dec (D (conversionRatio b i)), .dec (D (avgTime b i)), .dec (D (avgFromStart b i)), .int (b i).dropped,
    .dec (100 * 10 ^ 16 - D (conversionRatio b i)), .int (b i).time, .int (b i).fromStart]

/-- `Agg` over the rows of the workers that have the same segment, groups and bucket (physical funnel.rs 62-74 and 163-192): the integer
columns are summed, the decimals averaged (690-713), the quotient of `i128` cut off. -/
def mergeCells : List FCell → Option FCell
  | [] => none
  | .int v :: l => some (.int (v + (l.map fun c => match c with | .int v => v | .dec m => m).sum))
  | .dec m :: l => some (.dec ((m + (l.map fun c => match c with | .int v => v | .dec m => m).sum).tdiv (l.length + 1)))

/-- The cells of step `i` in the row of the result for the workers' counts `parts`. -/
def resultCells (D : Mantissa) (parts : List (Nat → StepResult)) (i : Nat) : List FCell :=
  (List.range 8).filterMap fun k => mergeCells (parts.filterMap fun b => (stepCells D b i)[k]?)

/-- A row of the result: segment, groups, bucket and the cells of the steps, in that order (physical funnel.rs 293-295, partitioned
funnel.rs 387-455; decoding the groups keeps the order of the columns). -/
structure FunnelRowOut where
  segment : Int
  groups : List Slot
  ts : Int
  cells : List FCell

/-- The row of the result for `n` steps. -/
def resultRow (D : Mantissa) (n : Nat) (segment : Int) (groups : List Slot) (ts : Int) (parts : List (Nat → StepResult)) : FunnelRowOut :=
  ⟨segment, groups, ts, (List.range n).flatMap (resultCells D parts)⟩

/-- `StepData` (query/src/funnel.rs 466-478), the decimals in thousandths. -/
structure StepData where
  groups : List Str
  ts : Int
  total : Int
  ratio : Int
  avg : Int
  avgStart : Int
  dropped : Int
  dropRatio : Int
  time : Int
  fromStart : Int
deriving DecidableEq, Repr

/-- How cells are printed: arrow's `cast` to `Utf8` and `to_string` of a decimal. `under` is what stands in the NULL slots of a decimal
array. -/
structure Printer where
  int : Int → Str
  dec : Int → Str
  bool : Bool → Str
  ts : Int → Str
  under : Int

/-- query/src/funnel.rs 134-157: a decimal is printed as an integer if it is one after rounding. -/
def decLabel (P : Printer) (m : Int) : Option Str :=
  (thousandths m).map fun t => if t % 1000 = 0 then P.int (t / 1000) else P.dec t

/-- The label of a group (query/src/funnel.rs 133-164 and 210): the array is read with `value(idx)`, which of a NULL string is empty. -/
def slotLabel (P : Printer) : Slot → Option Str
  | .int v => some ((v.map P.int).getD [])
  | .dec v => decLabel P (v.getD P.under)
  | .bool v => some ((v.map P.bool).getD [])
  | .str v => some (v.getD [])
  | .ts v => some ((v.map P.ts).getD [])

/-- The integer columns (query/src/funnel.rs 170-190). -/
def intCells (l : List FCell) : List Int := l.filterMap fun c => match c with | .int v => some v | .dec _ => none

/-- The decimal columns (query/src/funnel.rs 170-190). -/
def decCells (l : List FCell) : List Int := l.filterMap fun c => match c with | .int _ => none | .dec m => some m

/-- The labels of a row: the segment's number and the breakdowns (query/src/funnel.rs 108-168, 204-213). -/
def rowLabels (P : Printer) (r : FunnelRowOut) : Option (List Str) := do
  let gs ← r.groups.mapM (slotLabel P)
  return P.int r.segment :: gs

/-- The data of step `i` for a row of the result (query/src/funnel.rs 214-241; copied by platform/src/funnel.rs 84-99). -/
def stepData (P : Printer) (r : FunnelRowOut) (i : Nat) : Option StepData := do
  let gs ← rowLabels P r
  let total ← (intCells r.cells)[i * 4]?
  let ratio ← (decCells r.cells)[i * 4]?.bind thousandths
  let avg ← (decCells r.cells)[i * 4 + 1]?.bind thousandths
  let avgStart ← (decCells r.cells)[i * 4 + 2]?.bind thousandths
  let dropped ← (intCells r.cells)[i * 4 + 1]?
  let dropRatio ← (decCells r.cells)[i * 4 + 3]?.bind thousandths
  let time ← (intCells r.cells)[i * 4 + 2]?
  let fromStart ← (intCells r.cells)[i * 4 + 3]?
  return ⟨gs, r.ts, total, ratio, avg, avgStart, dropped, dropRatio, time, fromStart⟩

/-- The answer: for every step its name and the data of every row (query/src/funnel.rs 192-247). -/
def funnelAnswer (P : Printer) (names : List Str) (rows : List FunnelRowOut) : Option (List (Str × List StepData)) :=
  names.zipIdx.mapM fun x => do
    let ds ← rows.mapM fun r => stepData P r x.2
    return (x.1, ds)

end OptiPrism.Platform
