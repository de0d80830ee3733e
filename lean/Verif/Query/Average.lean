import Verif.Query.Table

/-!
# Model: the column of averages (`query/src/physical_plan/aggregate_and_sort_columns.rs`)

A row is the list of its cells, `none` is NULL. `num` reads a decimal cell as its mantissa and `dec` writes
one. The sum is not bounded: the code adds in 128 bits.
-/

namespace OptiPrism.Query

variable {γ : Type}

/-- The average of a row (aggregate_and_sort_columns.rs 156-164): the slots of the value columns are added,
that of a NULL is zero (arrow), and the sum is divided by the number of the columns. The division panics
without value columns. -/
def rowAverage (num : γ → Int) (groups : Nat) (row : List (Option γ)) : Option Int :=
  let vals := row.drop groups
  if vals.length = 0 then none
  else some ((vals.map fun c : Option γ => (c.map num).getD 0).sum.tdiv vals.length)

/-- The cell of the average is put behind the last group (179-185). -/
def insertAverage (dec : Int → γ) (groups : Nat) (row : List (Option γ)) (a : Int) : List (Option γ) :=
  row.take groups ++ some (dec a) :: row.drop groups

/-- `AggregateAndSortColumnsStream` on one batch (146-194). `sortIdx` is `sort_to_indices` of arrow for
descending order, which is not stable; `none` is a panic. -/
def averageAndSort (num : γ → Int) (dec : Int → γ) (sortIdx : List Int → List Nat) (groups : Nat)
    (rows : List (List (Option γ))) : Option (List (List (Option γ))) :=
  match allSome (rows.map (rowAverage num groups)) with
  | none => none
  | some avgs =>
    let out := (rows.zip avgs).map fun x => insertAverage dec groups x.1 x.2
    allSome ((sortIdx avgs).map fun i => out[i]?)

end OptiPrism.Query
