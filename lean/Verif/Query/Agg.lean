import Verif.Util

/-!
Aggregates of the query crate, src/query/src/physical_plan.

Numbers are rationals: overflow of the integer accumulators and rounding of `f64` are left out.
A hash map of groups is a function from group keys; its iteration order only matters where its
entries are listed, and there any order is allowed.
-/

namespace OptiPrism.Query

/-- `num_traits::Bounded` of the accumulator type
(expressions/segmentation/aggregate.rs 51-57). -/
structure Bounds where
  hi : Rat
  lo : Rat

/-- The name of an aggregate function (expressions/segmentation/aggregate.rs 128-136, `op`). -/
inductive AggOp where
  | sum | min | max | avg | count
deriving DecidableEq, Repr

/-- `AggregateFunction<T>` (expressions/segmentation/aggregate.rs 33-42). -/
inductive AggFn where
  | sum (s : Rat)
  | min (m : Rat)
  | max (m : Rat)
  | avg (s c : Rat)
  | count (c : Rat)
deriving DecidableEq

/-- `new_sum`, `new_min`, `new_max`, `new_avg`, `new_count`
(expressions/segmentation/aggregate.rs 47-75). -/
def AggOp.new (B : Bounds) : AggOp → AggFn
  | .sum => .sum 0
  | .min => .min B.hi
  | .max => .max B.lo
  | .avg => .avg 0 0
  | .count => .count 0

/-- `AggregateFunction::accumulate` (expressions/segmentation/aggregate.rs 76-104); the value it
returns is not used by the callers. -/
def AggFn.accumulate : AggFn → Rat → AggFn
  | .sum s, v => .sum (s + v)
  | .min m, v => if v < m then .min v else .min m
  | .max m, v => if m < v then .max v else .max m
  | .avg s c, v => .avg (s + v) (c + 1)
  | .count c, _ => .count (c + 1)

/-- `AggregateFunction::result` (expressions/segmentation/aggregate.rs 106-114); `none` stands for
the quotient 0/0 of an empty average. -/
def AggFn.result : AggFn → Option Rat
  | .sum s => some s
  | .min m => some m
  | .max m => some m
  | .avg s c => if c = 0 then none else some (s / c)
  | .count c => some c

/-- One row as seen by an aggregate: the partition column (NULL: `none`), the filter evaluated on
it, the predicate column and the group key (aggregate/count.rs 103-150). -/
structure ARow (G : Type) where
  user : Option Int
  pass : Option Bool
  val : Option Rat
  group : G

/-- `check_filter` (expressions/mod.rs 12-17). -/
def checkFilter : Option Bool → Bool
  | none => false
  | some b => b

/-- The loop state of `evaluate`: the two local variables and the groups
(aggregate/count.rs 152-153). -/
structure Loop (G S : Type) where
  skip : Bool
  skipPartition : Int
  groups : G → Option S

section
variable {G S : Type} [DecidableEq G]

/-- `partitions.value(row)`: the slot of a NULL holds the default value 0
(aggregate/count.rs 156, 163). -/
def ARow.slot (r : ARow G) : Int := r.user.getD 0

/-- The entry of a group is created or changed (aggregate/count.rs 181-193). -/
def setGroup (m : G → Option S) (g : G) (s : S) : G → Option S :=
  fun x => if x = g then some s else m x

/-- The part of the loop body after the partition check: filter, NULL predicate, update
(aggregate/count.rs 171-193; aggregate/mod.rs 258-282). -/
def useRow (hasFilter : Bool) (upd : Option S → Rat → S) (m : G → Option S) (r : ARow G) :
    G → Option S :=
  if hasFilter && !checkFilter r.pass then m
  else match r.val with
    | none => m
    | some v => setGroup m r.group (upd (m r.group) v)

/-- The loop body of `Count::evaluate` and `Aggregate::evaluate`
(aggregate/count.rs 154-194; aggregate/mod.rs 242-283). -/
def evalRow (exist : Option (Int → Bool)) (hasFilter : Bool) (upd : Option S → Rat → S)
    (st : Loop G S) (r : ARow G) : Loop G S :=
  if st.skip && r.slot == st.skipPartition then st
  else match exist with
    | some e =>
      if e r.slot then
        { st with skip := false, groups := useRow hasFilter upd st.groups r }
      else { st with skip := true, skipPartition := r.slot }
    | none => { st with skip := false, groups := useRow hasFilter upd st.groups r }

/-- `evaluate` on one batch (aggregate/count.rs 98-197; aggregate/mod.rs 190-286). -/
def evalBatch (exist : Option (Int → Bool)) (hasFilter : Bool) (upd : Option S → Rat → S)
    (m : G → Option S) (rows : List (ARow G)) : G → Option S :=
  (rows.foldl (evalRow exist hasFilter upd) ⟨false, 0, m⟩).groups

/-- `evaluate` on all batches (segmented_aggregate.rs 432-457). -/
def evalBatches (exist : Option (Int → Bool)) (hasFilter : Bool) (upd : Option S → Rat → S)
    (m : G → Option S) (batches : List (List (ARow G))) : G → Option S :=
  batches.foldl (evalBatch exist hasFilter upd) m

/-- `Count` over grouped rows (aggregate/count.rs 181-193, 199-220). Without groups the single
group is present from the start: `G` is `Unit` and `m` maps it to 0. -/
def countEval (exist : Option (Int → Bool)) (hasFilter : Bool) :
    (G → Option Nat) → List (List (ARow G)) → G → Option Nat :=
  evalBatches exist hasFilter (fun s _ => s.getD 0 + 1)

/-- `Aggregate` over grouped rows (aggregate/mod.rs 268-310); `conv` is the conversion
`v as acc * mul / div` of the macro instance. -/
def aggEval (B : Bounds) (op : AggOp) (conv : Rat → Rat) (exist : Option (Int → Bool))
    (hasFilter : Bool) : (G → Option AggFn) → List (List (ARow G)) → G → Option AggFn :=
  evalBatches exist hasFilter (fun s v => (s.getD (op.new B)).accumulate (conv v))

/-! ### Per-user aggregates -/

/-- What is collected per user: `PartitionedCount` counts rows (aggregate/partitioned/count.rs
189-214), the partitioned `Aggregate` runs an inner aggregate function
(aggregate/partitioned/aggregate.rs 247-259). `out` is the value handed to the outer function. -/
structure Inner (I : Type) where
  init : I
  step : I → Option Rat → I
  out : I → Rat

/-- `Group` (aggregate/partitioned/count.rs 35-56; aggregate/partitioned/aggregate.rs 55-80). -/
structure PGroup (I : Type) where
  inner : I
  outer : AggFn
  first : Bool
  last : Int

/-- The state of a per-user aggregate: `skip`, `skip_partition` is 0 and never written, groups
(aggregate/partitioned/count.rs 58-93). -/
structure PState (G I : Type) where
  skip : Bool
  groups : G → Option (PGroup I)

variable {I : Type}

/-- `Group::new` (aggregate/partitioned/count.rs 48-55). -/
def PGroup.new (N : Inner I) (o : AggFn) : PGroup I := ⟨N.init, o, true, 0⟩

/-- A bucket seeing a row of user `u` (aggregate/partitioned/count.rs 189-192). -/
def PGroup.seen (b : PGroup I) (u : Int) : PGroup I :=
  if b.first then { b with first := false, last := u } else b

/-- A bucket using a row of user `u` (aggregate/partitioned/count.rs 200-214;
aggregate/partitioned/aggregate.rs 247-259). -/
def PGroup.use (N : Inner I) (b : PGroup I) (u : Int) (v : Option Rat) : PGroup I :=
  if b.last ≠ u then
    { b with outer := b.outer.accumulate (N.out b.inner), last := u, inner := N.step N.init v }
  else { b with inner := N.step b.inner v }

/-- The loop body of the per-user aggregates (aggregate/partitioned/count.rs 161-215;
aggregate/partitioned/aggregate.rs 206-260); `none` is the panic of `partition.unwrap()` on NULL.
`distinct` is `false` for the partitioned `Aggregate`. -/
def pRow (B : Bounds) (op : AggOp) (N : Inner I) (distinct : Bool) (exist : Option (Int → Bool))
    (hasFilter : Bool) (st : PState G I) (r : ARow G) : Option (PState G I) :=
  match r.user with
  | none => none
  | some u =>
    if st.skip && u == 0 then some st
    else
      match exist.map (fun e => e u) with
      | some false => some { st with skip := true }
      | _ =>
        let b := ((st.groups r.group).getD (PGroup.new N (op.new B))).seen u
        if hasFilter && !checkFilter r.pass then
          some ⟨false, setGroup st.groups r.group b⟩
        else some ⟨distinct, setGroup st.groups r.group (b.use N u r.val)⟩

/-- `evaluate` on all rows: the state is kept from batch to batch
(aggregate/partitioned/count.rs 116-218). -/
def pBatches (B : Bounds) (op : AggOp) (N : Inner I) (distinct : Bool)
    (exist : Option (Int → Bool)) (hasFilter : Bool) (st : PState G I)
    (batches : List (List (ARow G))) : Option (PState G I) :=
  batches.foldlM (fun st rows => rows.foldlM (pRow B op N distinct exist hasFilter) st) st

/-- `finalize`, grouped (aggregate/partitioned/count.rs 220-236;
aggregate/partitioned/aggregate.rs 265-281). -/
def pFinish (N : Inner I) (st : PState G I) (g : G) : Option AggFn :=
  (st.groups g).map fun b => b.outer.accumulate (N.out b.inner)

/-- A per-user aggregate from its fresh state (`make_new`,
aggregate/partitioned/count.rs 250-268). -/
def pEval (B : Bounds) (op : AggOp) (N : Inner I) (distinct : Bool)
    (exist : Option (Int → Bool)) (hasFilter : Bool) (batches : List (List (ARow G))) :
    Option (G → Option AggFn) :=
  (pBatches B op N distinct exist hasFilter ⟨false, fun _ => none⟩ batches).map (pFinish N)

/-- `PartitionedCount` (aggregate/partitioned/count.rs 208-214; the `i128` instance 392-405 scales
the count by 10^16 and does not cap it at 1 when counting distinct users). -/
def countInner (distinct wide : Bool) : Inner Nat where
  init := 0
  step n _ := if distinct && !wide then 1 else n + 1
  out n := if wide then (n : Rat) * 10 ^ 16 else n

/-- The partitioned `Aggregate` (aggregate/partitioned/aggregate.rs 247-259): `predicate.value(row)`
reads the default value 0 from the slot of a NULL; `mul` is the scale of the outer accumulator.
An empty inner average (0/0) is represented by 0; this needs a filter, which the planner of event
segmentation never passes. -/
def aggInner (B : Bounds) (op : AggOp) (mul : Rat) : Inner AggFn where
  init := op.new B
  step f v := f.accumulate (v.getD 0)
  out f := f.result.getD 0 * mul

/-! ### Partial and final stage -/

/-- A row of the result of a partial stage: the group with its segment, one cell per aggregate
(segmented_aggregate.rs 466-513). -/
structure PartialRow (G : Type) where
  group : G
  cells : List Rat

/-- The cells of a result row of aggregate number `i` out of `n`: its own value, 0 elsewhere
(segmented_aggregate.rs 478-507). -/
def cellsOf (n i : Nat) (v : Rat) : List Rat :=
  (List.range n).map fun j => if j = i then v else 0

/-- The rows produced for aggregate `i` from the listing of its groups
(segmented_aggregate.rs 466-513). -/
def partialRows (n i : Nat) (entries : List (G × Rat)) : List (PartialRow G) :=
  entries.map fun e => ⟨e.1, cellsOf n i e.2⟩

/-- The batch of one worker: the rows of all aggregates one after the other
(segmented_aggregate.rs 459-516). `results` lists, for every aggregate, its groups in some order. -/
def workerRows (results : List (List (G × Rat))) : List (PartialRow G) :=
  (results.zipIdx.map fun p => partialRows results.length p.2 p.1).flatten

/-- The function combining partial results (segmented_aggregate.rs 70-77). -/
def combineOp : AggOp → AggOp
  | .count => .sum
  | .sum => .sum
  | .min => .min
  | .max => .max
  | .avg => .avg

/-- `combine_results!` for aggregate `i` over the batches of all workers
(segmented_aggregate.rs 67-119). -/
def combine (B : Bounds) (op : AggOp) (i : Nat) (workers : List (List (PartialRow G))) :
    G → Option AggFn :=
  aggEval B (combineOp op) id none false (fun _ => none)
    (workers.map fun rows => rows.map fun r => ⟨some 0, none, r.cells[i]?, r.group⟩)

end
end OptiPrism.Query
