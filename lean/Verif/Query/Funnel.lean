import Verif.Query.Agg

/-!
The funnel of the query crate:
src/query/src/physical_plan/expressions/aggregate/partitioned/funnel/funnel.rs (cited as `funnel.rs`)
and mod.rs of that directory, physical_plan/funnel.rs (cited as `physical funnel.rs`).

Boolean and timestamp arrays are read slot by slot (a NULL slot is its stored value), constants are
values of an arbitrary type with equality, the row numbers kept in `steps` are written but never
read and left out, counters and timestamps are integers without overflow.
-/

namespace OptiPrism.Query

/-- `StepOrder` (funnel/mod.rs 21-25). -/
inductive StepOrder where
  | exact
  | any (pairs : List (Nat × Nat))

/-- `Filter` (funnel/mod.rs 71-77), durations in milliseconds. -/
inductive FFilter where
  | dropOffOnAnyStep
  | dropOffOnStep (k : Nat)
  | timeToConvert (a b : Int)

/-- One row with its expressions evaluated (`Batch`, funnel/mod.rs 91-103, 115-203): partition,
timestamp, truth of each step, truth of each exclusion, constants and group key. -/
structure FRow (G K : Type) where
  user : Int
  ts : Int
  step : Nat → Bool
  excl : Nat → Bool
  consts : K
  group : G

/-- The options of a funnel (funnel.rs 258-287). `excludes` holds the step range of every exclusion,
`key` the bucket of a timestamp (208-214: `date_trunc` or, without time interval, the only bucket),
`buckets` the predefined buckets (309-328), `hasConst` whether constants are given. -/
structure FCfg where
  orders : List StepOrder
  excludes : List (Option (Nat × Nat))
  hasConst : Bool
  unique : Bool
  filter : Option FFilter
  window : Int
  key : Int → Int
  buckets : List Int

/-- The number of steps. -/
def FCfg.len (c : FCfg) : Nat := c.orders.length

/-- `StepResult` (funnel.rs 71-76). -/
structure StepResult where
  total : Int
  dropped : Int
  time : Int
  fromStart : Int
deriving DecidableEq

/-- `Group` (funnel.rs 85-97) without the fields that are never read; `steps` are the timestamps of
the steps completed so far. -/
structure FGroup where
  first : Bool
  cur : Int
  constRow : Nat
  curStep : Nat
  steps : Nat → Int
  buckets : Int → Option (Nat → StepResult)
  completed : Nat

/-- `Group::new` (funnel.rs 101-142). -/
def FGroup.new (c : FCfg) : FGroup :=
  ⟨true, 0, 0, 0, fun _ => 0,
    fun k => if k ∈ c.buckets then some (fun _ => ⟨0, 0, 0, 0⟩) else none, 0⟩

variable {G K : Type}

/-- `check_exclude` (funnel.rs 145-165), from exclusion number `j` on: an exclusion whose range
contains the current step ends the loop. -/
def checkExclude (cur : Nat) (r : FRow G K) : Nat → List (Option (Nat × Nat)) → Bool
  | _, [] => true
  | j, some (a, b) :: l =>
    if a ≤ cur ∧ b ≥ cur then true else checkExclude cur r (j + 1) l
  | j, none :: l => if r.excl j then false else checkExclude cur r (j + 1) l

/-- Whether a result counts as completed (funnel.rs 188-207). -/
def FGroup.isCompleted (c : FCfg) (g : FGroup) : Bool :=
  match c.filter with
  | none => g.completed == c.len
  | some .dropOffOnAnyStep => g.completed != c.len
  | some (.dropOffOnStep k) => g.completed - 1 == k
  | some (.timeToConvert a b) =>
    g.completed == c.len &&
      (decide (a ≤ g.steps g.curStep - g.steps 0) && decide (g.steps g.curStep - g.steps 0 ≤ b))

/-- The counters of a bucket after adding the steps of an attempt (funnel.rs 218-228). -/
def addSteps (g : FGroup) (b : Nat → StepResult) : Nat → StepResult := fun i =>
  if i < g.completed then
    { b i with
      total := (b i).total + 1
      time := (b i).time + if i > 0 then g.steps i - g.steps (i - 1) else 0
      fromStart := (b i).fromStart + if i > 0 then g.steps i - g.steps 0 else 0 }
  else b i

/-- The drop-offs recomputed from the totals (funnel.rs 230-232; the assignment in 226 is
overwritten by it). -/
def setDropped (c : FCfg) (b : Nat → StepResult) : Nat → StepResult := fun i =>
  if 1 ≤ i ∧ i < c.len then { b i with dropped := (b (i - 1)).total - (b i).total } else b i

/-- The buckets after `push_result` (funnel.rs 185-187, 208-233); a missing bucket is not created. -/
def FGroup.pushed (c : FCfg) (g : FGroup) : FGroup :=
  if g.completed = 0 then g
  else { g with buckets := fun k =>
    if k = c.key (g.steps 0) then (g.buckets k).map fun b => setDropped c (addSteps g b)
    else g.buckets k }

/-- An attempt is given up (funnel.rs 550-552, 563-565, 584-586). -/
def FGroup.reset (g : FGroup) : FGroup :=
  { g with
    steps := fun i => if i = 0 then g.steps g.curStep else g.steps i
    curStep := 0
    completed := 0 }

/-- Whether a row matches the current step (funnel.rs 607-622): with several ranges only the last
one decides, because only the inner loop is left. A step number out of range, a panic in the code, is
a mismatch here. -/
def matchesStep (c : FCfg) (cur : Nat) (r : FRow G K) : Bool :=
  match c.orders[cur]? with
  | none => false
  | some .exact => r.step cur
  | some (.any pairs) =>
    pairs.foldl (fun m p => if p.1 ≤ p.2 then
      (List.range (p.2 + 1 - p.1)).any (fun d => r.step (p.1 + d)) else m) false

/-- The row of a new partition ends the attempt of the previous one (funnel.rs 593-606). -/
def FGroup.partition (c : FCfg) (g : FGroup) (r : FRow G K) : FGroup :=
  if r.user ≠ g.cur then
    { g.pushed c with cur := r.user, curStep := 0, completed := 0 }
  else g

/-- The match of a row against the current step (funnel.rs 607-644); the flag tells whether the
rest of the partition is to be skipped. -/
def FGroup.step (c : FCfg) (g : FGroup) (r : FRow G K) : FGroup × Bool :=
  if matchesStep c g.curStep r then
    let g := { g with
      completed := g.completed + 1
      steps := fun i => if i = g.curStep then r.ts else g.steps i }
    if g.curStep < c.len - 1 then ({ g with curStep := g.curStep + 1 }, false)
    else
      ({ g.pushed c with curStep := 0, completed := 0 }, g.isCompleted c && c.unique)
  else (g, false)

/-- The body of the loop for a row with no open attempt (funnel.rs 569-575, 593-644): also what
happens to a row after `continue`. -/
def FGroup.fresh (c : FCfg) (g : FGroup) (i : Nat) (r : FRow G K) : FGroup × Bool :=
  FGroup.step c (FGroup.partition c
    (if c.hasConst then { g with constRow := i } else g) r) r

/-- The row sets the partition of a new group (funnel.rs 533-540). -/
def FGroup.seen (g : FGroup) (r : FRow G K) : FGroup :=
  if g.first then { g with first := false, cur := r.user } else g

/-- `check_constants` (funnel.rs 167-178): the constants of the current batch at the row number of
the first step; `none` is the panic when the batch has no such row. -/
def checkConsts [DecidableEq K] (batch : List (FRow G K)) (g : FGroup) (r : FRow G K) :
    Option Bool :=
  (batch[g.constRow]?).map fun q => decide (q.consts = r.consts)

/-- The body of the loop for row number `i` of a batch (funnel.rs 533-644). -/
def fRow [DecidableEq K] (c : FCfg) (batch : List (FRow G K)) (i : Nat) (g : FGroup)
    (r : FRow G K) : Option (FGroup × Bool) :=
  let g := g.seen r
  if g.curStep > 0 then
    if !checkExclude g.curStep r 0 c.excludes then some (g.reset.fresh c i r)
    else if r.ts - g.steps 0 > c.window then some ((g.pushed c).reset.fresh c i r)
    else if c.hasConst then
      match checkConsts batch g r with
      | none => none
      | some false => some (g.reset.fresh c i r)
      | some true => some ((g.partition c r).step c r)
    else some ((g.partition c r).step c r)
  else some (g.fresh c i r)

/-- The state of `Funnel` (funnel.rs 258-287): `skip_partition`, `cur_partition`, groups. -/
structure FState (G : Type) where
  skip : Bool
  cur : Int
  groups : G → Option FGroup

section
variable [DecidableEq G] [DecidableEq K]

/-- A row that is not skipped (funnel.rs 521-644). `self.first` stays true, so `cur_partition` is
set at every row (529-531). -/
def fUse (c : FCfg) (batch : List (FRow G K)) (i : Nat) (st : FState G) (r : FRow G K) :
    Option (FState G) :=
  (fRow c batch i ((st.groups r.group).getD (FGroup.new c)) r).map fun p =>
    ⟨p.2, r.user, setGroup st.groups r.group p.1⟩

/-- The user is not in the given set (funnel.rs 511-519). -/
def outside (exist : Option (Int → Bool)) (u : Int) : Bool :=
  match exist with
  | none => false
  | some e => !e u

/-- The loop of `evaluate` over the rows of a batch from row number `i` on (funnel.rs 505-655).
Neither of the two inner loops skips the last row of the batch. -/
def fLoop (c : FCfg) (exist : Option (Int → Bool)) (batch : List (FRow G K)) :
    Nat → List (FRow G K) → FState G → Option (FState G)
  | _, [], st => some st
  | i, r :: rest, st =>
    if st.skip && (st.cur == r.user && !rest.isEmpty) then fLoop c exist batch (i + 1) rest st
    else if outside exist r.user && !rest.isEmpty then
      fLoop c exist batch (i + 1) rest { st with skip := false }
    else (fUse c batch i { st with skip := false } r).bind (fLoop c exist batch (i + 1) rest)

/-- `evaluate` (funnel.rs 457-660). `none` is a panic: on an empty batch (funnel/mod.rs 199), or if
the batch starts with a smaller partition than the last one seen and so is dropped from the buffer
before it is read (493-502, 542). -/
def fBatch (c : FCfg) (exist : Option (Int → Bool)) (st : FState G) (batch : List (FRow G K)) :
    Option (FState G) :=
  match batch with
  | [] => none
  | r :: _ => if r.user < st.cur then none else fLoop c exist batch 0 batch st

/-- `evaluate` on all batches (physical funnel.rs 502-525). -/
def fBatches (c : FCfg) (exist : Option (Int → Bool)) (batches : List (List (FRow G K))) :
    Option (FState G) :=
  batches.foldlM (fBatch c exist) ⟨false, 0, fun _ => none⟩

/-- `finalize` (funnel.rs 699-720, 890-905): the open attempts are added, buckets in which nobody
reached the first step are left out. -/
def fFinish (c : FCfg) (st : FState G) (g : G) (k : Int) : Option (Nat → StepResult) :=
  match st.groups g with
  | none => none
  | some gr =>
    match (gr.pushed c).buckets k with
    | none => none
    | some b => if (b 0).total ≠ 0 then some b else none

/-- The funnel of one worker without segments. -/
def funnel (c : FCfg) (exist : Option (Int → Bool)) (batches : List (List (FRow G K))) :
    Option (G → Int → Option (Nat → StepResult)) :=
  (fBatches c exist batches).map (fFinish c)

/-- The funnel with segments (physical funnel.rs 392-419, 478-518): the segment streams are replaced
by an empty list, so the user sets stay empty and only one funnel is created; the second segment
indexes out of range. -/
def funnelSegments (c : FCfg) (segments : List (Int → Bool)) (batches : List (List (FRow G K))) :
    Option (List (G → Int → Option (Nat → StepResult))) :=
  match segments with
  | [] => (funnel c none batches).map fun f => [f]
  | [_] => (funnel c (some fun _ => false) batches).map fun f => [f]
  | _ :: _ :: _ => none

/-! ### Derived columns -/

/-- The conversion ratio in percent (funnel.rs 763-774), as a rational. -/
def conversionRatio (b : Nat → StepResult) (i : Nat) : Rat :=
  if i = 0 then 100
  else if (b i).total > 0 then ((b i).total : Rat) / ((b 0).total : Rat) * 100 else 0

/-- The average time to convert (funnel.rs 790-801). -/
def avgTime (b : Nat → StepResult) (i : Nat) : Rat :=
  if i = 0 then 0
  else if (b i).total > 0 then ((b i).time : Rat) / ((b i).total : Rat) * 100 else 0

end

/-- The final stage for one row group (segment, groups, bucket): sums of the counters of the workers
that report it, averages of their ratios (physical funnel.rs 90-266, 688-729). The division of the
averages is exact here. -/
def finalTotal (parts : List (Nat → StepResult)) (i : Nat) : Int :=
  (parts.map fun b => (b i).total).sum
def finalDropped (parts : List (Nat → StepResult)) (i : Nat) : Int :=
  (parts.map fun b => (b i).dropped).sum
def finalRatio (parts : List (Nat → StepResult)) (i : Nat) : Rat :=
  (parts.map fun b => conversionRatio b i).sum / (parts.length : Rat)

end OptiPrism.Query
