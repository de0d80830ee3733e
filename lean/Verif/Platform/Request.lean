import Verif.Meta.Records2
import Verif.Query.Time

/-!
# Reports as the API takes and shows them, and as they are kept

The platform crate has its own types for what arrives as JSON; every request that stores or runs a query turns them into the
types of the common crate, and every answer that shows a stored query turns those back. Both directions are modelled here,
type by type. `none` is a panic (`unreachable!`, `unimplemented!`, an index out of range, `unwrap` of an error).

Not modelled: `serde` itself (the JSON text), so a JSON type is the Rust value `serde` makes of it. What `rust_decimal` and
`f64` do with a number, what an unsigned `0 - 1` does and what `to_case(Case::Snake)` makes of a name are parameters
(`ReqEnv`). Sizes and ids are `Nat`, signed numbers and moments `Int`.
-/

namespace OptiPrism.Platform

open OptiPrism.Meta (Str PropOp PropertyRef EventRef Scalar PropFilter)
open OptiPrism.Query (Unit' QueryTime)

/-- What the libraries do. `N` is `serde_json::Number`. -/
structure ReqEnv (N : Type) where
  /-- `Decimal::try_from(n.as_f64().unwrap())`: mantissa and scale, or the failure its `unwrap` panics at. -/
  dec : N → Option (BitVec 128 × Nat)
  /-- `Number::from_f64(Decimal::new(m, s).to_f64().unwrap()).unwrap()`. -/
  num : BitVec 64 → Nat → Option N
  /-- `0usize - 1`: a panic, or the largest number when overflow checks are off. -/
  under : Option Nat
  /-- `to_case(Case::Snake)`. -/
  snake : Str → Str

/-- `serde_json::Value`; what is inside arrays and objects is never looked at. -/
inductive JVal (N : Type) where
  | null | bool (b : Bool) | num (n : N) | str (s : Str) | arr | obj
deriving DecidableEq, Repr

/-- platform/src/lib.rs 337-352. -/
inductive JOp where
  | eq | neq | gt | gte | lt | lte | true | false | exists | empty | regex | like | notLike | notRegex
deriving DecidableEq, Repr

/-- platform/src/lib.rs 400-405. -/
inductive JEventRef where | regular (name : Str) | custom (id : Nat)
deriving DecidableEq, Repr

/-- platform/src/lib.rs 440-447. -/
inductive JPropertyRef where | group (name : Str) (g : Nat) | event (name : Str) | custom (id : Nat)
deriving DecidableEq, Repr

/-- platform/src/lib.rs 504-517. -/
structure JFilter (N : Type) where
  property : JPropertyRef
  op : JOp
  value : Option (List (JVal N))
deriving DecidableEq, Repr

/-- platform/src/lib.rs 765-771. -/
inductive JUnit where | hour | day | week | month | year
deriving DecidableEq, Repr

/-- platform/src/lib.rs 721-733. -/
inductive JTime where
  | between (from_ to : Int) | from_ (t : Int) | last (n : Int) (u : JUnit)
deriving DecidableEq, Repr

/-- platform/src/lib.rs 832-865. -/
inductive JAgg where
  | count | sum | min | max | avg | approxDistinct | arrayAgg | variance | variancePop | stddev | stddevPop | covariance
  | covariancePop | correlation | approxPercentileCont | approxMedian
deriving DecidableEq, Repr

/-- common/src/query.rs 53-64. -/
inductive CAgg where | count | sum | min | max | avg
deriving DecidableEq, Repr

/-- platform/src/lib.rs 1296-1308. -/
inductive JPAgg where | sum | avg | count | min | max
deriving DecidableEq, Repr

/-- common/src/query.rs 99-105. -/
inductive CPAgg where | sum | avg | count | min | max
deriving DecidableEq, Repr

/-- platform/src/lib.rs 1342-1353. -/
inductive JQAgg where
  | min | max | sum | avg | median | distinctCount | percentile25 | percentile75 | percentile90 | percentile99
deriving DecidableEq, Repr

/-- common/src/query.rs 21-32. -/
inductive CQAgg where
  | min | max | sum | avg | median | distinctCount | percentile25th | percentile75th | percentile90th | percentile99th
deriving DecidableEq, Repr

/-- platform/src/lib.rs 958-976. -/
inductive JSegTime where
  | between (from_ to : Int) | from_ (t : Int) | last (n : Int) (u : JUnit) | afterFirstUse (within : Int) (u : JUnit)
  | windowEach (u : JUnit) (n : Int)
deriving DecidableEq, Repr

/-- common/src/query.rs 314-332. -/
inductive CSegTime where
  | between (from_ to : Int) | from_ (t : Int) | last (n : Int) (u : Unit') | afterFirstUse (within : Int) (u : Unit')
  | each (n : Int) (u : Unit')
deriving DecidableEq, Repr

/-- platform/src/lib.rs 869-895. -/
inductive JDid (N : Type) where
  | count (op : JOp) (value : Int) (time : JSegTime)
  | relativeCount (event : JEventRef) (op : JOp) (filters : Option (List (JFilter N))) (time : JSegTime)
  | aggregateProperty (property : JPropertyRef) (aggregate : JQAgg) (op : JOp) (value : Option (JVal N)) (time : JSegTime)
  | historicalCount (op : JOp) (value : Nat) (time : JSegTime)
deriving DecidableEq, Repr

/-- common/src/query.rs 345-370. -/
inductive CDid where
  | count (op : PropOp) (value : Int) (time : CSegTime)
  | relativeCount (event : EventRef) (op : PropOp) (filters : Option (List PropFilter)) (time : CSegTime)
  | aggregateProperty (property : PropertyRef) (aggregate : CQAgg) (op : PropOp) (value : Option Scalar) (time : CSegTime)
  | historicalCount (op : PropOp) (value : Nat) (time : CSegTime)
deriving DecidableEq, Repr

/-- platform/src/lib.rs 1004-1027. -/
inductive JCond (N : Type) where
  | has (property : JPropertyRef) (op : JOp) (value : Option (List (JVal N)))
  | had (property : JPropertyRef) (op : JOp) (value : Option (List (JVal N))) (time : JSegTime)
  | did (event : JEventRef) (filters : Option (List (JFilter N))) (aggregate : JDid N)
deriving DecidableEq, Repr

/-- common/src/query.rs 374-393. -/
inductive CCond where
  | has (property : PropertyRef) (op : PropOp) (value : Option (List Scalar))
  | had (property : PropertyRef) (op : PropOp) (value : Option (List Scalar)) (time : CSegTime)
  | did (event : EventRef) (filters : Option (List PropFilter)) (aggregate : CDid)
deriving DecidableEq, Repr

/-- platform/src/lib.rs 1031-1034. -/
structure JSegment (N : Type) where
  name : Str
  conditions : List (List (JCond N))
deriving DecidableEq, Repr

/-- common/src/query.rs 396-399. -/
structure CSegment where
  name : Str
  conditions : List (List CCond)
deriving DecidableEq, Repr

/-- platform/src/lib.rs 674-702: the condition between groups (absent, `and`, `or`), and per group the condition between its
filters (`and` or `or`). -/
inductive JGroupsCond where | and | or
deriving DecidableEq, Repr

structure JGroup (N : Type) where
  filtersOr : Bool
  filters : List (JFilter N)
deriving DecidableEq, Repr

structure JGrouped (N : Type) where
  groupsCondition : Option JGroupsCond
  groups : List (JGroup N)
deriving DecidableEq, Repr

/-- platform/src/event_segmentation.rs 98-102 and common/src/event_segmentation.rs 18-22. -/
inductive JChart where | line | column | pie
deriving DecidableEq, Repr
inductive CChart where | line | column | pie
deriving DecidableEq, Repr

/-- platform/src/event_segmentation.rs 128-136. -/
inductive JAnalysis where | linear | rollingAverage (window : Nat) (u : JUnit) | logarithmic | cumulative
deriving DecidableEq, Repr
/-- common/src/event_segmentation.rs 25-33. -/
inductive CAnalysis where | linear | rollingAverage (window : Nat) (u : Unit') | logarithmic | cumulative
deriving DecidableEq, Repr

/-- platform/src/event_segmentation.rs 174-177. -/
structure JCompare where
  offset : Nat
  unit : JUnit
deriving DecidableEq, Repr
/-- common/src/event_segmentation.rs 36-39. -/
structure CCompare where
  offset : Nat
  unit : Unit'
deriving DecidableEq, Repr

/-- platform/src/event_segmentation.rs 245-270. -/
inductive JQuery where
  | countEvents | countUniqueGroups | dailyActiveGroups | weeklyActiveGroups | monthlyActiveGroups
  | countPerGroup (a : JAgg)
  | aggregatePropertyPerGroup (p : JPropertyRef) (perGroup : JPAgg) (a : JAgg)
  | aggregateProperty (p : JPropertyRef) (a : JAgg)
  | formula (f : Str)
deriving DecidableEq, Repr

/-- common/src/event_segmentation.rs 57-78. -/
inductive CQuery where
  | countEvents | countUniqueGroups | dailyActiveGroups | weeklyActiveGroups | monthlyActiveGroups
  | countPerGroup (a : CAgg)
  | aggregatePropertyPerGroup (p : PropertyRef) (perGroup : CPAgg) (a : CAgg)
  | aggregateProperty (p : PropertyRef) (a : CAgg)
  | formula (f : Str)
deriving DecidableEq, Repr

/-- platform/src/event_segmentation.rs 355-363. -/
structure JEvent (N : Type) where
  event : JEventRef
  filters : Option (List (JFilter N))
  breakdowns : Option (List JPropertyRef)
  queries : List JQuery
deriving DecidableEq, Repr

/-- common/src/event_segmentation.rs 131-148: `NamedQuery` is a query with a name. -/
structure CEvent where
  event : EventRef
  filters : Option (List PropFilter)
  breakdowns : Option (List PropertyRef)
  queries : List (CQuery × Option Str)
deriving DecidableEq, Repr

/-- platform/src/event_segmentation.rs 439-454. -/
structure JSegReq (N : Type) where
  time : JTime
  group : Nat
  intervalUnit : JUnit
  chartType : JChart
  analysis : JAnalysis
  compare : Option JCompare
  events : List (JEvent N)
  filters : Option (JGrouped N)
  breakdowns : Option (List JPropertyRef)
  segments : Option (List (JSegment N))
deriving DecidableEq, Repr

/-- common/src/event_segmentation.rs 167-178. -/
structure CSegReq where
  time : QueryTime
  groupId : Nat
  intervalUnit : Unit'
  chartType : CChart
  analysis : CAnalysis
  compare : Option CCompare
  events : List CEvent
  filters : Option (List PropFilter)
  breakdowns : Option (List PropertyRef)
  segments : Option (List CSegment)
deriving DecidableEq, Repr

/-! ### Funnels (platform/src/funnel.rs 292-800, common/src/funnel.rs 13-170) -/

structure JFEvent (N : Type) where
  event : JEventRef
  filters : Option (List (JFilter N))
deriving DecidableEq, Repr
structure CFEvent where
  event : EventRef
  filters : Option (List PropFilter)
deriving DecidableEq, Repr

inductive JStepOrder where | exact | any (steps : List (Nat × Nat))
deriving DecidableEq, Repr
inductive CStepOrder where | exact | any (steps : List (Nat × Nat))
deriving DecidableEq, Repr

structure JStep (N : Type) where
  events : List (JFEvent N)
  order : JStepOrder
deriving DecidableEq, Repr
structure CStep where
  events : List CFEvent
  order : CStepOrder
deriving DecidableEq, Repr

inductive JUnitS where | hour | day | week | month | year | session
deriving DecidableEq, Repr
inductive CUnitS where | hour | day | week | month | year | session
deriving DecidableEq, Repr

structure JWindow where
  n : Nat
  unit : JUnitS
deriving DecidableEq, Repr
structure CWindow where
  n : Nat
  unit : CUnitS
deriving DecidableEq, Repr

inductive JExSteps where | all | between (from_ to : Nat)
deriving DecidableEq, Repr
inductive CExSteps where | all | between (from_ to : Nat)
deriving DecidableEq, Repr

inductive JCount where | unique | nonUnique | session
deriving DecidableEq, Repr
inductive CCount where | unique | nonUnique | session
deriving DecidableEq, Repr

structure JExclude (N : Type) where
  event : JEventRef
  filters : Option (List (JFilter N))
  steps : Option JExSteps
deriving DecidableEq, Repr
structure CExclude where
  event : EventRef
  filters : Option (List PropFilter)
  steps : Option CExSteps
deriving DecidableEq, Repr

inductive JFFilter where | dropOffOnAnyStep | dropOffOnStep (step : Nat) | timeToConvert (from_ to : Int)
deriving DecidableEq, Repr
inductive CFFilter where | dropOffOnAnyStep | dropOffOnStep (step : Nat) | timeToConvert (from_ to : Int)
deriving DecidableEq, Repr

inductive JTouch where | first | last | step (step : Nat)
deriving DecidableEq, Repr
inductive CTouch where | first | last | step (step : Nat)
deriving DecidableEq, Repr

inductive JFChart where
  | steps | conversionOverTime (u : JUnit) | timeToConvert (u : JUnit) (minI maxI : Int) | frequency
deriving DecidableEq, Repr
inductive CFChart where
  | steps | conversionOverTime (u : Unit') | timeToConvert (u : Unit') (minI maxI : Int) | frequency
deriving DecidableEq, Repr

/-- platform/src/funnel.rs 294-308. -/
structure JFunnel (N : Type) where
  time : JTime
  group : Nat
  steps : List (JStep N)
  timeWindow : JWindow
  chartType : JFChart
  count : JCount
  filter : Option JFFilter
  touch : Option JTouch
  holdingConstants : Option (List JPropertyRef)
  exclude : Option (List (JExclude N))
  breakdowns : Option (List JPropertyRef)
  segments : Option (List (JSegment N))
  filters : Option (JGrouped N)
deriving DecidableEq, Repr

/-- common/src/funnel.rs 14-28. -/
structure CFunnel where
  time : QueryTime
  groupId : Nat
  steps : List CStep
  timeWindow : CWindow
  chartType : CFChart
  count : CCount
  filter : Option CFFilter
  touch : Option CTouch
  holdingConstants : Option (List PropertyRef)
  exclude : Option (List CExclude)
  breakdowns : Option (List PropertyRef)
  segments : Option (List CSegment)
  filters : Option (List PropFilter)
deriving DecidableEq, Repr

/-- platform/src/reports.rs 141-144. -/
inductive JReportQuery (N : Type) where
  | eventSegmentation (r : JSegReq N) | funnel (f : JFunnel N)
deriving DecidableEq, Repr

/-- metadata/src/reports.rs 173-176. -/
inductive CReportQuery where
  | eventSegmentation (r : CSegReq) | funnel (f : CFunnel)
deriving DecidableEq, Repr

/-! ## From what arrives to what is kept -/

/-- common/src/types.rs 14: `DECIMAL_PRECISION`. -/
def reqPrecision : Nat := 28

variable {N : Type}

/-- `json_value_to_scalar`, platform/src/lib.rs 309-319. -/
def jsonToScalar (E : ReqEnv N) : JVal N → Option Scalar
  | .bool b => some (.bool (some b))
  | .num n => (E.dec n).map fun (m, s) => .decimal (some m) reqPrecision s
  | .str s => some (.str (some s))
  | _ => none

/-- platform/src/lib.rs 355-374. -/
def opIn : JOp → PropOp
  | .eq => .eq | .neq => .neq | .gt => .gt | .gte => .gte | .lt => .lt | .lte => .lte | .true => .true | .false => .false
  | .exists => .exists | .empty => .empty | .regex => .regex | .like => .like | .notLike => .notLike | .notRegex => .notRegex

/-- platform/src/lib.rs 418-425. -/
def eventIn : JEventRef → EventRef
  | .regular n => .regularName n
  | .custom i => .custom i

/-- platform/src/lib.rs 471-484. -/
def propIn : JPropertyRef → PropertyRef
  | .group n g => .group n g
  | .event n => .event n
  | .custom i => .custom i

/-- An optional list whose empty form is dropped: `map_or_else(|| None, |v| if v.is_empty() { None } else { Some(…) })`. -/
def dropEmpty {α β : Type} (f : α → Option β) : Option (List α) → Option (Option (List β))
  | none => some none
  | some [] => some none
  | some (a :: l) => ((a :: l).mapM f).map some

/-- An optional list whose empty form is kept: `map(|v| v.iter().map(…).collect())`. -/
def keepEmpty {α β : Type} (f : α → Option β) : Option (List α) → Option (Option (List β))
  | none => some none
  | some l => (l.mapM f).map some

/-- `Option::map` with a conversion that may panic. -/
def optConv {α β : Type} (f : α → Option β) : Option α → Option (Option β)
  | none => some none
  | some a => (f a).map some

/-- platform/src/lib.rs 520-543. -/
def filterIn (E : ReqEnv N) (f : JFilter N) : Option PropFilter := do
  let value ← dropEmpty (jsonToScalar E) f.value
  return { property := propIn f.property, op := opIn f.op, value }

/-- platform/src/lib.rs 774-784. -/
def unitIn : JUnit → Unit'
  | .hour => .hour | .day => .day | .week => .week | .month => .month | .year => .year

/-- platform/src/lib.rs 736-747. -/
def timeIn : JTime → QueryTime
  | .between f t => .between f t
  | .from_ f => .from_ f
  | .last n u => .last n (unitIn u)

/-- platform/src/lib.rs 1268-1279. -/
def aggIn : JAgg → Option CAgg
  | .count => some .count | .sum => some .sum | .min => some .min | .max => some .max | .avg => some .avg
  | _ => none

/-- platform/src/lib.rs 1311-1323. -/
def paggIn : JPAgg → CPAgg
  | .count => .count | .sum => .sum | .avg => .avg | .min => .min | .max => .max

/-- platform/src/lib.rs 1356-1371. -/
def qaggIn : JQAgg → CQAgg
  | .min => .min | .max => .max | .sum => .sum | .avg => .avg | .median => .median | .distinctCount => .distinctCount
  | .percentile25 => .percentile25th | .percentile75 => .percentile75th | .percentile90 => .percentile90th
  | .percentile99 => .percentile99th

/-- platform/src/lib.rs 979-1000. -/
def segTimeIn : JSegTime → CSegTime
  | .between f t => .between f t
  | .from_ t => .from_ t
  | .last n u => .last n (unitIn u)
  | .afterFirstUse w u => .afterFirstUse w (unitIn u)
  | .windowEach u n => .each n (unitIn u)

/-- platform/src/lib.rs 898-954. -/
def didIn (E : ReqEnv N) : JDid N → Option CDid
  | .count o v t => some (.count (opIn o) v (segTimeIn t))
  | .relativeCount e o fs t => do
    let fs ← dropEmpty (filterIn E) fs
    return .relativeCount (eventIn e) (opIn o) fs (segTimeIn t)
  | .aggregateProperty p a o v t => do
    let v ← optConv (jsonToScalar E) v
    return .aggregateProperty (propIn p) (qaggIn a) (opIn o) v (segTimeIn t)
  | .historicalCount o v t => some (.historicalCount (opIn o) v (segTimeIn t))

/-- platform/src/lib.rs 1037-1090. -/
def condIn (E : ReqEnv N) : JCond N → Option CCond
  | .has p o v => do
    let v ← dropEmpty (jsonToScalar E) v
    return .has (propIn p) (opIn o) v
  | .had p o v t => do
    let v ← dropEmpty (jsonToScalar E) v
    return .had (propIn p) (opIn o) v (segTimeIn t)
  | .did e fs a => do
    let fs ← dropEmpty (filterIn E) fs
    let a ← didIn E a
    return .did (eventIn e) fs a

/-- platform/src/lib.rs 1240-1251. -/
def segmentIn (E : ReqEnv N) (s : JSegment N) : Option CSegment := do
  let cs ← s.conditions.mapM fun l => l.mapM (condIn E)
  return { name := s.name, conditions := cs }

/-- platform/src/event_segmentation.rs 105-113. -/
def chartIn : JChart → CChart
  | .line => .line | .column => .column | .pie => .pie

/-- platform/src/event_segmentation.rs 139-153. -/
def analysisIn : JAnalysis → CAnalysis
  | .linear => .linear
  | .rollingAverage w u => .rollingAverage w (unitIn u)
  | .logarithmic => .logarithmic
  | .cumulative => .cumulative

/-- platform/src/event_segmentation.rs 180-187. -/
def compareIn (c : JCompare) : CCompare := ⟨c.offset, unitIn c.unit⟩

/-- platform/src/event_segmentation.rs 273-307. -/
def queryIn : JQuery → Option CQuery
  | .countEvents => some .countEvents
  | .countUniqueGroups => some .countUniqueGroups
  | .dailyActiveGroups => some .dailyActiveGroups
  | .weeklyActiveGroups => some .weeklyActiveGroups
  | .monthlyActiveGroups => some .monthlyActiveGroups
  | .countPerGroup a => (aggIn a).map .countPerGroup
  | .aggregatePropertyPerGroup p g a => (aggIn a).map (.aggregatePropertyPerGroup (propIn p) (paggIn g))
  | .aggregateProperty p a => (aggIn a).map (.aggregateProperty (propIn p))
  | .formula f => some (.formula f)

/-- platform/src/lib.rs 408-416, `EventRef::name`. -/
def eventQueryName (E : ReqEnv N) (e : JEventRef) (idx : Nat) : Str :=
  match e with
  | .regular n => E.snake n ++ ("_regular_".toList ++ decimal idx)
  | .custom i => decimal i ++ ("_custom_".toList ++ decimal idx)

/-- The names given to the queries of an event, in order. -/
def named (E : ReqEnv N) (e : JEventRef) (idx : Nat) : List CQuery → List (CQuery × Option Str)
  | [] => []
  | q :: qs => (q, some (eventQueryName E e idx)) :: named E e (idx + 1) qs

/-- platform/src/event_segmentation.rs 366-401. -/
def esEventIn (E : ReqEnv N) (e : JEvent N) : Option CEvent := do
  let fs ← dropEmpty (filterIn E) e.filters
  let bs ← dropEmpty (fun p => some (propIn p)) e.breakdowns
  let qs ← e.queries.mapM queryIn
  return { event := eventIn e.event, filters := fs, breakdowns := bs, queries := named E e.event 0 qs }

/-- The filters of a segmentation: those of the first group, `v.groups[0]`, unless there are none
(platform/src/event_segmentation.rs 467-482). -/
def groupedIn (E : ReqEnv N) : Option (JGrouped N) → Option (Option (List PropFilter))
  | none => some none
  | some g =>
    match g.groups with
    | [] => none
    | g0 :: _ => dropEmpty (filterIn E) (some g0.filters)

/-- platform/src/event_segmentation.rs 457-505. -/
def segReqIn (E : ReqEnv N) (r : JSegReq N) : Option CSegReq := do
  let es ← r.events.mapM (esEventIn E)
  let fs ← groupedIn E r.filters
  let bs ← dropEmpty (fun p => some (propIn p)) r.breakdowns
  let ss ← dropEmpty (segmentIn E) r.segments
  return { time := timeIn r.time, groupId := r.group, intervalUnit := unitIn r.intervalUnit, chartType := chartIn r.chartType,
           analysis := analysisIn r.analysis, compare := r.compare.map compareIn, events := es, filters := fs,
           breakdowns := bs, segments := ss }

/-- platform/src/funnel.rs 377-386. -/
def fEventIn (E : ReqEnv N) (e : JFEvent N) : Option CFEvent := do
  let fs ← keepEmpty (filterIn E) e.filters
  return { event := eventIn e.event, filters := fs }

/-- platform/src/funnel.rs 471-478. -/
def stepOrderIn : JStepOrder → CStepOrder
  | .exact => .exact
  | .any s => .any s

/-- platform/src/funnel.rs 316-327. -/
def stepIn (E : ReqEnv N) (s : JStep N) : Option CStep := do
  let es ← s.events.mapM (fEventIn E)
  return { events := es, order := stepOrderIn s.order }

/-- platform/src/funnel.rs 437-448. -/
def unitSIn : JUnitS → CUnitS
  | .hour => .hour | .day => .day | .week => .week | .month => .month | .year => .year | .session => .session

/-- platform/src/funnel.rs 407-414. -/
def windowIn (w : JWindow) : CWindow := ⟨w.n, unitSIn w.unit⟩

/-- `n - 1` of a `usize`. -/
def pred (E : ReqEnv N) : Nat → Option Nat
  | 0 => E.under
  | n + 1 => some n

/-- platform/src/funnel.rs 497-506. -/
def exStepsIn (E : ReqEnv N) : JExSteps → Option CExSteps
  | .all => some .all
  | .between f t => do
    let f ← pred E f
    let t ← pred E t
    return .between f t

/-- platform/src/funnel.rs 527-535. -/
def countIn : JCount → CCount
  | .unique => .unique | .nonUnique => .nonUnique | .session => .session

/-- platform/src/funnel.rs 558-568. -/
def excludeIn (E : ReqEnv N) (e : JExclude N) : Option CExclude := do
  let fs ← keepEmpty (filterIn E) e.filters
  let st ← optConv (exStepsIn E) e.steps
  return { event := eventIn e.event, filters := fs, steps := st }

/-- platform/src/funnel.rs 594-602. -/
def fFilterIn : JFFilter → CFFilter
  | .dropOffOnAnyStep => .dropOffOnAnyStep
  | .dropOffOnStep s => .dropOffOnStep s
  | .timeToConvert f t => .timeToConvert f t

/-- platform/src/funnel.rs 624-632. -/
def touchIn : JTouch → CTouch
  | .first => .first | .last => .last | .step s => .step s

/-- platform/src/funnel.rs 673-694. -/
def fChartIn : JFChart → CFChart
  | .steps => .steps
  | .conversionOverTime u => .conversionOverTime (unitIn u)
  | .timeToConvert u a b => .timeToConvert (unitIn u) a b
  | .frequency => .frequency

/-- The filters of a funnel: those of the first group, empty or not (platform/src/funnel.rs 748-754). -/
def fGroupedIn (E : ReqEnv N) : Option (JGrouped N) → Option (Option (List PropFilter))
  | none => some none
  | some g =>
    match g.groups with
    | [] => none
    | g0 :: _ => keepEmpty (filterIn E) (some g0.filters)

/-- platform/src/funnel.rs 721-757. -/
def funnelIn (E : ReqEnv N) (r : JFunnel N) : Option CFunnel := do
  let st ← r.steps.mapM (stepIn E)
  let hc ← keepEmpty (fun p => some (propIn p)) r.holdingConstants
  let ex ← keepEmpty (excludeIn E) r.exclude
  let bs ← keepEmpty (fun p => some (propIn p)) r.breakdowns
  let ss ← keepEmpty (segmentIn E) r.segments
  let fs ← fGroupedIn E r.filters
  return { time := timeIn r.time, groupId := r.group, steps := st, timeWindow := windowIn r.timeWindow,
           chartType := fChartIn r.chartType, count := countIn r.count, filter := r.filter.map fFilterIn,
           touch := r.touch.map touchIn, holdingConstants := hc, exclude := ex, breakdowns := bs, segments := ss, filters := fs }

/-- platform/src/reports.rs 155-162. -/
def reportQueryIn (E : ReqEnv N) : JReportQuery N → Option CReportQuery
  | .eventSegmentation r => (segReqIn E r).map .eventSegmentation
  | .funnel f => (funnelIn E f).map .funnel

/-! ## From what is kept to what is shown -/

/-- `scalar_to_json_value`, platform/src/lib.rs 321-333. A decimal is cut to its low 64 bits (`*v as i64`). -/
def scalarToJson (E : ReqEnv N) : Scalar → Option (JVal N)
  | .decimal none _ _ => some .null
  | .bool none => some .null
  | .str none => some .null
  | .decimal (some v) _ s => (E.num (v.setWidth 64) s).map .num
  | .bool (some b) => some (.bool b)
  | .str (some s) => some (.str s)
  | _ => none

/-- platform/src/lib.rs 377-396. -/
def opOut : PropOp → JOp
  | .eq => .eq | .neq => .neq | .gt => .gt | .gte => .gte | .lt => .lt | .lte => .lte | .true => .true | .false => .false
  | .exists => .exists | .empty => .empty | .regex => .regex | .like => .like | .notLike => .notLike | .notRegex => .notRegex

/-- platform/src/lib.rs 428-436. -/
def eventOut : EventRef → Option JEventRef
  | .regularName n => some (.regular n)
  | .regular _ => none
  | .custom i => some (.custom i)

/-- platform/src/lib.rs 487-500. -/
def propOut : PropertyRef → JPropertyRef
  | .group n g => .group n g
  | .event n => .event n
  | .custom i => .custom i

/-- platform/src/lib.rs 546-560. -/
def filterOut (E : ReqEnv N) (f : PropFilter) : Option (JFilter N) := do
  let value ← keepEmpty (scalarToJson E) f.value
  return { property := propOut f.property, op := opOut f.op, value }

/-- platform/src/lib.rs 787-797. -/
def unitOut : Unit' → JUnit
  | .hour => .hour | .day => .day | .week => .week | .month => .month | .year => .year

/-- platform/src/lib.rs 750-761. -/
def timeOut : QueryTime → JTime
  | .between f t => .between f t
  | .from_ f => .from_ f
  | .last n u => .last n (unitOut u)

/-- platform/src/lib.rs 1282-1292. -/
def aggOut : CAgg → JAgg
  | .count => .count | .sum => .sum | .min => .min | .max => .max | .avg => .avg

/-- platform/src/lib.rs 1326-1338. -/
def paggOut : CPAgg → JPAgg
  | .count => .count | .sum => .sum | .avg => .avg | .min => .min | .max => .max

/-- platform/src/lib.rs 1374-1389. -/
def qaggOut : CQAgg → JQAgg
  | .min => .min | .max => .max | .sum => .sum | .avg => .avg | .median => .median | .distinctCount => .distinctCount
  | .percentile25th => .percentile25 | .percentile75th => .percentile75 | .percentile90th => .percentile90
  | .percentile99th => .percentile99

/-- platform/src/lib.rs 1093-1114. -/
def segTimeOut : CSegTime → JSegTime
  | .between f t => .between f t
  | .from_ t => .from_ t
  | .last n u => .last n (unitOut u)
  | .afterFirstUse w u => .afterFirstUse w (unitOut u)
  | .each n u => .windowEach (unitOut u) n

/-- platform/src/lib.rs 1117-1173. -/
def didOut (E : ReqEnv N) : CDid → Option (JDid N)
  | .count o v t => some (.count (opOut o) v (segTimeOut t))
  | .relativeCount e o fs t => do
    let e ← eventOut e
    let fs ← dropEmpty (filterOut E) fs
    return .relativeCount e (opOut o) fs (segTimeOut t)
  | .aggregateProperty p a o v t => do
    let v ← optConv (scalarToJson E) v
    return .aggregateProperty (propOut p) (qaggOut a) (opOut o) v (segTimeOut t)
  | .historicalCount o v t => some (.historicalCount (opOut o) v (segTimeOut t))

/-- platform/src/lib.rs 1176-1237. -/
def condOut (E : ReqEnv N) : CCond → Option (JCond N)
  | .has p o v => do
    let v ← dropEmpty (scalarToJson E) v
    return .has (propOut p) (opOut o) v
  | .had p o v t => do
    let v ← dropEmpty (scalarToJson E) v
    return .had (propOut p) (opOut o) v (segTimeOut t)
  | .did e fs a => do
    let e ← eventOut e
    let fs ← dropEmpty (filterOut E) fs
    let a ← didOut E a
    return .did e fs a

/-- platform/src/lib.rs 1254-1265. -/
def segmentOut (E : ReqEnv N) (s : CSegment) : Option (JSegment N) := do
  let cs ← s.conditions.mapM fun l => l.mapM (condOut E)
  return { name := s.name, conditions := cs }

/-- platform/src/event_segmentation.rs 116-124. -/
def chartOut : CChart → JChart
  | .line => .line | .column => .column | .pie => .pie

/-- platform/src/event_segmentation.rs 156-170. -/
def analysisOut : CAnalysis → JAnalysis
  | .linear => .linear
  | .rollingAverage w u => .rollingAverage w (unitOut u)
  | .logarithmic => .logarithmic
  | .cumulative => .cumulative

/-- platform/src/event_segmentation.rs 190-197. -/
def compareOut (c : CCompare) : JCompare := ⟨c.offset, unitOut c.unit⟩

/-- platform/src/event_segmentation.rs 310-344. -/
def queryOut : CQuery → JQuery
  | .countEvents => .countEvents
  | .countUniqueGroups => .countUniqueGroups
  | .dailyActiveGroups => .dailyActiveGroups
  | .weeklyActiveGroups => .weeklyActiveGroups
  | .monthlyActiveGroups => .monthlyActiveGroups
  | .countPerGroup a => .countPerGroup (aggOut a)
  | .aggregatePropertyPerGroup p g a => .aggregatePropertyPerGroup (propOut p) (paggOut g) (aggOut a)
  | .aggregateProperty p a => .aggregateProperty (propOut p) (aggOut a)
  | .formula f => .formula f

/-- platform/src/event_segmentation.rs 404-435. -/
def esEventOut (E : ReqEnv N) (e : CEvent) : Option (JEvent N) := do
  let ev ← eventOut e.event
  let fs ← dropEmpty (filterOut E) e.filters
  let bs ← dropEmpty (fun p => some (propOut p)) e.breakdowns
  return { event := ev, filters := fs, breakdowns := bs, queries := e.queries.map fun q => queryOut q.1 }

/-- The filters as one group, its conditions the default ones
(platform/src/event_segmentation.rs 518-528, platform/src/funnel.rs 787-796). -/
def groupedOut (E : ReqEnv N) : Option (List PropFilter) → Option (Option (JGrouped N))
  | none => some none
  | some fs => do
    let fs ← fs.mapM (filterOut E)
    return some { groupsCondition := none, groups := [{ filtersOr := false, filters := fs }] }

/-- platform/src/event_segmentation.rs 508-543. -/
def segReqOut (E : ReqEnv N) (r : CSegReq) : Option (JSegReq N) := do
  let es ← r.events.mapM (esEventOut E)
  let fs ← groupedOut E r.filters
  let bs ← dropEmpty (fun p => some (propOut p)) r.breakdowns
  let ss ← keepEmpty (segmentOut E) r.segments
  return { time := timeOut r.time, group := r.groupId, intervalUnit := unitOut r.intervalUnit, chartType := chartOut r.chartType,
           analysis := analysisOut r.analysis, compare := r.compare.map compareOut, events := es, filters := fs,
           breakdowns := bs, segments := ss }

/-- platform/src/funnel.rs 389-398. -/
def fEventOut (E : ReqEnv N) (e : CFEvent) : Option (JFEvent N) := do
  let ev ← eventOut e.event
  let fs ← keepEmpty (filterOut E) e.filters
  return { event := ev, filters := fs }

/-- platform/src/funnel.rs 481-488. -/
def stepOrderOut : CStepOrder → JStepOrder
  | .exact => .exact
  | .any s => .any s

/-- platform/src/funnel.rs 330-341. -/
def stepOut (E : ReqEnv N) (s : CStep) : Option (JStep N) := do
  let es ← s.events.mapM (fEventOut E)
  return { events := es, order := stepOrderOut s.order }

/-- platform/src/funnel.rs 451-462. -/
def unitSOut : CUnitS → JUnitS
  | .hour => .hour | .day => .day | .week => .week | .month => .month | .year => .year | .session => .session

/-- platform/src/funnel.rs 417-424. -/
def windowOut (w : CWindow) : JWindow := ⟨w.n, unitSOut w.unit⟩

/-- platform/src/funnel.rs 509-516. -/
def exStepsOut : CExSteps → JExSteps
  | .all => .all
  | .between f t => .between f t

/-- platform/src/funnel.rs 538-546. -/
def countOut : CCount → JCount
  | .unique => .unique | .nonUnique => .nonUnique | .session => .session

/-- platform/src/funnel.rs 571-581. -/
def excludeOut (E : ReqEnv N) (e : CExclude) : Option (JExclude N) := do
  let ev ← eventOut e.event
  let fs ← keepEmpty (filterOut E) e.filters
  return { event := ev, filters := fs, steps := e.steps.map exStepsOut }

/-- platform/src/funnel.rs 605-613. -/
def fFilterOut : CFFilter → JFFilter
  | .dropOffOnAnyStep => .dropOffOnAnyStep
  | .dropOffOnStep s => .dropOffOnStep s
  | .timeToConvert f t => .timeToConvert f t

/-- platform/src/funnel.rs 635-643. -/
def touchOut : CTouch → JTouch
  | .first => .first | .last => .last | .step s => .step s

/-- platform/src/funnel.rs 697-718. -/
def fChartOut : CFChart → JFChart
  | .steps => .steps
  | .conversionOverTime u => .conversionOverTime (unitOut u)
  | .timeToConvert u a b => .timeToConvert (unitOut u) a b
  | .frequency => .frequency

/-- platform/src/funnel.rs 760-799. -/
def funnelOut (E : ReqEnv N) (r : CFunnel) : Option (JFunnel N) := do
  let st ← r.steps.mapM (stepOut E)
  let hc ← keepEmpty (fun p => some (propOut p)) r.holdingConstants
  let ex ← keepEmpty (excludeOut E) r.exclude
  let bs ← keepEmpty (fun p => some (propOut p)) r.breakdowns
  let ss ← keepEmpty (segmentOut E) r.segments
  let fs ← groupedOut E r.filters
  return { time := timeOut r.time, group := r.groupId, steps := st, timeWindow := windowOut r.timeWindow,
           chartType := fChartOut r.chartType, count := countOut r.count, filter := r.filter.map fFilterOut,
           touch := r.touch.map touchOut, holdingConstants := hc, exclude := ex, breakdowns := bs, segments := ss, filters := fs }

/-- platform/src/reports.rs 146-153. -/
def reportQueryOut (E : ReqEnv N) : CReportQuery → Option (JReportQuery N)
  | .eventSegmentation r => (segReqOut E r).map .eventSegmentation
  | .funnel f => (funnelOut E f).map .funnel

end OptiPrism.Platform
