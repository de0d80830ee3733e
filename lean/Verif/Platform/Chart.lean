import Verif.Platform.Request
import Verif.Query.Plan

/-!
# Model: from the request for a chart to its plan

The handler of event segmentations (platform/src/event_segmentation.rs 45-94) and the planner it calls
(query/src/event_segmentation.rs, query/src/lib.rs), up to the plan: the columns to read, and per event the row filter, the columns
to group by and the aggregates. `QErr.panic` is a panic (`unimplemented!`, `unreachable!`, `unwrap` or an index out of range);
refusals of the platform crate are `QErr.plan`.

Not modelled: the context checks (`Access.lean`), the parameters `timestamp` and `format` of the URL (`cur` is the moment taken for now,
the format is the regular one), and what is only shown (names of columns and aggregates).
-/

namespace OptiPrism.Platform

open OptiPrism.Meta (Str PropOp PropertyRef EventRef Scalar PropFilter Kv Property PropType propsC customC eventsC kEvents)
open OptiPrism.Query
open OptiPrism.Ingest (groupCol)

variable {N : Type}

/-- `?` on a metadata call. -/
def ofStore {α : Type} : Except Meta.Err α → Except QErr α
  | .ok a => .ok a
  | .error e => .error (.store e)

/-- `GROUPS_COUNT`, common/src/lib.rs 16. -/
def groupsCount : Nat := 5

/-- The property of a reference: `group_properties[*group].get_by_name(..)?` or `event_properties.get_by_name(..)?`; `custom` is what
happens to custom properties there. -/
def findProp (custom : QErr) (p : Nat) (kv : Kv) : PropertyRef → Except QErr Property
  | .group n g => if g < groupsCount then ofStore ((propsC p (.group g)).getBy .name n kv) else .error .panic
  | .event n => ofStore ((propsC p .event).getBy .name n kv)
  | .custom _ => .error custom

/-! ## Validation -/

/-- platform/src/lib.rs 1453-1496. The numeric types leave out 32 bit. -/
def opFits (r : Property) : JOp → Bool
  | .gt | .gte | .lt | .lte => match r.dataType with
    | .int8 | .int16 | .int64 | .decimal | .timestamp => true
    | _ => false
  | .true | .false => r.dataType = .boolean
  | .exists | .empty => r.nullable
  | .regex | .like | .notLike | .notRegex => r.dataType = .string
  | _ => true

/-- The operators for which an empty list of values is allowed (`allow_empty_values`). -/
def emptyFits : JOp → Bool
  | .true | .false | .exists | .empty => true
  | _ => false

/-- platform/src/lib.rs 1513-1561. -/
def valFits (r : Property) : JVal N → Bool
  | .null => r.nullable
  | .bool _ => r.dataType = .boolean
  | .num _ => match r.dataType with
    | .int8 | .int16 | .int32 | .int64 | .decimal | .timestamp => true
    | _ => false
  | .str _ => r.dataType = .string
  | .arr | .obj => false

/-- platform/src/lib.rs 1498-1565. -/
def valuesFit (r : Property) (op : JOp) : Option (List (JVal N)) → Bool
  | none => r.nullable
  | some vs => (emptyFits op || !vs.isEmpty) && vs.all (valFits r)

/-- A refusal unless. -/
def require (b : Bool) : Except QErr Unit := if b then .ok () else .error .plan

/-- A lookup whose failure becomes a refusal (`map_err(BadRequest)`); panics stay. -/
def refused {α : Type} : Except QErr α → Except QErr α
  | .error (.store _) => .error .plan
  | x => x

/-- `validate_event_filter_property`, platform/src/lib.rs 1428-1568. -/
def validateFilter (p : Nat) (kv : Kv) (f : JFilter N) : Except QErr Unit := do
  let r ← refused (findProp .plan p kv (propIn f.property))
  require (opFits r f.op)
  require (valuesFit r f.op f.value)

/-- `validate_event_property`, platform/src/lib.rs 1399-1426. -/
def validateProperty (p : Nat) (kv : Kv) (r : JPropertyRef) : Except QErr Unit := do
  let _ ← refused (findProp .plan p kv (propIn r))
  return ()

/-- `validate_event`, platform/src/lib.rs 1570-1591. -/
def validateEvent (p : Nat) (kv : Kv) : JEventRef → Except QErr Unit
  | .regular n => do
    let _ ← refused (ofStore ((eventsC p).getBy .name n kv))
    return ()
  | .custom id => do
    let _ ← refused (ofStore ((customC p).getById id kv))
    return ()

/-- `for … { …? }`. -/
def each {α : Type} (f : α → Except QErr Unit) : List α → Except QErr Unit
  | [] => .ok ()
  | a :: as => do
    f a
    each f as

/-- platform/src/event_segmentation.rs 550-561. -/
def timeFits : JTime → Bool
  | .between f t => decide (f ≤ t)
  | _ => true

/-- platform/src/event_segmentation.rs 568-592. -/
def validateChartEvent (p : Nat) (kv : Kv) (e : JEvent N) : Except QErr Unit := do
  validateEvent p kv e.event
  each (validateFilter p kv) (e.filters.getD [])
  require (!e.queries.isEmpty)

/-- platform/src/event_segmentation.rs 595-615. -/
def validateGroup (p : Nat) (kv : Kv) (g : JGroup N) : Except QErr Unit := do
  require (!g.filters.isEmpty)
  each (validateFilter p kv) g.filters

/-- `validate_request`, platform/src/event_segmentation.rs 545-640. -/
def validateChart (p : Nat) (kv : Kv) (r : JSegReq N) : Except QErr Unit := do
  require (decide (r.group < groupsCount))
  require (timeFits r.time)
  require (!r.events.isEmpty)
  each (validateChartEvent p kv) r.events
  each (validateGroup p kv) (match r.filters with | none => [] | some g => g.groups)
  each (validateProperty p kv) (r.breakdowns.getD [])
  require r.segments.isNone

/-! ## Numbers for times -/

/-- `*ts as i64`, query/src/lib.rs 592-600; anything but a decimal is unreachable. -/
def toTimestamp : Scalar → Except QErr Scalar
  | .decimal (some v) _ _ => .ok (.timestampMs (some (v.setWidth 64)) none)
  | _ => .error .panic

def Scalar.isDecimal : Scalar → Bool
  | .decimal _ _ _ => true
  | _ => false

/-- One value: a decimal compared with a time stands for all the values, as times (query/src/lib.rs 586-606). -/
def fixValue (r : Property) (all : List Scalar) (v : Scalar) : Except QErr (List Scalar) :=
  if r.dataType = .timestamp && Scalar.isDecimal v then collect toTimestamp all else .ok [v]

/-- `fix_filter`, query/src/lib.rs 563-620. -/
def fixFilter (p : Nat) (kv : Kv) (f : PropFilter) : Except QErr PropFilter := do
  let r ← findProp .plan p kv f.property
  let vs ← collect (fixValue r (f.value.getD [])) (f.value.getD [])
  return { f with value := some vs.flatten }

/-- Filters of an event or of the request, query/src/event_segmentation.rs 969-978 and 984-993. -/
def fixFilters (p : Nat) (kv : Kv) : Option (List PropFilter) → Except QErr (Option (List PropFilter))
  | none => .ok none
  | some [] => .ok none
  | some fs => do
    let fs ← collect (fixFilter p kv) fs
    return some fs

def fixChartEvent (p : Nat) (kv : Kv) (e : CEvent) : Except QErr CEvent := do
  let fs ← fixFilters p kv e.filters
  return { e with filters := fs }

/-- `fix_request`, query/src/event_segmentation.rs 962-997. -/
def fixChart (p : Nat) (kv : Kv) (r : CSegReq) : Except QErr CSegReq := do
  let es ← collect (fixChartEvent p kv) r.events
  let fs ← fixFilters p kv r.filters
  return { r with events := es, filters := fs }

/-! ## Columns -/

/-- `col_name`, query/src/lib.rs 547-561; also `property_col`, query/src/expr.rs 277-296. -/
def colName (sys : Str → Str) (p : Nat) (kv : Kv) (r : PropertyRef) : Except QErr Str := do
  let r ← findProp .panic p kv r
  return r.columnName sys

/-- The property a query aggregates. -/
def CQuery.properties : CQuery → List PropertyRef
  | .aggregatePropertyPerGroup p _ _ => [p]
  | .aggregateProperty p _ => [p]
  | _ => []

/-- The properties in the order in which `projection` looks at them (query/src/event_segmentation.rs 174-230). -/
def CEvent.properties (e : CEvent) : List PropertyRef :=
  (e.filters.getD []).map (·.property) ++ (e.queries.flatMap fun q => q.1.properties) ++ e.breakdowns.getD []

def CSegReq.properties (r : CSegReq) : List PropertyRef :=
  r.events.flatMap CEvent.properties ++ (r.filters.getD []).map (·.property) ++ r.breakdowns.getD []

/-- `projection`, query/src/event_segmentation.rs 162-235. The final `dedup` makes no difference, as `DbParquetNode` sorts the columns
and removes duplicates (logical_plan/db_parquet.rs 40-44). -/
def projection (sys : Str → Str) (p : Nat) (kv : Kv) (r : CSegReq) : Except QErr (List Str) := do
  let cs ← collect (colName sys p kv) r.properties
  return [kProjectCol, groupCol r.groupId, kCreatedCol, kEventCol] ++ cs

/-- `schema.index_of(x).unwrap()` for all columns (query/src/event_segmentation.rs 104-107), then in the order of the table. -/
def scan (tbl : List Str) (cs : List Str) : Except QErr (List Str) :=
  if cs.all fun c => tbl.contains c then .ok (tbl.filter fun c => cs.contains c) else .error .panic

/-! ## Expressions -/

/-- Decimals are compared by value: brought to 28 digits after the point, the most a request can have. -/
def scalarCell : Scalar → Option Cell
  | .bool v => v.map .bool
  | .decimal v _ s => v.map fun v => .decimal (v.toInt * 10 ^ (28 - s))
  | .int8 v => v.map fun v => .int v.toInt
  | .int16 v => v.map fun v => .int v.toInt
  | .int32 v => v.map fun v => .int v.toInt
  | .int64 v => v.map fun v => .int v.toInt
  | .str v => v.map .str
  | .timestampMs v _ => v.map fun v => .ts v.toInt
  | .other => none

/-- The table of the dictionaries, query/src/expr.rs 133-137. -/
def dictTable : PropertyRef → Str
  | .group _ g => groupCol g
  | _ => kEvents

/-- One filter of `event_filters_expression`, query/src/expr.rs 118-141 and 249-275. -/
def propertyExpression (sys : Str → Str) (p : Nat) (kv : Kv) (f : PropFilter) : Except QErr Expr := do
  let r ← findProp .panic p kv f.property
  propExpression sys p (dictTable f.property) r kv f.op (f.value.map fun vs => vs.map scalarCell)

/-- The metadata as the expressions see it. -/
def mdOf (sys : Str → Str) (p : Nat) (kv : Kv) : Md PropFilter where
  event n := ((eventsC p).getBy .name n kv).map (·.id)
  custom id := ((customC p).getById id kv).map fun r => r.events.map fun e => (e.event, e.filters)
  filter := propertyExpression sys p kv

/-! ## The plan -/

/-- `AggregateExpr` (query/src/logical_plan/partitioned_aggregate.rs 66-110). -/
inductive AggPlan where
  | count (predicate : Str)
  | partitionedCount (outer : CAgg) (distinct : Bool)
  | partitionedAggregate (inner : CPAgg) (outer : CAgg) (predicate : Str)
  | aggregate (agg : CAgg) (predicate : Str)
deriving DecidableEq, Repr

/-- query/src/event_segmentation.rs 864-918. -/
def aggPlan (sys : Str → Str) (p : Nat) (kv : Kv) : CQuery → Except QErr AggPlan
  | .countEvents => .ok (.count kEventCol)
  | .countUniqueGroups => .ok (.partitionedCount .count true)
  | .dailyActiveGroups => .ok (.partitionedCount .count true)
  | .weeklyActiveGroups => .error .panic
  | .monthlyActiveGroups => .error .panic
  | .countPerGroup a => .ok (.partitionedCount a false)
  | .aggregatePropertyPerGroup r g a => do
    let c ← colName sys p kv r
    return .partitionedAggregate g a c
  | .aggregateProperty r a => do
    let c ← colName sys p kv r
    return .aggregate a c
  | .formula _ => .error .panic

structure EventPlan where
  filter : Expr
  groups : List Str
  aggs : List AggPlan

/-- The column of a breakdown (query/src/event_segmentation.rs 801-848): custom properties are refused. -/
def breakdownCol (sys : Str → Str) (p : Nat) (kv : Kv) (r : PropertyRef) : Except QErr Str := do
  let r ← findProp .plan p kv r
  return r.columnName sys

/-- `build_event_logical_plan`, query/src/event_segmentation.rs 612-731, with `build_filter_logical_plan` (735-771) and
`build_aggregate_logical_plan` (774-955). The columns to group by are taken in the order of the columns read (850-862), each once. -/
def eventPlan (sys : Str → Str) (fuel : Nat) (p : Nat) (kv : Kv) (cur : Int) (cols : List Str) (r : CSegReq) (e : CEvent) :
    Except QErr EventPlan := do
  let f ← segmentationFilter (mdOf sys p kv) fuel .ms p r.time cur ⟨e.event, e.filters⟩ r.filters
  let bs ← collect (breakdownCol sys p kv) (e.breakdowns.getD [] ++ r.breakdowns.getD [])
  let as ← collect (fun q => aggPlan sys p kv q.1) e.queries
  return ⟨f, cols.filter fun c => (kCreatedCol :: bs).contains c, as⟩

/-- The operators for which the column is decoded before it is filtered (query/src/lib.rs 459-463). -/
def decodedOp : PropOp → Bool
  | .like | .notLike | .regex | .notRegex => true
  | _ => false

/-- `decode_filter_single_dictionary`, query/src/lib.rs 447-502. -/
def decodeFilter (sys : Str → Str) (p : Nat) (kv : Kv) (f : PropFilter) : Except QErr (List (Str × Str)) :=
  if decodedOp f.op then do
    let r ← findProp .panic p kv f.property
    return if r.isDictionary then [(r.columnName sys, dictTable f.property)] else []
  else .ok []

structure Chart where
  cols : List Str
  /-- Columns decoded before the filters, with the table of the dictionary. -/
  decoded : List (Str × Str)
  events : List EventPlan

/-- query/src/event_segmentation.rs 102-130 and 247-453, without segments. Decoding breakdowns looks up the same properties again. -/
def chartPlan (sys : Str → Str) (fuel : Nat) (p : Nat) (kv : Kv) (tbl : List Str) (cur : Int) (r : CSegReq) : Except QErr Chart := do
  let pr ← projection sys p kv r
  let cols ← scan tbl pr
  let ds ← collect (decodeFilter sys p kv) (r.events.flatMap (fun e => e.filters.getD []) ++ r.filters.getD [])
  let es ← collect (eventPlan sys fuel p kv cur cols r) r.events
  return ⟨cols, ds.flatten, es⟩

/-- The handler, platform/src/event_segmentation.rs 45-75. -/
def chart (E : ReqEnv N) (sys : Str → Str) (fuel : Nat) (p : Nat) (kv : Kv) (tbl : List Str) (cur : Int) (r : JSegReq N) :
    Except QErr Chart := do
  validateChart p kv r
  match segReqIn E r with
  | none => .error .panic
  | some r => do
    let r ← fixChart p kv r
    chartPlan sys fuel p kv tbl cur r

end OptiPrism.Platform
