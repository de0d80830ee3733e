import Verif.Query.Filter
import Verif.Query.Agg
import Verif.Storage.InsertProps

/-!
# Model: the row filters of the queries (`query/src/{event_segmentation,funnel,event_records,group_records,properties}.rs`)

A query reads a table of all projects and keeps the rows of its filter. Reading the table and evaluating
the filter is DataFusion and the storage; here are the filters the planners build, in the order in which
they look things up. Property filters are of any type `F`, with their expressions given by `Md.filter`.
-/

namespace OptiPrism.Query
open OptiPrism.Meta (Str EventRef)
open OptiPrism.Storage (Value NamedValue)

/-- `COLUMN_PROJECT_ID` and `GROUP_COLUMN_PROJECT_ID` (common/src/types.rs). -/
@[irreducible] def kProjectCol : Str := "project_id".toList
/-- `COLUMN_CREATED_AT` and `GROUP_COLUMN_CREATED_AT`. -/
@[irreducible] def kCreatedCol : Str := "created_at".toList
/-- `COLUMN_EVENT_ID`. -/
@[irreducible] def kEventIdCol : Str := "event_id".toList
/-- `GROUP_COLUMN_ID`. -/
@[irreducible] def kIdCol : Str := "id".toList

/-- An event of a request with its filters. -/
structure EventReq (F : Type) where
  event : EventRef
  filters : Option (List F)

/-- `col(COLUMN_PROJECT_ID) = lit(project_id as i64)`. -/
def projectExpr (p : Nat) : Expr := .bin .eq kProjectCol (some (.int (BitVec.ofNat 64 p).toInt))

section
variable {F : Type}

/-- `build_filter_logical_plan` (event_segmentation.rs:735-771). -/
def segmentationFilter (md : Md F) (fuel : Nat) (u : TsUnit) (p : Nat) (q : QueryTime) (cur : Int) (ev : EventReq F)
    (filters : Option (List F)) : Except QErr Expr :=
  match timeExpression kCreatedCol u q cur with
  | .error x => .error x
  | .ok te => match eventExpression md fuel ev.event with
    | .error x => .error x
    | .ok ee => withFilters md (withFilters md (.ok (.and (.and (projectExpr p) te) ee)) ev.filters) filters

/-- The filter of a funnel (funnel.rs:253-257). -/
def funnelFilter (md : Md F) (u : TsUnit) (q : QueryTime) (cur : Int) (filters : Option (List F)) : Except QErr Expr :=
  withFilters md (timeExpression kCreatedCol u q cur) filters

/-- The events of a step (funnel.rs:264-281). -/
def funnelStep (md : Md F) (fuel : Nat) (events : List (EventReq F)) : Except QErr Expr :=
  match collect (fun ev => withFilters md (eventExpression md fuel ev.event) ev.filters) events with
  | .error x => .error x
  | .ok es => multiOr es

/-- Empty lists of filters do not count (event_records.rs:287-289). -/
def nonEmpty : Option (List F) → Option (List F)
  | some [] => none
  | fs => fs

/-- The filter of `build_search_plan` (event_records.rs:269-303): the filters of the request are not used,
but for finding columns to decode. -/
def eventsSearchFilter (md : Md F) (fuel : Nat) (u : TsUnit) (p : Nat) (q : QueryTime) (cur : Int)
    (events : Option (List (EventReq F))) (_filters : Option (List F)) : Except QErr Expr :=
  match timeExpression kCreatedCol u q cur with
  | .error x => .error x
  | .ok te => match events with
    | none => multiAnd [projectExpr p, te]
    | some [] => multiAnd [projectExpr p, te]
    | some evs =>
      match collect (fun ev => withFilters md (eventExpression md fuel ev.event) (nonEmpty ev.filters)) evs with
      | .error x => .error x
      | .ok es => match multiOr es with
        | .error x => .error x
        | .ok e => multiAnd [projectExpr p, te, e]

/-- The events of `fix_search_request` (event_records.rs:574-595): an event is put into the fixed request
where its filters are there. `fix` is `fix_filter`. -/
def fixEvents (fix : F → Except QErr F) : List (EventReq F) → Except QErr (List (EventReq F))
  | [] => .ok []
  | ev :: evs => match ev.filters with
    | none => fixEvents fix evs
    | some fs => match collect fix fs with
      | .error x => .error x
      | .ok fs => match fixEvents fix evs with
        | .error x => .error x
        | .ok evs => .ok (⟨ev.event, if fs.isEmpty then none else some fs⟩ :: evs)

/-- The filter of a search for events, after `fix_search_request` (platform/src/event_records.rs:68-89). -/
def searchEvents (md : Md F) (fix : F → Except QErr F) (fuel : Nat) (u : TsUnit) (p : Nat) (q : QueryTime) (cur : Int)
    (events : Option (List (EventReq F))) (filters : Option (List F)) : Except QErr Expr :=
  match events with
  | none => eventsSearchFilter md fuel u p q cur none filters
  | some evs => match fixEvents fix evs with
    | .error x => .error x
    | .ok evs => eventsSearchFilter md fuel u p q cur (some evs) filters

/-- The filter of `build_get_by_id_plan` (event_records.rs:427-443). -/
def eventByIdFilter (p id : Nat) : Except QErr Expr :=
  multiAnd [projectExpr p, .bin .eq kEventIdCol (some (.int (BitVec.ofNat 64 id).toInt))]

/-- The filter of `build_search_plan` (group_records.rs:256-275): with filters the list is replaced by the
first expression and the filters. -/
def groupsSearchFilter (md : Md F) (u : TsUnit) (p : Nat) (q : Option QueryTime) (cur : Int) (filters : Option (List F)) :
    Except QErr Expr :=
  let timed : Except QErr (List Expr) := match q with
    | none => .ok [projectExpr p]
    | some q => match timeExpression kCreatedCol u q cur with
      | .error x => .error x
      | .ok te => .ok [projectExpr p, te]
  match timed with
  | .error x => .error x
  | .ok es => match filters with
    | none => multiAnd es
    | some fs => match eventFiltersExpression md fs with
      | .error x => .error x
      | .ok e => multiAnd [.and (projectExpr p) e]

/-- The filter of `build_get_by_id_plan` (group_records.rs:373-391); `key` is the key of the identifier in
the dictionary, an unsigned number. -/
def groupByIdFilter (p key : Nat) : Except QErr Expr :=
  multiAnd [projectExpr p, .bin .eq kIdCol (some (.int key))]

/-- The row filter of the values of a property (properties.rs:125-135). -/
def valuesFilter (md : Md F) (fuel : Nat) (p : Nat) (ev : Option EventRef) : Except QErr Expr :=
  match ev with
  | none => .ok (projectExpr p)
  | some ev => match eventExpression md fuel ev with
    | .error x => .error x
    | .ok e => .ok (.and (projectExpr p) e)

end

/-! ### Rows -/

/-- The cell of a stored value; lists are not compared by the filters here. -/
def toCell : Value → Option Cell
  | .int8 (some v) => some (.int v.toInt)
  | .int16 (some v) => some (.int v.toInt)
  | .int32 (some v) => some (.int v.toInt)
  | .int64 (some v) => some (.int v.toInt)
  | .boolean (some b) => some (.bool b)
  | .timestamp (some v) => some (.ts v.toInt)
  | .decimal (some v) => some (.decimal v.toInt)
  | .string (some b) => (Meta.ofUtf8 b).map .str
  | _ => none

/-- A stored row as the filters see it. -/
def qrow (vs : List NamedValue) : QRow := fun c => toCell (Storage.supplied vs (String.ofList c))

/-- A row kept by the filter, as seen by `Count`: partition column `group_<id>`, predicate column `event`,
grouped by `date_trunc(interval_unit, created_at)`, a function of DataFusion which truncates as `dateTrunc`
does (event_segmentation.rs:774-803, 866-874). Breakdowns are left out. -/
def toARow (u : Unit') (groupCol : Str) (row : QRow) : ARow (Option Int) where
  user := match row groupCol with
    | some (.int v) => some v
    | _ => none
  pass := none
  val := match row kEventCol with
    | some (.int v) => some (v : Rat)
    | _ => none
  group := match row kCreatedCol with
    | some (.ts v) => some (dateTrunc u (v * nsMs))
    | _ => none

/-- The rows of one batch which reach the aggregate. -/
def planned (S : Sem) (u : Unit') (groupCol : Str) (e : Expr) (rows : List (List NamedValue)) : List (ARow (Option Int)) :=
  ((rows.map qrow).filter fun row => eval S row e == some true).map (toARow u groupCol)

end OptiPrism.Query
