import Verif.Platform.Decode

/-!
# Model: searches for events and for groups, and single records

The handlers of platform/src/event_records.rs and platform/src/group_records.rs with the planners they call
(query/src/event_records.rs, query/src/group_records.rs), up to the columns of the answer. `QErr.panic` is a panic, refusals are
`QErr.plan`.

Not modelled: the context checks (`Access.lean`), the parameters `timestamp` and `format` of the URL, the nodes that split and merge
partitions, and the JSON the cells are written as. That a column an expression names must have been read is not enforced here (it is
what C134 is about).
-/

namespace OptiPrism.Platform

open OptiPrism.Meta (Str PropOp PropertyRef EventRef Scalar PropFilter Kv Property PropType propsC customC eventsC kEvents)
open OptiPrism.Query
open OptiPrism.Ingest (groupCol)

variable {N : Type}

/-! ## Requests -/

/-- `EventRecordsSearchRequest`, platform/src/event_records.rs 136-150. -/
structure JSearch (N : Type) where
  time : JTime
  events : Option (List (JFEvent N))
  filters : Option (JGrouped N)
  properties : Option (List JPropertyRef)

/-- query/src/event_records.rs 622-640. -/
structure CSearch where
  time : QueryTime
  events : Option (List (EventReq PropFilter))
  filters : Option (List PropFilter)
  properties : Option (List PropertyRef)

/-- `GroupRecordsSearchRequest`, platform/src/group_records.rs 214-222. The order is a property and whether smaller values come first. -/
structure JGroupSearch (N : Type) where
  time : Option JTime
  group : Nat
  filters : Option (JGrouped N)
  properties : Option (List JPropertyRef)
  sort : Option (JPropertyRef × Bool)

/-- query/src/group_records.rs 534-541. The order is left out, as it is never there (`sort: None`, platform/src/group_records.rs 138). -/
structure CGroupSearch where
  time : Option QueryTime
  group : Nat
  filters : Option (List PropFilter)
  properties : Option (List PropertyRef)

/-- platform/src/event_records.rs 216-237. -/
def validateSearchEvent (p : Nat) (kv : Kv) (e : JFEvent N) : Except QErr Unit := do
  validateEvent p kv e.event
  each (validateFilter p kv) (e.filters.getD [])

/-- `validate_search_request`, platform/src/event_records.rs 203-291. -/
def validateSearch (p : Nat) (kv : Kv) (r : JSearch N) : Except QErr Unit := do
  require (timeFits r.time)
  require (match r.events with | some [] => false | _ => true)
  each (validateSearchEvent p kv) (r.events.getD [])
  each (validateGroup p kv) (match r.filters with | none => [] | some g => g.groups)
  each (validateProperty p kv) (r.properties.getD [])

/-- platform/src/event_records.rs 153-165. -/
def searchEventIn (E : ReqEnv N) (e : JFEvent N) : Option (EventReq PropFilter) := do
  let fs ← keepEmpty (filterIn E) e.filters
  return { event := eventIn e.event, filters := fs }

/-- platform/src/event_records.rs 168-201. -/
def searchIn (E : ReqEnv N) (r : JSearch N) : Option CSearch := do
  let es ← keepEmpty (searchEventIn E) r.events
  let fs ← groupedIn E r.filters
  let ps ← keepEmpty (fun p => some (propIn p)) r.properties
  return { time := timeIn r.time, events := es, filters := fs, properties := ps }

/-- An empty list becomes none at all. -/
def noneIfEmpty {α : Type} : Option (List α) → Option (List α)
  | some [] => none
  | x => x

/-- The events of `fix_search_request`, query/src/event_records.rs 574-595. -/
def fixSearchEvents (p : Nat) (kv : Kv) : Option (List (EventReq PropFilter)) → Except QErr (Option (List (EventReq PropFilter)))
  | none => .ok none
  | some es => do
    let es ← fixEvents (fixFilter p kv) es
    return some es

/-- `fix_search_request`, query/src/event_records.rs 561-620. -/
def fixSearch (p : Nat) (kv : Kv) (r : CSearch) : Except QErr CSearch := do
  let es ← fixSearchEvents p kv r.events
  let fs ← fixFilters p kv r.filters
  return { r with events := es, filters := fs, properties := noneIfEmpty r.properties }

/-- `validate_search_request`, platform/src/group_records.rs 143-199. -/
def validateGroupSearch (p : Nat) (kv : Kv) (r : JGroupSearch N) : Except QErr Unit := do
  require (match r.time with | none => true | some t => timeFits t)
  each (validateGroup p kv) (match r.filters with | none => [] | some g => g.groups)
  require (match r.properties with | some [] => false | _ => true)
  each (validateProperty p kv) (r.properties.getD [])

/-- platform/src/group_records.rs 109-140. -/
def groupSearchIn (E : ReqEnv N) (r : JGroupSearch N) : Option CGroupSearch := do
  let fs ← groupedIn E r.filters
  let ps ← keepEmpty (fun p => some (propIn p)) r.properties
  return { time := r.time.map timeIn, group := r.group, filters := fs, properties := ps }

/-- `fix_search_request`, query/src/group_records.rs 487-525; the second look at the filters does the same again. -/
def fixGroupSearch (p : Nat) (kv : Kv) (r : CGroupSearch) : Except QErr CGroupSearch := do
  let fs ← fixFilters p kv r.filters
  return { r with filters := fs, properties := noneIfEmpty r.properties }

/-! ## Plans -/

/-- `GROUP_COLUMN_VERSION`, common/src/types.rs 30. -/
@[irreducible] def kVersionCol : Str := "version".toList

/-- `reference`, metadata/src/properties.rs 648-653. -/
def reference (r : Property) : PropertyRef := match r.typ with
  | .event => .event r.name
  | .group g => .group r.name g

/-- `name`, metadata/src/properties.rs 633-638. -/
def visibleName (r : Property) : Str := r.displayName.getD r.name

/-- A property whose column was asked for before is left out (query/src/event_records.rs 249-252, group_records.rs 240-243). -/
def uniqueColumns (sys : Str → Str) : List Str → List Property → List Property
  | _, [] => []
  | seen, r :: rs => if seen.contains (r.columnName sys) then uniqueColumns sys seen rs
    else r :: uniqueColumns sys (seen ++ [r.columnName sys]) rs

/-- All properties of the project: of events, then of the groups (query/src/event_records.rs 350-357). -/
def allProperties (p : Nat) (kv : Kv) : Except QErr (List Property) := do
  let es ← ofStore ((propsC p .event).list kv)
  let gs ← collect (fun g => ofStore ((propsC p (.group g)).list kv)) (List.range groupsCount)
  return es ++ gs.flatten

/-- The new names of columns: a name given before gets a number (query/src/event_records.rs 396-416, group_records.rs 331-350). -/
def newNames (sys : Str → Str) : List Str → List Property → List (Str × Str)
  | _, [] => []
  | found, r :: rs =>
    let n := (found.filter fun f => f = visibleName r).length
    (r.columnName sys, if n = 0 then visibleName r else visibleName r ++ ' ' :: decimal (n + 1)) ::
      newNames sys (found ++ [visibleName r]) rs

/-- `RenameColumnsNode` and `RenameColumnsExec` (query/src/logical_plan/rename_columns.rs 26-55, physical_plan/rename_columns.rs 38-60):
the first new name given to the column. -/
def renamed (names : List (Str × Str)) (c : Str) : Str :=
  match names.find? fun x => x.1 = c with
  | some x => x.2
  | none => c

/-- What is asked of the table. -/
structure RecordsPlan where
  /-- The columns read. -/
  cols : List Str
  /-- Columns decoded before the filter. -/
  decoded : List (Str × Str)
  filter : Expr
  /-- The columns of the answer. -/
  shown : List Str
  /-- The properties the columns of the answer are said to be of. -/
  props : List Property
  /-- Columns decoded after the filter. -/
  after : List (Str × Str)
  /-- The names of the columns of the answer. -/
  names : List Str

/-- `RenameColumnsNode::try_new` makes a schema of the names (`DFSchema::from_unqualifed_fields`), which refuses duplicates. -/
def namedColumns (sys : Str → Str) (shown : List Str) (props : List Property) : Except QErr (List Str) :=
  let names := shown.map (renamed (newNames sys [] props))
  if names.Nodup then .ok names else .error .plan

/-- The properties decoded after the filter: the dictionaries that were not decoded before (query/src/event_records.rs 359-394,
group_records.rs 303-330). `t` is the table of the dictionaries. A column that is not there is not decoded. -/
def decodedAfter (sys : Str → Str) (t : Property → Str) (before shown : List Str) (props : List Property) : List (Str × Str) :=
  ((props.filter fun r => r.isDictionary && !before.contains (r.columnName sys)).map fun r => (r.columnName sys, t r)).filter
    fun d => shown.contains d.1

/-- query/src/event_records.rs 366-380. -/
def eventTable (r : Property) : Str := match r.typ with
  | .event => kEvents
  | .group g => groupCol g

/-- The properties the columns are said to be of: those asked for, or all (query/src/event_records.rs 350-357). -/
def eventProperties (p : Nat) (kv : Kv) (asked : List Property) : Except QErr (List Property) :=
  if asked.isEmpty then allProperties p kv else .ok asked

/-- The columns of the answer (query/src/event_records.rs 305-342): those asked for, with the number of the event in front unless it is
among them, or all. -/
def eventColumns (sys : Str → Str) (cols : List Str) (asked : List Property) : List Str :=
  if asked.isEmpty then cols
  else if (asked.map fun r => r.columnName sys).contains kEventIdCol then asked.map fun r => r.columnName sys
  else kEventIdCol :: asked.map fun r => r.columnName sys

/-- The columns read for a search (query/src/event_records.rs 172-184 and 534-559). -/
def searchColumns (sys : Str → Str) (p : Nat) (kv : Kv) (tbl : List Str) (r : CSearch) : Except QErr (List Str) :=
  match r.properties with
  | none => .ok tbl
  | some refs => do
    let cs ← collect (colName sys p kv) ((r.filters.getD []).map (·.property) ++ refs)
    scan tbl ([kProjectCol, kEventCol, kCreatedCol, kEventIdCol] ++ cs)

/-- `build_search_plan`, query/src/event_records.rs 222-425. `tbl` are the columns of the table of events. -/
def searchPlan (sys : Str → Str) (fuel : Nat) (p : Nat) (kv : Kv) (tbl : List Str) (cur : Int) (r : CSearch) : Except QErr RecordsPlan := do
  let cols ← searchColumns sys p kv tbl r
  let found ← collect (findProp .plan p kv) (r.properties.getD [])
  let ds ← collect (decodeFilter sys p kv) ((r.events.getD []).flatMap (fun e => e.filters.getD []) ++ r.filters.getD [])
  let f ← eventsSearchFilter (mdOf sys p kv) fuel .ms p r.time cur r.events r.filters
  let asked := uniqueColumns sys [] found
  let props ← eventProperties p kv asked
  let shown := eventColumns sys cols asked
  let names ← namedColumns sys shown props
  return ⟨cols, ds.flatten, f, shown, props, decodedAfter sys eventTable (ds.flatten.map (·.1)) shown props, names⟩

/-- The handler up to the plan, platform/src/event_records.rs 68-89. -/
def search (E : ReqEnv N) (sys : Str → Str) (fuel : Nat) (p : Nat) (kv : Kv) (tbl : List Str) (cur : Int) (r : JSearch N) :
    Except QErr RecordsPlan := do
  validateSearch p kv r
  match searchIn E r with
  | none => .error .panic
  | some r => do
    let r ← fixSearch p kv r
    searchPlan sys fuel p kv tbl cur r

/-- The property of a column asked for of a group (query/src/group_records.rs 229-239): properties of events are refused. -/
def findGroupProp (p : Nat) (kv : Kv) : PropertyRef → Except QErr Property
  | .group n g => findProp .plan p kv (.group n g)
  | _ => .error .plan

/-- The columns read for a search of groups (query/src/group_records.rs 167-180 and 456-485). -/
def groupColumns (sys : Str → Str) (p : Nat) (kv : Kv) (tbl : List Str) (r : CGroupSearch) : Except QErr (List Str) :=
  match r.properties with
  | none => .ok tbl
  | some refs => do
    let cs ← collect (colName sys p kv) ((r.filters.getD []).map (·.property) ++ refs)
    scan tbl ([kProjectCol, kIdCol, kVersionCol, kCreatedCol] ++ cs)

/-- The properties the columns are said to be of: those asked for, or all of the group (query/src/group_records.rs 296-301). -/
def groupProperties (p : Nat) (kv : Kv) (g : Nat) (asked : List Property) : Except QErr (List Property) :=
  if asked.isEmpty then
    if g < groupsCount then ofStore ((propsC p (.group g)).list kv) else .error .panic
  else .ok asked

/-- `schema1` of the table of the group, query/src/group_records.rs 171. -/
def groupTable : Option (List Str) → Except QErr (List Str)
  | none => .error .plan
  | some t => .ok t

/-- `build_search_plan`, query/src/group_records.rs 216-358, and `search`, 160-184: `tbl` are the columns of the table of the group, if
there is one. -/
def groupSearchPlan (sys : Str → Str) (p : Nat) (kv : Kv) (tbl : Option (List Str)) (cur : Int) (r : CGroupSearch) :
    Except QErr RecordsPlan := do
  let tbl ← groupTable tbl
  let cols ← groupColumns sys p kv tbl r
  let found ← collect (findGroupProp p kv) (r.properties.getD [])
  let ds ← collect (decodeFilter sys p kv) (r.filters.getD [])
  let f ← groupsSearchFilter (mdOf sys p kv) .ms p r.time cur r.filters
  let asked := uniqueColumns sys [] found
  let props ← groupProperties p kv r.group asked
  let shown := if asked.isEmpty then cols else asked.map fun r => r.columnName sys
  let names ← namedColumns sys shown props
  return ⟨cols, ds.flatten, f, shown, props, decodedAfter sys (fun _ => groupCol r.group) (ds.flatten.map (·.1)) shown props, names⟩

/-- The handler up to the plan, platform/src/group_records.rs 63-83. `tbls` are the tables of groups. -/
def groupSearch (E : ReqEnv N) (sys : Str → Str) (p : Nat) (kv : Kv) (tbls : Nat → Option (List Str)) (cur : Int) (r : JGroupSearch N) :
    Except QErr RecordsPlan := do
  validateGroupSearch p kv r
  match groupSearchIn E r with
  | none => .error .panic
  | some q => do
    let q ← fixGroupSearch p kv q
    groupSearchPlan sys p kv (tbls r.group) cur q

/-! ## Answers -/

/-- `Column`, query/src/lib.rs, as far as it is the same for every search. -/
structure RecordColumn where
  property : PropertyRef
  name : Str
  data : List (Option Cell)

/-- The rows kept: `Filter`. -/
def kept (S : Sem) (e : Expr) (rows : List QRow) : List QRow := rows.filter fun row => eval S row e == some true

/-- The columns of the answer (query/src/event_records.rs 200-218, group_records.rs 194-212): the properties are taken by position,
`&props[idx]`. `none` is a panic. -/
def labelled (c : RecordsPlan) (rows : List QRow) : Option (List RecordColumn) :=
  (c.shown.zip c.names).zipIdx.mapM fun x => (c.props[x.2]?).map fun r => ⟨reference r, x.1.2, rows.map fun row => row x.1.1⟩

/-- An answer without rows has no columns (platform/src/event_records.rs 91-94, group_records.rs 87-90). -/
def emptied (cs : List RecordColumn) : List RecordColumn := match cs with
  | c :: cs => if c.data.isEmpty then [] else c :: cs
  | [] => []

/-- The answer of a search: the rows of the table are decoded, filtered, put in order, cut to 100, decoded and labelled. `order` is the
order the rows come in, `Sort` where there is one. `none` is a panic. -/
def answer (S : Sem) (p : Nat) (kv : Kv) (order : List QRow → List QRow) (c : RecordsPlan) (rows : List QRow) : Option (List RecordColumn) := do
  let rows ← decodeRows p kv c.decoded rows
  let rows ← decodeRows p kv c.after ((order (kept S c.filter rows)).take 100)
  let cs ← labelled c rows
  return emptied cs

end OptiPrism.Platform
