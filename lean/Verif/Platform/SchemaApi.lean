import Verif.Platform.Request
import Verif.Platform.Access
import Verif.Meta.System

/-!
# The schema and dashboard calls of the API (platform/src/events.rs, custom_events.rs, dashboards.rs, groups.rs, properties.rs)

Each call checks the permission of the caller, turns the request into one of the metadata, and turns the record it gets into what is
shown. The values of `Status`, `Type` of dashboards and `DictionaryType` are those of the metadata and not told apart here. A reply
is `none` when the call panics; the store keeps what was written before. `properties.rs values` is the subject of `Values.lean`.
-/

namespace OptiPrism.Platform

open OptiPrism.Meta (Str Time Kv Err Event EventUpd CustomEvent CustomUpd Dashboard DashboardUpd Panel Property PropUpd PropType
  DictType Status Group DType runCall eventsC customC dashboardsC propsC eventUpdate eventAttach eventDetach createEvent
  customCreate customUpdate dashboardCreate dashboardUpdate propUpdate getOrCreateGroup readAll entries projPath kGroups kNames)

variable {N : Type}

/-- `Groups::list_groups`, metadata/src/groups.rs 191-209. -/
def groupsList (p : Nat) (kv : Kv) : Except Err (List Group) :=
  readAll Group.dec (entries (projPath p (kGroups ++ '/' :: kNames)) kv)

/-! ## What is shown -/

/-- platform/src/events.rs 190-205. -/
structure JEventDef where
  id : Nat
  createdAt : Time
  updatedAt : Option Time
  createdBy : Nat
  updatedBy : Option Nat
  projectId : Nat
  tags : Option (List Str)
  name : Str
  displayName : Option Str
  description : Option Str
  status : Status
  isSystem : Bool
  eventProperties : Option (List Nat)
  userProperties : Option (List Nat)
  deriving DecidableEq, Repr

/-- platform/src/events.rs 231-250: what is shown as the properties of the user are the custom properties. -/
def eventDefOut (r : Event) : JEventDef :=
  { id := r.id, createdAt := r.createdAt, updatedAt := r.updatedAt, createdBy := r.createdBy, updatedBy := r.updatedBy,
    projectId := r.projectId, tags := r.tags, name := r.name, displayName := r.displayName, description := r.description,
    status := r.status, isSystem := r.isSystem, eventProperties := r.eventProperties, userProperties := r.customProperties }

/-- platform/src/custom_events.rs 150-154. -/
structure JCustomPart (N : Type) where
  event : JEventRef
  filters : Option (List (JFilter N))
  deriving DecidableEq

/-- platform/src/custom_events.rs 182-195. -/
structure JCustomDef (N : Type) where
  id : Nat
  createdAt : Time
  updatedAt : Option Time
  createdBy : Nat
  updatedBy : Option Nat
  projectId : Nat
  tags : Option (List Str)
  name : Str
  description : Option Str
  status : Status
  isSystem : Bool
  events : List (JCustomPart N)

/-- platform/src/custom_events.rs 157-166. -/
def customPartIn (R : ReqEnv N) (e : JCustomPart N) : Option Meta.CEvent := do
  let fs ← keepEmpty (filterIn R) e.filters
  return { event := eventIn e.event, filters := fs }

/-- platform/src/custom_events.rs 169-178. -/
def customPartOut (R : ReqEnv N) (e : Meta.CEvent) : Option (JCustomPart N) := do
  let ev ← eventOut e.event
  let fs ← keepEmpty (filterOut R) e.filters
  return { event := ev, filters := fs }

/-- platform/src/custom_events.rs 198-219. -/
def customDefOut (R : ReqEnv N) (r : CustomEvent) : Option (JCustomDef N) := do
  let evs ← r.events.mapM (customPartOut R)
  return { id := r.id, createdAt := r.createdAt, updatedAt := r.updatedAt, createdBy := r.createdBy, updatedBy := r.updatedBy,
           projectId := r.projectId, tags := r.tags, name := r.name, description := r.description, status := r.status,
           isSystem := r.isSystem, events := evs }

/-- platform/src/dashboards.rs 137-145. -/
structure JPanel where
  reportId : Nat
  x : Nat
  y : Nat
  w : Nat
  h : Nat
  deriving DecidableEq, Repr

/-- platform/src/dashboards.rs 147-158. -/
def panelIn (j : JPanel) : Panel := { reportId := j.reportId, x := j.x, y := j.y, w := j.w, h := j.h }

/-- platform/src/dashboards.rs 160-171. -/
def panelOut (r : Panel) : JPanel := { reportId := r.reportId, x := r.x, y := r.y, w := r.w, h := r.h }

/-- platform/src/dashboards.rs 175-186. -/
structure JDashboard where
  id : Nat
  createdAt : Time
  updatedAt : Option Time
  createdBy : Nat
  updatedBy : Option Nat
  projectId : Nat
  tags : Option (List Str)
  name : Str
  description : Option Str
  panels : List JPanel
  deriving DecidableEq, Repr

/-- platform/src/dashboards.rs 188-203. -/
def dashboardOut (r : Dashboard) : JDashboard :=
  { id := r.id, createdAt := r.createdAt, updatedAt := r.updatedAt, createdBy := r.createdBy, updatedBy := r.updatedBy,
    projectId := r.projectId, tags := r.tags, name := r.name, description := r.description, panels := r.panels.map panelOut }

/-- platform/src/properties.rs 169-173; nothing makes a property `system`. -/
inductive JPropType where | system | event | group
  deriving DecidableEq, Repr

/-- platform/src/properties.rs 231-255. -/
structure JPropDef where
  id : Nat
  createdAt : Time
  updatedAt : Option Time
  createdBy : Nat
  updatedBy : Option Nat
  projectId : Nat
  events : Option (List Nat)
  tags : Option (List Str)
  name : Str
  displayName : Option Str
  description : Option Str
  typ : JPropType
  groupId : Option Nat
  order : Nat
  dataType : DType
  status : Status
  hidden : Bool
  isSystem : Bool
  nullable : Bool
  isArray : Bool
  isDictionary : Bool
  dictType : Option DictType
  deriving DecidableEq, Repr

/-- platform/src/properties.rs 296-299. -/
def propTypeOut : PropType → JPropType × Option Nat
  | .event => (.event, none)
  | .group g => (.group, some g)

/-- platform/src/properties.rs 294-326. -/
def propDefOut (r : Property) : JPropDef :=
  { id := r.id, createdAt := r.createdAt, updatedAt := r.updatedAt, createdBy := r.createdBy, updatedBy := r.updatedBy,
    projectId := r.projectId, events := none, tags := r.tags, name := r.name, displayName := r.displayName,
    description := r.description, typ := (propTypeOut r.typ).1, groupId := (propTypeOut r.typ).2, order := r.order,
    dataType := r.dataType, status := r.status, hidden := r.hidden, isSystem := r.isSystem, nullable := r.nullable,
    isArray := r.isArray, isDictionary := r.isDictionary, dictType := r.dictType }

/-- platform/src/groups.rs 65-68. -/
structure JGroupDef where
  id : Nat
  name : Str
  deriving DecidableEq, Repr

/-- platform/src/groups.rs 35-38 and 51-54. -/
def groupDefOut (g : Group) : JGroupDef := ⟨g.id, g.name⟩

/-! ## What is asked -/

/-- platform/src/events.rs 254-261. -/
structure JEventNew where
  tags : Option (List Str)
  name : Str
  displayName : Option Str
  description : Option Str
  status : Status
  isSystem : Bool

/-- platform/src/events.rs 265-274. -/
structure JEventUpd where
  tags : Option (Option (List Str)) := none
  displayName : Option (Option Str) := none
  description : Option (Option Str) := none
  status : Option Status := none

/-- platform/src/custom_events.rs 223-230. -/
structure JCustomNew (N : Type) where
  tags : Option (List Str)
  name : Str
  description : Option Str
  status : Status
  isSystem : Bool
  events : List (JCustomPart N)

/-- platform/src/custom_events.rs 234-246. -/
structure JCustomUpd (N : Type) where
  tags : Option (Option (List Str)) := none
  name : Option Str := none
  description : Option (Option Str) := none
  status : Option Status := none
  events : Option (List (JCustomPart N)) := none

/-- platform/src/dashboards.rs 207-212. -/
structure JDashboardNew where
  tags : Option (List Str)
  name : Str
  description : Option Str
  panels : List JPanel

/-- platform/src/dashboards.rs 216-225. -/
structure JDashboardUpd where
  tags : Option (Option (List Str)) := none
  name : Option Str := none
  description : Option (Option Str) := none
  panels : Option (List JPanel) := none

/-- platform/src/properties.rs 330-339. -/
structure JPropUpd where
  tags : Option (Option (List Str)) := none
  displayName : Option (Option Str) := none
  description : Option (Option Str) := none
  status : Option Status := none

/-- platform/src/events.rs 35-48. -/
def eventNewIn (account p : Nat) (now : Time) (q : JEventNew) : Event :=
  { id := 0, createdAt := now, createdBy := account, updatedAt := none, updatedBy := none, projectId := p, tags := q.tags,
    name := q.name, displayName := q.displayName, description := q.description, status := q.status, isSystem := q.isSystem,
    eventProperties := none, userProperties := none, customProperties := none }

/-- platform/src/events.rs 100-107. -/
def eventUpdIn (account : Nat) (q : JEventUpd) : EventUpd :=
  { updatedBy := account, tags := q.tags, displayName := q.displayName, description := q.description, status := q.status }

/-- platform/src/custom_events.rs 38-50. -/
def customNewIn (R : ReqEnv N) (account p : Nat) (now : Time) (q : JCustomNew N) : Option CustomEvent := do
  let evs ← q.events.mapM (customPartIn R)
  return { id := 0, createdAt := now, createdBy := account, updatedAt := none, updatedBy := none, projectId := p, tags := q.tags,
           name := q.name, description := q.description, status := q.status, isSystem := q.isSystem, events := evs }

/-- platform/src/custom_events.rs 90-106. -/
def customUpdIn (R : ReqEnv N) (account : Nat) (q : JCustomUpd N) : Option CustomUpd := do
  let evs ← keepEmpty (customPartIn R) q.events
  return { updatedBy := account, tags := q.tags, name := q.name, description := q.description, status := q.status, events := evs }

/-- platform/src/dashboards.rs 36-44. -/
def dashboardNewIn (account p : Nat) (now : Time) (q : JDashboardNew) : Dashboard :=
  { id := 0, createdAt := now, createdBy := account, updatedAt := none, updatedBy := none, projectId := p, tags := q.tags,
    name := q.name, description := q.description, panels := q.panels.map panelIn }

/-- platform/src/dashboards.rs 87-95. -/
def dashboardUpdIn (account : Nat) (q : JDashboardUpd) : DashboardUpd :=
  { updatedBy := account, tags := q.tags, name := q.name, description := q.description, panels := q.panels.map (·.map panelIn) }

/-- platform/src/properties.rs 110-119. -/
def propUpdIn (account : Nat) (q : JPropUpd) : PropUpd :=
  { updatedBy := account, tags := q.tags, displayName := q.displayName, description := q.description, status := q.status }

/-! ## The calls -/

inductive SchemaCall (N : Type) where
  | eventCreate (q : JEventNew)
  | eventGet (id : Nat)
  | eventByName (name : Str)
  | eventList
  | eventUpdate (id : Nat) (q : JEventUpd)
  | eventAttach (id prop : Nat)
  | eventDetach (id prop : Nat)
  | eventDelete (id : Nat)
  | customCreate (q : JCustomNew N)
  | customGet (id : Nat)
  | customList
  | customUpdate (id : Nat) (q : JCustomUpd N)
  | customDelete (id : Nat)
  | dashboardCreate (q : JDashboardNew)
  | dashboardGet (id : Nat)
  | dashboardList
  | dashboardUpdate (id : Nat) (q : JDashboardUpd)
  | dashboardDelete (id : Nat)
  | groupCreate (name displayName : Str)
  | groupList
  | propGet (ty : PropType) (id : Nat)
  | propByName (ty : PropType) (name : Str)
  | propList (ty : PropType)
  | propUpdate (ty : PropType) (id : Nat) (q : JPropUpd)
  | propDelete (ty : PropType) (id : Nat)

/-- The endpoint, whose permission `ProjOp.perm` has. -/
def SchemaCall.op : SchemaCall N → ProjOp
  | .eventCreate _ => .eventCreate | .eventGet _ => .eventGet | .eventByName _ => .eventGetByName | .eventList => .eventList
  | .eventUpdate .. => .eventUpdate | .eventAttach .. => .eventAttach | .eventDetach .. => .eventDetach | .eventDelete _ => .eventDelete
  | .customCreate _ => .customCreate | .customGet _ => .customGet | .customList => .customList | .customUpdate .. => .customUpdate
  | .customDelete _ => .customDelete
  | .dashboardCreate _ => .dashboardCreate | .dashboardGet _ => .dashboardGet | .dashboardList => .dashboardList
  | .dashboardUpdate .. => .dashboardUpdate | .dashboardDelete _ => .dashboardDelete
  | .groupCreate .. => .groupCreate | .groupList => .groupList
  | .propGet .. => .propGet | .propByName .. => .propGetByName | .propList _ => .propList | .propUpdate .. => .propUpdate
  | .propDelete .. => .propDelete

/-- What an answer has in it. -/
inductive Shown (N : Type) where
  | event (j : JEventDef) | events (l : List JEventDef)
  | custom (j : JCustomDef N) | customs (l : List (JCustomDef N))
  | dashboard (j : JDashboard) | dashboards (l : List JDashboard)
  | group (j : JGroupDef) | groups (l : List JGroupDef)
  | prop (j : JPropDef) | props (l : List JPropDef)

/-- Why a call is refused. -/
inductive Refusal where | forbidden | failed (e : Err)
  deriving DecidableEq

/-- The answer to a metadata call, with the conversion of what it answers. -/
def shownAs {α : Type} (f : α → Option (Shown N)) : Except Err α → Option (Except Refusal (Shown N))
  | .error e => some (.error (.failed e))
  | .ok a => (f a).map .ok

/-- A call that only reads. -/
def reading {α : Type} (f : α → Option (Shown N)) (r : Except Err α) (kv : Kv) : Option (Except Refusal (Shown N)) × Kv :=
  (shownAs f r, kv)

/-- A call that may write. -/
def writing {α : Type} (f : α → Option (Shown N)) (r : Except Err α × Kv) : Option (Except Refusal (Shown N)) × Kv :=
  (shownAs f r.1, r.2)

/-- The calls after the check of the permission: platform/src/events.rs 35-159, custom_events.rs 38-119, dashboards.rs 36-109,
groups.rs 31-60, properties.rs 71-133. -/
def SchemaCall.act (R : ReqEnv N) (account p : Nat) (now : Time) (kv : Kv) : SchemaCall N → Option (Except Refusal (Shown N)) × Kv
  | .eventCreate q => writing (fun r => some (.event (eventDefOut r))) (createEvent p now (eventNewIn account p now q) kv)
  | .eventGet id => reading (fun r => some (.event (eventDefOut r))) ((eventsC p).getById id kv) kv
  | .eventByName n => reading (fun r => some (.event (eventDefOut r))) ((eventsC p).getBy .name n kv) kv
  | .eventList => reading (fun l => some (.events (l.map eventDefOut))) ((eventsC p).list kv) kv
  | .eventUpdate id q => writing (fun r => some (.event (eventDefOut r))) (runCall (Meta.eventUpdate p id now (eventUpdIn account q)) kv)
  | .eventAttach id x => writing (fun r => some (.event (eventDefOut r))) (runCall (Meta.eventAttach .event p id x) kv)
  | .eventDetach id x => writing (fun r => some (.event (eventDefOut r))) (runCall (Meta.eventDetach .event p id x) kv)
  | .eventDelete id => writing (fun r => some (.event (eventDefOut r))) (runCall ((eventsC p).delete id) kv)
  | .customCreate q => match customNewIn R account p now q with
    | none => (none, kv)
    | some c => writing (fun r => (customDefOut R r).map .custom) (runCall (Meta.customCreate p now c) kv)
  | .customGet id => reading (fun r => (customDefOut R r).map .custom) ((customC p).getById id kv) kv
  | .customList => reading (fun l => (l.mapM (customDefOut R)).map .customs) ((customC p).list kv) kv
  | .customUpdate id q => match customUpdIn R account q with
    | none => (none, kv)
    | some c => writing (fun r => (customDefOut R r).map .custom) (runCall (Meta.customUpdate p id now c) kv)
  | .customDelete id => writing (fun r => (customDefOut R r).map .custom) (runCall ((customC p).delete id) kv)
  | .dashboardCreate q => writing (fun r => some (.dashboard (dashboardOut r)))
      (runCall (Meta.dashboardCreate p now (dashboardNewIn account p now q)) kv)
  | .dashboardGet id => reading (fun r => some (.dashboard (dashboardOut r))) ((dashboardsC p).getById id kv) kv
  | .dashboardList => reading (fun l => some (.dashboards (l.map dashboardOut))) ((dashboardsC p).list kv) kv
  | .dashboardUpdate id q => writing (fun r => some (.dashboard (dashboardOut r)))
      (runCall (Meta.dashboardUpdate p id now (dashboardUpdIn account q)) kv)
  | .dashboardDelete id => writing (fun r => some (.dashboard (dashboardOut r))) (runCall ((dashboardsC p).delete id) kv)
  | .groupCreate n d => writing (fun g => some (.group (groupDefOut g))) (runCall (getOrCreateGroup p n d) kv)
  | .groupList => reading (fun l => some (.groups (l.map groupDefOut))) (groupsList p kv) kv
  | .propGet ty id => reading (fun r => some (.prop (propDefOut r))) ((propsC p ty).getById id kv) kv
  | .propByName ty n => reading (fun r => some (.prop (propDefOut r))) ((propsC p ty).getBy .name n kv) kv
  | .propList ty => reading (fun l => some (.props (l.map propDefOut))) ((propsC p ty).list kv) kv
  | .propUpdate ty id q => writing (fun r => some (.prop (propDefOut r))) (runCall (Meta.propUpdate p ty id now (propUpdIn account q)) kv)
  | .propDelete ty id => writing (fun r => some (.prop (propDefOut r))) (runCall ((propsC p ty).delete id) kv)

/-- A call with the check of the permission in front of it. -/
def SchemaCall.run (R : ReqEnv N) (ctx : Ctx) (p : Nat) (now : Time) (c : SchemaCall N) (kv : Kv) :
    Option (Except Refusal (Shown N)) × Kv :=
  if c.op.allowed ctx p then c.act R ctx.accountId p now kv else (some (.error .forbidden), kv)

/-! ## The routes of the properties of groups -/

inductive Verb where | get | put | delete
  deriving DecidableEq

/-- What the routes with `/group-properties/:group_id/:prop_id` call, platform/src/http/properties.rs 29-39, 93-127 and 149-162; `b` and
`c` are the last two parts of the path. The handler of `get` takes them in the other order. `none`: `provider.groups[group_id]` panics,
there are `GROUPS_COUNT` (5, common/src/lib.rs) entries in it. -/
def groupPropRoute (v : Verb) (b c : Nat) (q : JPropUpd) : Option (SchemaCall N) :=
  match v with
  | .get => if c < 5 then some (.propGet (.group c) b) else none
  | .put => if b < 5 then some (.propUpdate (.group b) c q) else none
  | .delete => if b < 5 then some (.propDelete (.group b) c) else none

/-- A call by its route. -/
def routed (R : ReqEnv N) (ctx : Ctx) (p : Nat) (now : Time) (c : Option (SchemaCall N)) (kv : Kv) : Option (Except Refusal (Shown N)) × Kv :=
  match c with
  | none => (none, kv)
  | some c => c.run R ctx p now kv

end OptiPrism.Platform
