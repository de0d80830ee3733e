import Verif.Ingest.Transform

/-!
# Creating a project

Model of `Projects::create` (/repo/src/platform/src/projects.rs 86-125) after its permission check, and of
`init_project` (275-470) with `create_event` and `create_property` (/repo/src/metadata/src/util.rs 38-101).

Simplified: one value of the clock for all calls. The random token is given with the request.
-/

namespace OptiPrism.Ingest

open OptiPrism.Meta
open OptiPrism.Storage (Bytes Value NamedValue Tbl InsertErr ColType Field)

/-! The names, /repo/src/common/src/types.rs 34-75, /repo/src/common/src/lib.rs 18. -/
@[irreducible] def kUser : Str := "user".toList
@[irreducible] def kClick : Str := "Click".toList
@[irreducible] def kPage : Str := "Page".toList
@[irreducible] def kScreen : Str := "Screen".toList
@[irreducible] def kSessionEnd : Str := "Session End".toList
@[irreducible] def kClientPatch : Str := "Version Patch".toList
@[irreducible] def kPName : Str := "Name".toList
@[irreducible] def kPHref : Str := "Href".toList
@[irreducible] def kPId : Str := "ID".toList
@[irreducible] def kPClass : Str := "Class".toList
@[irreducible] def kPText : Str := "Text".toList
@[irreducible] def kPElement : Str := "Element".toList
@[irreducible] def kPagePath : Str := "Page Path".toList
@[irreducible] def kPageReferer : Str := "Page Referer".toList
@[irreducible] def kPageSearch : Str := "Page Search".toList
@[irreducible] def kPageTitle : Str := "Page Title".toList
@[irreducible] def kPageUrl : Str := "Page URL".toList
@[irreducible] def kSessionLength : Str := "Session Length".toList

/-- `CreatePropertyMainRequest`, util.rs 61-70. -/
structure SetupProp where
  name : Str
  display : Option Str
  typ : PropType
  dt : DType
  nullable : Bool
  hidden : Bool
  dict : Option DictType
  system : Bool
  deriving DecidableEq, Repr

/-- The request made of it, util.rs 77-92. -/
def SetupProp.req (x : SetupProp) : Property :=
  { id := 0, createdAt := ⟨0, 0⟩, createdBy := 0, updatedAt := none, updatedBy := none, projectId := 0, tags := none, name := x.name,
    displayName := x.display, description := none, order := 0, typ := x.typ, dataType := x.dt, status := .enabled, isSystem := x.system,
    nullable := x.nullable, hidden := x.hidden, isArray := false, isDictionary := x.dict.isSome, dictType := x.dict }

/-- `create_property`, util.rs 72-101: `get_or_create` adds the columns when it creates the property. -/
def setupProp (sys : Str → Str) (now : Time) (p : Nat) (x : SetupProp) : M Property := fun w =>
  match call (propGetOrCreate sys p x.typ now x.req (.ok ())) w with
  | (.error e, w') => (.error e, w')
  | (.ok r, w') => (.ok r, match (propsC p x.typ).getBy .name x.name w.kv with | .ok _ => w' | .error _ => addColumns sys r w')

/-- util.rs 43-56. -/
def setupEventReq (name : Str) : Event :=
  { id := 0, createdAt := ⟨0, 0⟩, updatedAt := none, createdBy := 0, updatedBy := none, projectId := 0, tags := none, name := name,
    displayName := none, description := none, status := .enabled, isSystem := false,
    eventProperties := none, userProperties := none, customProperties := none }

/-- `create_event`, util.rs 38-59. -/
def setupEvent (now : Time) (p : Nat) (name : Str) : M Event := callRaw (getOrCreateEvent p now (setupEventReq name))

/-- A system property of the events, projects.rs 276-341. -/
def sysProp (name display : Str) (dt : DType) (dict : Option DictType) (nullable hidden : Bool) : SetupProp :=
  ⟨name, some display, .event, dt, nullable, hidden, dict, true⟩

/-- projects.rs 276-341. -/
def setupSystem : List SetupProp :=
  sysProp kProjectId "Project".toList .string (some .int64) false true ::
  ((List.range 5).map fun g => sysProp (groupCol g) ("Group ".toList ++ decimal g) .string (some .int64) true false) ++
  [sysProp kCreatedAt "Created At".toList .timestamp none false false,
   sysProp kEventId "Event ID".toList .int64 none false true,
   sysProp kEvent "Event".toList .string (some .int64) false true,
   sysProp kIp "Ip".toList .string none true true]

/-- projects.rs 343-347. -/
def setupEvents : List Str := [kClick, kPage, kScreen, kSessionBegin, kSessionEnd]

/-- A property of the events that is not a system property, projects.rs 371-380, 398-407, 410-419. -/
def userProp (dt : DType) (dict : Option DictType) (name : Str) : SetupProp := ⟨name, none, .event, dt, true, false, dict, false⟩

/-- projects.rs 348-369. -/
def dictNames : List Str :=
  [kClientFamily, kClientMinor, kClientMajor, kClientPatch, kDeviceFamily, kDeviceBrand, kDeviceModel, kOs, kOsFamily, kOsMajor, kOsMinor,
   kOsPatch, kOsPatchMinor, kCountry, kCity, kUtmSource, kUtmMedium, kUtmCampaign, kUtmTerm, kUtmContent]

/-- projects.rs 383-395. -/
def textNames : List Str :=
  [kPName, kPHref, kPId, kPClass, kPText, kPElement, kPagePath, kPageReferer, kPageSearch, kPageTitle, kPageUrl]

/-- projects.rs 370-419. -/
def setupUser : List SetupProp :=
  dictNames.map (userProp .string (some .int64)) ++ textNames.map (userProp .string none) ++ [userProp .timestamp none kSessionLength]

/-- A system property of a group, projects.rs 422-464. -/
def groupProp (g : Nat) (name display : Str) (dt : DType) (dict : Option DictType) (hidden : Bool) : SetupProp :=
  ⟨name, some display, .group g, dt, true, hidden, dict, true⟩

/-- projects.rs 422-464. -/
def setupGroup (g : Nat) : List SetupProp :=
  [groupProp g kProjectId "Project ID".toList .string (some .int64) true, groupProp g kId "ID".toList .string (some .int64) true,
   groupProp g kVersion "Version".toList .int64 none true, groupProp g kCreatedAt "Created At".toList .timestamp none false]

/-- projects.rs 421-465. -/
def setupGroups : List SetupProp := (List.range 5).flatMap setupGroup

/-- `init_project`, projects.rs 275-470. -/
def initProject (sys : Str → Str) (now : Time) (p : Nat) : M Unit :=
  (each (setupProp sys now p) setupSystem).bind fun _ =>
  (each (setupEvent now p) setupEvents).bind fun _ =>
  (each (setupProp sys now p) (setupUser ++ setupGroups)).bind fun _ =>
  (call (getOrCreateGroup p kUser kUser)).bind fun _ => M.pure ()

/-- `Projects::create`, projects.rs 92-124; the request holds the name, the organization, the creator, the token. -/
def createProject (sys : Str → Str) (now : Time) (req : Project) : M Project :=
  (call (projectCreate now req)).bind fun project =>
  (call (dictCreateKey project.id kEvents kProjectId project.id project.name)).bind fun _ =>
  (each (fun g => call (dictCreateKey project.id (groupCol g) kProjectId project.id project.name)) (List.range 5)).bind fun _ =>
  (initProject sys now project.id).bind fun _ => M.pure project

end OptiPrism.Ingest
