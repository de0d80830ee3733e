import Verif.Decimal
import Verif.Meta.Kv

/-!
# From requests to handlers

The routes of the server: `attach_routes` of /repo/src/ingester/src/sources/http/mod.rs 240-260 and of platform/src/http/*.rs, in the order of
platform/src/http/mod.rs 49-67 (the ingester comes first, cmd/src/command/server.rs 103-113), and the extraction of the parts of the path by the
handlers. The crates axum and matchit are trusted for three things: nesting puts the prefix in front of every route of the nested router; of the patterns
that match a path the one is chosen that has a word where the others have a parameter, at the first place where they differ; a `Path` extractor gets all
parameters of the pattern, those of the prefixes too, and fails unless there are as many as it asks for. A path is given by its pieces between slashes;
the query, the headers other than the token, and the body come after what is modelled here. Preflight requests
(`OPTIONS`) are answered by the CORS layer before.
-/

namespace OptiPrism.Platform

open OptiPrism.Meta

/-- The words in routes. -/
inductive Word where
  | api | v1 | ingest | track | identify | organizations | projects | accounts | admin | backups | backup | settings | auth | signup | login
  | refreshToken | switchOrganization | profile | name | email | password | setPassword | setEmail | schema | events | properties | customEvents
  | groups | propertyValues | eventProperties | groupProperties | dashboards | reports | bookmarks | eventRecords | search | queries
  | eventSegmentation | funnel | groupRecords
  deriving DecidableEq, Repr

/-- How they are spelled. -/
def Word.text : Word → String
  | .api => "api" | .v1 => "v1" | .ingest => "ingest" | .track => "track" | .identify => "identify" | .organizations => "organizations"
  | .projects => "projects" | .accounts => "accounts" | .admin => "admin" | .backups => "backups" | .backup => "backup" | .settings => "settings"
  | .auth => "auth" | .signup => "signup" | .login => "login" | .refreshToken => "refresh-token" | .switchOrganization => "switch-organization"
  | .profile => "profile" | .name => "name" | .email => "email" | .password => "password" | .setPassword => "set-password" | .setEmail => "set-email"
  | .schema => "schema" | .events => "events" | .properties => "properties" | .customEvents => "custom-events" | .groups => "groups"
  | .propertyValues => "property-values" | .eventProperties => "event-properties" | .groupProperties => "group-properties"
  | .dashboards => "dashboards" | .reports => "reports" | .bookmarks => "bookmarks" | .eventRecords => "event-records" | .search => "search"
  | .queries => "queries" | .eventSegmentation => "event-segmentation" | .funnel => "funnel" | .groupRecords => "group-records"

def Word.str (w : Word) : Str := w.text.toList

/-- The names of parameters. -/
inductive Param where
  | token | orgId | projectId | id | backupId | eventId | eventName | propertyId | propId | propName | groupId | dashboardId
  deriving DecidableEq, Repr

inductive Piece where
  | lit (w : Word)
  | par (p : Param)
  deriving DecidableEq, Repr

abbrev RoutePat := List Piece

/-- The methods of requests; `other` stands for all others, which no route has. -/
inductive Meth where | get | post | put | delete | head | other
  deriving DecidableEq, Repr

/-- The handlers. -/
inductive Handler where
  | track | identify
  | orgCreate | orgGet | orgList | orgUpdate | orgDelete
  | projectCreate | projectGet | projectList | projectUpdate | projectDelete
  | accountCreate | accountGet | accountList | accountUpdate | accountDelete
  | backupMake | backupGet | backupList
  | settingsSet | settingsGet
  | signUp | logIn | refresh | switchOrg | profile | setName | changeEmail | changePassword | setPassword | setEmail
  | eventCreate | eventGet | eventByName | eventList | eventUpdate | eventDelete | eventAttach | eventDetach
  | customCreate | customGet | customList | customUpdate | customDelete
  | groupCreate | groupList
  | propValues
  | eventPropGet | eventPropByName | eventPropList | eventPropUpdate | eventPropDelete
  | groupPropGet | groupPropByName | groupPropList | groupPropUpdate | groupPropDelete
  | dashboardCreate | dashboardGet | dashboardList | dashboardUpdate | dashboardDelete
  | reportCreate | reportGet | reportList | reportUpdate | reportDelete
  | bookmarkCreate | bookmarkGet
  | eventRecord | eventSearch
  | segmentation
  | funnel
  | groupRecord | groupSearch
  deriving DecidableEq, Repr

/-- What a part of the path is read as: `u64` and `usize`, or `String`. -/
inductive PKind where | num | str
  deriving DecidableEq, Repr

/-- The `Path` extractors in the signature of each handler, one list for each extractor. -/
def Handler.paths : Handler → List (List PKind)
  -- ingester/src/sources/http/mod.rs 106-131
  | .track | .identify => [[.str]]
  -- organizations.rs 17-59, projects.rs 17-59, accounts.rs 18-56, backups.rs 15-36
  | .orgCreate | .orgList | .projectCreate | .projectList | .accountCreate | .accountList | .backupMake | .backupList => []
  | .orgGet | .orgUpdate | .orgDelete | .projectGet | .projectUpdate | .projectDelete | .accountGet | .accountUpdate | .accountDelete | .backupGet => [[.num]]
  -- settings.rs 12-26, auth.rs 50-206
  | .settingsSet | .settingsGet | .signUp | .logIn | .refresh | .profile | .setName | .changeEmail | .changePassword | .setPassword | .setEmail => []
  | .switchOrg => [[.num]]
  -- events.rs 18-98
  | .eventCreate | .eventList => [[.num]]
  | .eventGet | .eventUpdate | .eventDelete => [[.num, .num]]
  | .eventByName => [[.num], [.str]]
  | .eventAttach | .eventDetach => [[.num, .num, .num]]
  -- custom_events.rs 18-63, groups.rs 17-35
  | .customCreate | .customList | .groupCreate | .groupList => [[.num]]
  | .customGet | .customUpdate | .customDelete => [[.num, .num]]
  -- properties.rs 16-140
  | .propValues | .eventPropList => [[.num]]
  | .eventPropGet | .eventPropUpdate | .eventPropDelete | .groupPropList => [[.num, .num]]
  | .eventPropByName => [[.num, .str]]
  | .groupPropGet | .groupPropUpdate | .groupPropDelete => [[.num, .num, .num]]
  | .groupPropByName => [[.num, .num, .str]]
  -- dashboards.rs 18-67, reports.rs 18-63, bookmarks.rs 16-34
  | .dashboardCreate | .dashboardList | .reportCreate | .reportList | .bookmarkCreate => [[.num]]
  | .dashboardGet | .dashboardUpdate | .dashboardDelete | .reportGet | .reportUpdate | .reportDelete => [[.num, .num]]
  | .bookmarkGet => [[.num, .str]]
  -- event_records.rs 18-36, event_segmentation.rs 17-29, funnel.rs 17-27, group_records.rs 18-38
  | .eventRecord => [[.num, .num]]
  | .eventSearch | .segmentation | .funnel | .groupSearch => [[.num]]
  | .groupRecord => [[.num, .num, .str]]

/-- Whether the first argument of the handler is the `Context`, that is the account the token is for (context.rs 154-195): all but the ingester's,
`sign_up` and `log_in` (auth.rs 70-90). -/
def Handler.needsToken : Handler → Bool
  | .track | .identify | .signUp | .logIn => false
  | _ => true

/-! ## The table of routes -/

structure Route where
  meth : Meth
  pattern : RoutePat
  handler : Handler
  deriving DecidableEq, Repr

/-- `Router::nest`: the route "/" of the nested router is the prefix itself. -/
def nest (pre : RoutePat) (l : List Route) : List Route := l.map fun r => { r with pattern := pre ++ r.pattern }

open Piece

/-- ingester/src/sources/http/mod.rs 240-260. -/
def ingestRoutes (r : List Route) : List Route :=
  r ++ [⟨.post, [lit .api, lit .v1, lit .ingest, par .token, lit .track], .track⟩,
        ⟨.post, [lit .api, lit .v1, lit .ingest, par .token, lit .identify], .identify⟩]

/-- organizations.rs 61-71. -/
def orgRoutes (r : List Route) : List Route :=
  r ++ nest [lit .api, lit .v1, lit .organizations]
    [⟨.post, [], .orgCreate⟩, ⟨.get, [], .orgList⟩, ⟨.get, [par .orgId], .orgGet⟩, ⟨.delete, [par .orgId], .orgDelete⟩, ⟨.put, [par .orgId], .orgUpdate⟩]

/-- projects.rs 61-71. -/
def projectRoutes (r : List Route) : List Route :=
  r ++ nest [lit .api, lit .v1, lit .projects]
    [⟨.post, [], .projectCreate⟩, ⟨.get, [], .projectList⟩, ⟨.get, [par .projectId], .projectGet⟩, ⟨.delete, [par .projectId], .projectDelete⟩,
     ⟨.put, [par .projectId], .projectUpdate⟩]

/-- accounts.rs 58-65. -/
def accountRoutes (r : List Route) : List Route :=
  r ++ nest [lit .api, lit .v1, lit .accounts]
    [⟨.post, [], .accountCreate⟩, ⟨.get, [], .accountList⟩, ⟨.get, [par .id], .accountGet⟩, ⟨.delete, [par .id], .accountDelete⟩,
     ⟨.put, [par .id], .accountUpdate⟩]

/-- backups.rs 38-46. -/
def backupRoutes (r : List Route) : List Route :=
  r ++ nest [lit .api, lit .v1, lit .admin, lit .backups]
    [⟨.get, [], .backupList⟩, ⟨.post, [lit .backup], .backupMake⟩, ⟨.get, [par .backupId], .backupGet⟩]

/-- settings.rs 28-30. -/
def settingsRoutes (r : List Route) : List Route :=
  r ++ [⟨.put, [lit .api, lit .v1, lit .admin, lit .settings], .settingsSet⟩, ⟨.get, [lit .api, lit .v1, lit .admin, lit .settings], .settingsGet⟩]

/-- auth.rs 208-223. -/
def authRoutes (r : List Route) : List Route :=
  r ++ [⟨.post, [lit .api, lit .v1, lit .auth, lit .signup], .signUp⟩,
        ⟨.post, [lit .api, lit .v1, lit .auth, lit .login], .logIn⟩,
        ⟨.post, [lit .api, lit .v1, lit .auth, lit .refreshToken], .refresh⟩,
        ⟨.post, [lit .api, lit .v1, lit .auth, lit .switchOrganization, par .orgId], .switchOrg⟩,
        ⟨.get, [lit .api, lit .v1, lit .profile], .profile⟩,
        ⟨.put, [lit .api, lit .v1, lit .profile, lit .name], .setName⟩,
        ⟨.put, [lit .api, lit .v1, lit .profile, lit .email], .changeEmail⟩,
        ⟨.put, [lit .api, lit .v1, lit .profile, lit .password], .changePassword⟩,
        ⟨.put, [lit .api, lit .v1, lit .profile, lit .setPassword], .setPassword⟩,
        ⟨.put, [lit .api, lit .v1, lit .profile, lit .setEmail], .setEmail⟩]

/-- events.rs 100-119. -/
def eventRoutes (r : List Route) : List Route :=
  r ++ nest [lit .api, lit .v1, lit .projects, par .projectId, lit .schema, lit .events]
    [⟨.post, [], .eventCreate⟩, ⟨.get, [], .eventList⟩, ⟨.get, [par .eventId], .eventGet⟩, ⟨.delete, [par .eventId], .eventDelete⟩,
     ⟨.put, [par .eventId], .eventUpdate⟩, ⟨.get, [lit .name, par .eventName], .eventByName⟩,
     ⟨.post, [par .eventId, lit .properties, par .propertyId], .eventAttach⟩, ⟨.delete, [par .eventId, lit .properties, par .propertyId], .eventDetach⟩]

/-- The prefix of custom_events.rs 67. -/
def customPrefix : RoutePat := [lit .api, lit .v1, lit .projects, par .projectId, lit .schema, lit .customEvents]

/-- custom_events.rs 65-73: what is nested is the router with all routes so far. -/
def customRoutes (r : List Route) : List Route :=
  r ++ nest customPrefix (r ++
    [⟨.post, [], .customCreate⟩, ⟨.get, [], .customList⟩, ⟨.get, [par .eventId], .customGet⟩, ⟨.delete, [par .eventId], .customDelete⟩,
     ⟨.put, [par .eventId], .customUpdate⟩])

/-- groups.rs 37-42. -/
def groupRoutes (r : List Route) : List Route :=
  r ++ nest [lit .api, lit .v1, lit .projects, par .projectId, lit .groups] [⟨.post, [], .groupCreate⟩, ⟨.get, [], .groupList⟩]

/-- `attach_routes`, properties.rs 142-147. -/
def valueRoutes (r : List Route) : List Route :=
  r ++ nest [lit .api, lit .v1, lit .projects, par .projectId] [⟨.post, [lit .propertyValues], .propValues⟩]

/-- `attach_event_routes`, properties.rs 164-177. -/
def eventPropRoutes (r : List Route) : List Route :=
  r ++ nest [lit .api, lit .v1, lit .projects, par .projectId, lit .schema, lit .eventProperties]
    [⟨.get, [], .eventPropList⟩, ⟨.get, [par .propId], .eventPropGet⟩, ⟨.delete, [par .propId], .eventPropDelete⟩, ⟨.put, [par .propId], .eventPropUpdate⟩,
     ⟨.get, [lit .name, par .propName], .eventPropByName⟩]

/-- The prefix of properties.rs 151. -/
def groupPrefix : RoutePat := [lit .api, lit .v1, lit .projects, par .projectId, lit .schema, lit .groupProperties, par .groupId]

/-- `attach_group_routes`, properties.rs 149-162: here too all routes so far are nested. -/
def groupPropRoutes (r : List Route) : List Route :=
  r ++ nest groupPrefix (r ++
    [⟨.get, [], .groupPropList⟩, ⟨.get, [par .propId], .groupPropGet⟩, ⟨.delete, [par .propId], .groupPropDelete⟩, ⟨.put, [par .propId], .groupPropUpdate⟩,
     ⟨.get, [lit .name, par .propName], .groupPropByName⟩])

/-- dashboards.rs 69-79. -/
def dashboardRoutes (r : List Route) : List Route :=
  r ++ nest [lit .api, lit .v1, lit .projects, par .projectId, lit .dashboards]
    [⟨.post, [], .dashboardCreate⟩, ⟨.get, [], .dashboardList⟩, ⟨.get, [par .dashboardId], .dashboardGet⟩, ⟨.delete, [par .dashboardId], .dashboardDelete⟩,
     ⟨.put, [par .dashboardId], .dashboardUpdate⟩]

/-- reports.rs 65-75; the second parameter has the name of the first. -/
def reportRoutes (r : List Route) : List Route :=
  r ++ nest [lit .api, lit .v1, lit .projects, par .projectId, lit .reports]
    [⟨.post, [], .reportCreate⟩, ⟨.get, [], .reportList⟩, ⟨.get, [par .projectId], .reportGet⟩, ⟨.delete, [par .projectId], .reportDelete⟩,
     ⟨.put, [par .projectId], .reportUpdate⟩]

/-- bookmarks.rs 36-43; likewise. -/
def bookmarkRoutes (r : List Route) : List Route :=
  r ++ nest [lit .api, lit .v1, lit .projects, par .projectId, lit .bookmarks] [⟨.post, [], .bookmarkCreate⟩, ⟨.get, [par .projectId], .bookmarkGet⟩]

/-- event_records.rs 38-45. -/
def eventRecordRoutes (r : List Route) : List Route :=
  r ++ nest [lit .api, lit .v1, lit .projects, par .projectId, lit .eventRecords] [⟨.get, [par .id], .eventRecord⟩, ⟨.post, [lit .search], .eventSearch⟩]

/-- event_segmentation.rs 31-39. -/
def segmentationRoutes (r : List Route) : List Route :=
  r ++ nest [lit .api, lit .v1, lit .projects, par .projectId] [⟨.post, [lit .queries, lit .eventSegmentation], .segmentation⟩]

/-- funnel.rs 29-34. -/
def funnelRoutes (r : List Route) : List Route :=
  r ++ nest [lit .api, lit .v1, lit .projects, par .projectId] [⟨.post, [lit .queries, lit .funnel], .funnel⟩]

/-- group_records.rs 40-47. -/
def groupRecordRoutes (r : List Route) : List Route :=
  r ++ nest [lit .api, lit .v1, lit .projects, par .projectId, lit .groupRecords]
    [⟨.post, [lit .search], .groupSearch⟩, ⟨.get, [par .groupId, par .id], .groupRecord⟩]

/-- All routes, mod.rs 49-67 (the order of lines 58-60: values, properties of events, properties of groups). -/
def routes : List Route :=
  groupRecordRoutes (funnelRoutes (segmentationRoutes (eventRecordRoutes (bookmarkRoutes (reportRoutes (dashboardRoutes (groupPropRoutes (eventPropRoutes
    (valueRoutes (groupRoutes (customRoutes (eventRoutes (authRoutes (settingsRoutes (backupRoutes (accountRoutes (projectRoutes (orgRoutes
      (ingestRoutes [])))))))))))))))))))

/-! ## Which route a request takes -/

/-- The values of the parameters if the pattern matches; a parameter matches a piece that is not empty. -/
def takeParams : RoutePat → List Str → Option (List Str)
  | [], [] => some []
  | .lit w :: q, s :: p => if s = w.str then takeParams q p else none
  | .par _ :: q, s :: p => if s = [] then none else (takeParams q p).map (s :: ·)
  | _, _ => none

/-- The first difference is a word in the first pattern. -/
def before : RoutePat → RoutePat → Bool
  | .lit w :: q, .lit w' :: q' => decide (w = w') && before q q'
  | .par _ :: q, .par _ :: q' => before q q'
  | .lit _ :: _, .par _ :: _ => true
  | _, _ => false

def fits (p : List Str) (q : RoutePat) : Bool := (takeParams q p).isSome

/-- The pattern matchit chooses. -/
def chosen (l : List Route) (p : List Str) : Option RoutePat :=
  ((l.map Route.pattern).find? fun q => fits p q && (l.map Route.pattern).all fun q' => !(fits p q' && before q' q))

/-- The method of the route a method takes: `get` answers `HEAD` too. -/
def Meth.route : Meth → Meth
  | .head => .get
  | m => m

/-! ## What the handlers get -/

inductive Arg where
  | num (n : Nat)
  | str (s : Str)
  deriving DecidableEq, Repr

/-- Percent-decoding, `none` if what comes out is not UTF-8. -/
structure Decode where
  run : Str → Option Str
  plain : ∀ s, '%' ∉ s → run s = some s

/-- One decoded part read. -/
def readPart : PKind → Str → Option Arg
  | .num, s => (parseU64 s).map .num
  | .str, s => some (.str s)

def readParts : List PKind → List Str → Option (List Arg)
  | [], [] => some []
  | k :: ks, s :: ss => (readPart k s).bind fun a => (readParts ks ss).map (a :: ·)
  | _, _ => none

def decodeAll (D : Decode) : List Str → Option (List Str)
  | [] => some []
  | s :: ss => (D.run s).bind fun d => (decodeAll D ss).map (d :: ·)

/-- Where a request ends up. -/
inductive Dispatch where
  /-- served from the directory of the user interface, mod.rs 68-72 -/
  | ui
  /-- 405 -/
  | notAllowed
  /-- the `Context` cannot be made: there is no token, it is not valid, or its account is gone -/
  | unauthorized
  /-- 500: as many parameters as the extractor asks for are not there -/
  | wrongNumber
  /-- 400: a parameter cannot be read -/
  | badPath
  /-- the handler runs, with these arguments of the call of the provider -/
  | run (h : Handler) (args : List Arg)
  deriving DecidableEq, Repr

/-- The arguments in the order project, group, item; the handler that gets a property of a group names the last two parts the other way around
(properties.rs 29-39). -/
def Handler.order : Handler → List Arg → List Arg
  | .groupPropGet, [p, i, g] => [p, g, i]
  | _, l => l

/-- The extractors, one after the other: all parts of the path are decoded, counted and then read. -/
def extract (D : Decode) (ps : List Str) : List (List PKind) → Except Dispatch (List Arg)
  | [] => .ok []
  | ks :: rest =>
    match decodeAll D ps with
    | none => .error .badPath
    | some ds =>
      if ks.length ≠ ds.length then .error .wrongNumber else
      match readParts ks ds with
      | none => .error .badPath
      | some args => (extract D ps rest).map (args ++ ·)

/-- A request with method `m` and path `p`; `token`: it has a valid token. -/
def dispatch (D : Decode) (token : Bool) (m : Meth) (p : List Str) : Dispatch :=
  match chosen routes p with
  | none => .ui
  | some q =>
    match routes.find? fun r => decide (r.pattern = q ∧ r.meth = m.route) with
    | none => .notAllowed
    | some r =>
      if r.handler.needsToken && !token then .unauthorized else
      match extract D ((takeParams q p).getD []) r.handler.paths with
      | .error e => e
      | .ok args => .run r.handler (r.handler.order args)

end OptiPrism.Platform
