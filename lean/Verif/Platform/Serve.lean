import Verif.Platform.Routes
import Verif.Platform.Secrets

/-!
# Whole requests

From a request to its reply: the route (Routes.lean), the caller (platform/src/context.rs 154-195), the body (common/src/http.rs 137-184), the call of
the provider, and the status of the reply (platform/src/error.rs 92-159 and the handlers of platform/src/http/*.rs). A request that panics gets no
reply. The bodies are taken as decoded already: `ReqBody.other` is one that cannot be read as what the handler asks for. What the charts, records and
values answer, and what the ingester and the making of projects do, is left open here (see their own models).
-/

namespace OptiPrism.Platform

open OptiPrism.Meta

variable {N : Type}

/-- The bodies of requests, as far as handlers read them. -/
inductive ReqBody (N : Type) where
  | other
  | eventNew (q : JEventNew) | eventUpd (q : JEventUpd)
  | customNew (q : JCustomNew N) | customUpd (q : JCustomUpd N)
  | dashboardNew (q : JDashboardNew) | dashboardUpd (q : JDashboardUpd)
  | group (name displayName : Str)
  | propUpd (q : JPropUpd)
  | reportNew (q : JReportNew N) | reportUpd (q : JReportUpd N)
  | bookmark (q : Option (JReportQuery N))
  | accountNew (q : JAccountNew) | accountUpd (q : JAccountUpd)
  | orgNew (name : Str) | orgUpd (name : Option Str)
  | projectUpd (q : JProjectUpd)
  | settings (q : SettingsBody)
  | signUp (email pw : Str) (name : Option Str)
  | logIn (email pw : Str)
  | refresh (token : Option Tok)
  | name (name : Str)
  | email (email pw : Str)
  | password (pw new : Str)
  | setPassword (new : Str)
  | setEmail (email : Str)

/-- A request: `token` is the one of the header, `org` and `cookie` are those of the cookies (http/auth.rs 92-101, 121). -/
structure HttpReq (N : Type) where
  meth : Meth
  path : List Str
  token : Option Tok
  body : ReqBody N
  org : Option Nat := none
  cookie : Option Tok := none

/-- What a request draws from outside: the clock, in seconds and as stored, the salt, the name of a new bookmark. -/
structure Draw where
  now : Int
  stamp : Time
  salt : Nat
  name : Str

/-- What replies have in them. -/
inductive Content (N : Type) where
  | none
  | schema (x : Shown N)
  | admin (x : AdminShown N)
  | report (x : ReportShown N)
  | settings (b : SettingsBody)
  | tokens (l : List Tok)

/-- A reply; `none`: the request panics. -/
abbrev HttpReply (N : Type) := Option (Nat × Content N)

/-- What is left open: the status of what is read from the tables (charts, records, values; platform/src/http/event_records.rs, event_segmentation.rs,
funnel.rs, group_records.rs, properties.rs 131-140), the outcome of `track`, `identify` and the making of projects, and the files of the user
interface. -/
structure WebEnv (N : Type) where
  A : AdminEnv N
  C : AuthEnv
  D : Decode
  query : Handler → List Arg → Ctx → Kv → Option Nat
  rest : Handler → List Arg → Option Ctx → Kv → Option Nat × Kv
  ui : Meth → List Str → Nat

/-! ## Statuses -/

/-- Errors of the metadata, platform/src/error.rs 97-110. -/
def Err.status : Err → Option Nat
  | .alreadyExists => some 409
  | .notFound => some 404
  | .badRequest => some 400
  | .forbidden => some 403
  | .internal | .codec => some 500
  | .panic => none

/-- platform/src/error.rs 97-110, 143. -/
def Refusal.status : Refusal → Option Nat
  | .forbidden => some 403
  | .failed e => Err.status e

/-- platform/src/error.rs 97-110, 133-143, 150: bad tokens and credentials, fields. -/
def AErr.status : AErr → Option Nat
  | .badToken | .credentials => some 401
  | .field => some 400
  | .forbidden => some 403
  | .store e => Err.status e

/-- The status of a success: the `create` of http/accounts.rs 23, bookmarks.rs 23, custom_events.rs 25, dashboards.rs 25, events.rs 25, groups.rs 24,
organizations.rs 24, reports.rs 25, `sign_up` of auth.rs 83, `backup` of backups.rs 20; 200 everywhere else. -/
def Handler.success : Handler → Nat
  | .accountCreate | .bookmarkCreate | .customCreate | .dashboardCreate | .eventCreate | .groupCreate | .orgCreate | .reportCreate | .signUp => 201
  | .backupMake => 204
  | _ => 200

/-- The body of a reply with status 204 is not sent (hyper). -/
def sentBody (status : Nat) (x : Content N) : Content N := if status = 204 then .none else x

/-- A reply from the answer of a provider. -/
def replyOf {ε α : Type} (h : Handler) (status : ε → Option Nat) (f : α → Content N) : Except ε α → HttpReply N
  | .error e => (status e).map fun s => (s, .none)
  | .ok a => some (h.success, sentBody h.success (f a))

def ApiReply.http (h : Handler) : ApiReply N → HttpReply N
  | .refused e => e.status.map fun s => (s, .none)
  | .auth r => replyOf h AErr.status .tokens r
  | .schema r => r.bind (replyOf h Refusal.status .schema)
  | .report r => r.bind (replyOf h Refusal.status .report)
  | .admin r => r.bind (replyOf h Refusal.status .admin)
  | .settings r => replyOf h AErr.status .settings r

/-! ## What a handler calls -/

inductive WebCall (N : Type) where
  /-- 400: the body cannot be read -/
  | badBody
  /-- `provider.groups[group_id]` is out of range (http/properties.rs 35, 60, 79, 103, 125) -/
  | noGroup
  | api (c : ApiCall N)
  | query
  | rest

/-- A call for the properties of a group. -/
def ofGroup (t : Tok) (p g : Nat) (c : PropType → SchemaCall N) : WebCall N := if g < 5 then .api (.schema t p (c (.group g))) else .noGroup

/-- Handlers that read no body: the arguments of the path (http/*.rs as cited at `Handler.paths`). -/
def plainCall (t : Tok) (h : Handler) (args : List Arg) : Option (WebCall N) :=
  match h, args with
  | .orgGet, [.num i] => some (.api (.admin t (.orgGet i)))
  | .orgList, [] => some (.api (.admin t .orgList))
  | .orgDelete, [.num i] => some (.api (.admin t (.orgDelete i)))
  | .projectGet, [.num i] => some (.api (.admin t (.projectGet i)))
  | .projectList, [] => some (.api (.admin t .projectList))
  | .projectDelete, [.num i] => some (.api (.admin t (.projectDelete i)))
  | .accountGet, [.num i] => some (.api (.admin t (.accountGet i)))
  | .accountList, [] => some (.api (.admin t .accountList))
  | .accountDelete, [.num i] => some (.api (.admin t (.accountDelete i)))
  | .backupMake, [] => some (.api (.admin t .backup))
  | .backupGet, [.num i] => some (.api (.admin t (.backupGet i)))
  | .backupList, [] => some (.api (.admin t .backupList))
  | .settingsGet, [] => some (.api (.settingsGet t))
  | .profile, [] => some (.api (.admin t .profile))
  | .switchOrg, [.num o] => some (.api (.auth (.switchOrganization t o)))
  | .eventGet, [.num p, .num i] => some (.api (.schema t p (.eventGet i)))
  | .eventByName, [.num p, .str n] => some (.api (.schema t p (.eventByName n)))
  | .eventList, [.num p] => some (.api (.schema t p .eventList))
  | .eventDelete, [.num p, .num i] => some (.api (.schema t p (.eventDelete i)))
  | .eventAttach, [.num p, .num i, .num x] => some (.api (.schema t p (.eventAttach i x)))
  | .eventDetach, [.num p, .num i, .num x] => some (.api (.schema t p (.eventDetach i x)))
  | .customGet, [.num p, .num i] => some (.api (.schema t p (.customGet i)))
  | .customList, [.num p] => some (.api (.schema t p .customList))
  | .customDelete, [.num p, .num i] => some (.api (.schema t p (.customDelete i)))
  | .groupList, [.num p] => some (.api (.schema t p .groupList))
  | .eventPropGet, [.num p, .num i] => some (.api (.schema t p (.propGet .event i)))
  | .eventPropByName, [.num p, .str n] => some (.api (.schema t p (.propByName .event n)))
  | .eventPropList, [.num p] => some (.api (.schema t p (.propList .event)))
  | .eventPropDelete, [.num p, .num i] => some (.api (.schema t p (.propDelete .event i)))
  | .groupPropGet, [.num p, .num g, .num i] => some (ofGroup t p g (.propGet · i))
  | .groupPropByName, [.num p, .num g, .str n] => some (ofGroup t p g (.propByName · n))
  | .groupPropList, [.num p, .num g] => some (ofGroup t p g .propList)
  | .groupPropDelete, [.num p, .num g, .num i] => some (ofGroup t p g (.propDelete · i))
  | .dashboardGet, [.num p, .num i] => some (.api (.schema t p (.dashboardGet i)))
  | .dashboardList, [.num p] => some (.api (.schema t p .dashboardList))
  | .dashboardDelete, [.num p, .num i] => some (.api (.schema t p (.dashboardDelete i)))
  | .reportGet, [.num p, .num i] => some (.api (.report t p (.get i)))
  | .reportList, [.num p] => some (.api (.report t p .list))
  | .reportDelete, [.num p, .num i] => some (.api (.report t p (.delete i)))
  | .bookmarkGet, [.num p, .str n] => some (.api (.admin t (.bookmarkGet p n)))
  | _, _ => none

/-- Handlers that read a body, if it is what they ask for. The refresh token of the cookie goes before the one of the body (http/auth.rs 120-129). -/
def bodyCall (d : Draw) (r : HttpReq N) (t : Tok) (h : Handler) (args : List Arg) : Option (WebCall N) :=
  match h, args, r.body with
  | .orgCreate, [], .orgNew n => some (.api (.admin t (.orgCreate n)))
  | .orgUpdate, [.num i], .orgUpd n => some (.api (.admin t (.orgUpdate i n)))
  | .projectUpdate, [.num i], .projectUpd q => some (.api (.admin t (.projectUpdate i q)))
  | .accountCreate, [], .accountNew q => some (.api (.admin t (.accountCreate d.salt q)))
  | .accountUpdate, [.num i], .accountUpd q => some (.api (.admin t (.accountUpdate d.salt i q)))
  | .settingsSet, [], .settings q => some (.api (.settingsSet t q))
  | .refresh, [], .refresh b => (r.cookie.or b).map fun x => .api (.auth (.refresh t x))
  | .setName, [], .name n => some (.api (.auth (.updateName t n)))
  | .changeEmail, [], .email e p => some (.api (.auth (.updateEmail t e p)))
  | .changePassword, [], .password p n => some (.api (.auth (.updatePassword t p n)))
  | .setPassword, [], .setPassword n => some (.api (.auth (.setPassword t n)))
  | .setEmail, [], .setEmail e => some (.api (.auth (.setEmail t e)))
  | .eventCreate, [.num p], .eventNew q => some (.api (.schema t p (.eventCreate q)))
  | .eventUpdate, [.num p, .num i], .eventUpd q => some (.api (.schema t p (.eventUpdate i q)))
  | .customCreate, [.num p], .customNew q => some (.api (.schema t p (.customCreate q)))
  | .customUpdate, [.num p, .num i], .customUpd q => some (.api (.schema t p (.customUpdate i q)))
  | .groupCreate, [.num p], .group n m => some (.api (.schema t p (.groupCreate n m)))
  | .eventPropUpdate, [.num p, .num i], .propUpd q => some (.api (.schema t p (.propUpdate .event i q)))
  | .groupPropUpdate, [.num p, .num g, .num i], .propUpd q => some (ofGroup t p g (.propUpdate · i q))
  | .dashboardCreate, [.num p], .dashboardNew q => some (.api (.schema t p (.dashboardCreate q)))
  | .dashboardUpdate, [.num p, .num i], .dashboardUpd q => some (.api (.schema t p (.dashboardUpdate i q)))
  | .reportCreate, [.num p], .reportNew q => some (.api (.report t p (.create q)))
  | .reportUpdate, [.num p, .num i], .reportUpd q => some (.api (.report t p (.update i q)))
  | .bookmarkCreate, [.num p], .bookmark q => some (.api (.admin t (.bookmarkCreate p d.name q)))
  | _, _, _ => none

/-- `sign_up` and `log_in`, http/auth.rs 70-111. -/
def openCall (r : HttpReq N) (h : Handler) (args : List Arg) : Option (WebCall N) :=
  match h, args, r.body with
  | .signUp, [], .signUp e p n => some (.api (.auth (.signUp e p n)))
  | .logIn, [], .logIn e p => some (.api (.auth (.logIn e p r.org)))
  | _, _, _ => none

/-- What a handler calls. -/
def callOf (d : Draw) (r : HttpReq N) (h : Handler) (args : List Arg) : WebCall N :=
  match h with
  | .eventRecord | .eventSearch | .segmentation | .funnel | .groupRecord | .groupSearch | .propValues => .query
  | .track | .identify | .projectCreate => .rest
  | h => ((openCall r h args).or (r.token.bind fun t => (plainCall t h args).or (bodyCall d r t h args))).getD .badBody

/-- The caller of a request: there must be a token, context.rs 163-166. -/
def caller (d : Draw) (r : HttpReq N) (kv : Kv) : Except AErr Ctx :=
  match r.token with
  | none => .error .badToken
  | some t => authorize d.now t kv

/-- The call made, and its reply. -/
def WebCall.run (W : WebEnv N) (d : Draw) (h : Handler) (args : List Arg) (who : Except AErr Ctx) (c : WebCall N) (kv : Kv) : HttpReply N × Kv :=
  match c with
  | .badBody => (some (400, .none), kv)
  | .noGroup => (none, kv)
  | .api c => let r := c.run W.C W.A d.now d.stamp d.salt kv; (r.1.http h, r.2)
  | .query => match who with
    | .ok ctx => ((W.query h args ctx kv).map fun s => (s, .none), kv)
    | .error _ => (none, kv)
  | .rest => let r := W.rest h args who.toOption kv; (r.1.map fun s => (s, .none), r.2)

/-- Reply and store after the request. -/
def serve (W : WebEnv N) (d : Draw) (r : HttpReq N) (kv : Kv) : HttpReply N × Kv :=
  match dispatch W.D (caller d r kv).toOption.isSome r.meth r.path with
  | .ui => (some (W.ui r.meth r.path, .none), kv)
  | .notAllowed => (some (405, .none), kv)
  | .unauthorized => (match caller d r kv with | .error e => e.status.map fun s => (s, .none) | .ok _ => none, kv)
  | .wrongNumber => (some (500, .none), kv)
  | .badPath => (some (400, .none), kv)
  | .run h args => (callOf d r h args).run W d h args (caller d r kv) kv

end OptiPrism.Platform
