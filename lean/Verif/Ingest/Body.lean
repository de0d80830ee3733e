import Verif.Ingest.Model

/-!
# From the body of an HTTP request to the request executed

ingester/src/sources/http/mod.rs 26-238: what `serde` reads from a body and how the handlers answer. The grammar of JSON, of dates, of
numbers and of addresses is given by `Codec`. Left out: the router, CORS, the texts of the errors.
-/

namespace OptiPrism.Ingest

open OptiPrism.Meta

/-- A JSON document; members of objects in the order of the text, numbers as written. -/
inductive Doc where
  | null | bool (b : Bool) | num (s : Str) | str (s : Str) | arr (l : List Doc) | obj (l : List (Str × Doc))

/-- The crates used: `serde_json` (the document of a body; `none` when the text is no JSON), `chrono` (RFC 3339), `rust_decimal` and
`std::net::IpAddr`; and the order in which a hash map is iterated. -/
structure Codec where
  parse : Str → Option Doc
  date : Str → Option Time
  num : Str → Option Num
  ip : Str → Option Str
  iter : {α : Type} → List (Str × α) → List (Str × α)

/-- The members of a derived `Deserialize` for a structure with the fields `names`: of an object each at most once and the unknown ones
ignored; an array gives all fields in order. -/
def members (names : List Str) : Doc → Option (List (Option Doc))
  | .obj l => names.mapM fun k =>
      match l.filter fun m => m.1 = k with
      | [] => some none
      | [m] => some (some m.2)
      | _ => none
  | .arr l => if l.length = names.length then some (l.map some) else none
  | _ => none

/-- A field that must be given. -/
def needed {α : Type} (f : Doc → Option α) : Option Doc → Option α
  | none => none
  | some j => f j

/-- A field of a type `Option`: absent or `null`, or a value. -/
def optional {α : Type} (f : Doc → Option α) : Option Doc → Option (Option α)
  | none => some none
  | some .null => some none
  | some j => (f j).map some

def textOf : Doc → Option Str
  | .str s => some s
  | _ => none

def timeOf (C : Codec) : Doc → Option Time
  | .str s => C.date s
  | _ => none

def ipOf (C : Codec) : Doc → Option Str
  | .str s => C.ip s
  | _ => none

/-- `PropValue`, mod.rs 63-70: untagged, the variants are tried in order. -/
def propOf (C : Codec) : Doc → Option PropValue
  | .str s =>
    match C.date s with
    | some t => some (.date t)
    | none => some (.string s)
  | .num x => (C.num x).map .number
  | .bool b => some (.bool b)
  | _ => none

/-- Inserting the members of an object into a hash map: the last one of a name stays. -/
def lastEach {α : Type} : List (Str × α) → List (Str × α)
  | [] => []
  | m :: l => if (l.map Prod.fst).contains m.1 then lastEach l else m :: lastEach l

/-- A `HashMap<String, _>`, as the list of its entries in the order of iteration. -/
def mapOf {α : Type} (C : Codec) (f : Doc → Option α) : Doc → Option (List (Str × α))
  | .obj l => (l.mapM fun m => (f m.2).map fun v => (m.1, v)).map fun r => C.iter (lastEach r)
  | _ => none

/-- mod.rs 26-34. -/
def campaignOf (j : Doc) : Option Campaign :=
  (members ["source".toList, "medium".toList, "campaign".toList, "term".toList, "content".toList] j).bind fun m =>
  match m with
  | [a, b, c, d, e] =>
    (needed textOf a).bind fun source => (optional textOf b).bind fun medium => (optional textOf c).bind fun campaign =>
    (optional textOf d).bind fun term => (optional textOf e).bind fun content => some ⟨source, medium, campaign, term, content⟩
  | _ => none

/-- mod.rs 46-51. Name and version. -/
def libraryOf (j : Doc) : Option (Str × Str) :=
  (members ["name".toList, "version".toList] j).bind fun m =>
  match m with
  | [a, b] => (needed textOf a).bind fun name => (needed textOf b).bind fun version => some (name, version)
  | _ => none

/-- mod.rs 53-61. -/
structure Page where
  path : Option Str
  referrer : Option Str
  search : Option Str
  title : Option Str
  url : Option Str

def pageOf (j : Doc) : Option Page :=
  (members ["path".toList, "referrer".toList, "search".toList, "title".toList, "url".toList] j).bind fun m =>
  match m with
  | [a, b, c, d, e] =>
    (optional textOf a).bind fun path => (optional textOf b).bind fun referrer => (optional textOf c).bind fun search =>
    (optional textOf d).bind fun title => (optional textOf e).bind fun url => some ⟨path, referrer, search, title, url⟩
  | _ => none

/-- mod.rs 36-44. -/
structure Context where
  library : Option (Str × Str)
  page : Option Page
  agent : Option Str
  ip : Option Str
  campaign : Option Campaign

def contextOf (C : Codec) (j : Doc) : Option Context :=
  (members ["library".toList, "page".toList, "userAgent".toList, "ip".toList, "campaign".toList] j).bind fun m =>
  match m with
  | [a, b, c, d, e] =>
    (optional libraryOf a).bind fun library => (optional pageOf b).bind fun page => (optional textOf c).bind fun agent =>
    (optional (ipOf C) d).bind fun ip => (optional campaignOf e).bind fun campaign => some ⟨library, page, agent, ip, campaign⟩
  | _ => none

/-- `TrackRequest`, mod.rs 93-103. -/
structure TrackBody where
  userId : Option Str
  anonId : Option Str
  time : Option Time
  context : Context
  event : Str
  props : Option (List (Str × PropValue))
  groups : Option (List (Str × Str))

def trackBodyOf (C : Codec) (j : Doc) : Option TrackBody :=
  (members ["userId".toList, "anonymousId".toList, "timestamp".toList, "context".toList, "event".toList, "properties".toList, "groups".toList] j).bind fun m =>
  match m with
  | [a, b, c, d, e, f, g] =>
    (optional textOf a).bind fun userId => (optional textOf b).bind fun anonId => (optional (timeOf C) c).bind fun time =>
    (needed (contextOf C) d).bind fun context => (needed textOf e).bind fun event => (optional (mapOf C (propOf C)) f).bind fun props =>
    (optional (mapOf C textOf) g).bind fun groups => some ⟨userId, anonId, time, context, event, props, groups⟩
  | _ => none

/-- `IdentifyRequest`, mod.rs 83-91. -/
structure IdentifyBody where
  time : Option Time
  context : Context
  group : Str
  id : Str
  props : Option (List (Str × PropValue))

def identifyBodyOf (C : Codec) (j : Doc) : Option IdentifyBody :=
  (members ["timestamp".toList, "context".toList, "group".toList, "id".toList, "properties".toList] j).bind fun m =>
  match m with
  | [a, b, c, d, e] =>
    (optional (timeOf C) a).bind fun time => (needed (contextOf C) b).bind fun context => (needed textOf c).bind fun group =>
    (needed textOf d).bind fun id => (optional (mapOf C (propOf C)) e).bind fun props => some ⟨time, context, group, id, props⟩
  | _ => none

/-- `App::track`, mod.rs 148-193: `client` is the address of the connection, `clock` the time of the server. -/
def TrackBody.request (b : TrackBody) (client : Str) (clock : Time) : Track :=
  { userId := b.userId, anonId := b.anonId, time := b.time.getD clock, event := b.event, props := b.props, groups := b.groups,
    ip := b.context.ip.getD client, agent := b.context.agent, campaign := b.context.campaign }

/-- `App::identify`, mod.rs 195-237; nothing of the context is used. -/
def IdentifyBody.request (b : IdentifyBody) (clock : Time) : Identify :=
  { group := b.group, id := b.id, time := b.time.getD clock, props := b.props }

/-- The status of an error, error.rs 31-50 and common/src/http.rs 65-91. -/
def Fail.status : Fail → Nat
  | .metadata .alreadyExists => 409
  | .metadata .notFound => 404
  | .metadata _ => 500
  | .bad => 400
  | _ => 500

/-- The status of an answer; `success` is that of the handler, mod.rs 121 and 138. `none`: the handler panicked. -/
def statusOf (success : Nat) : Answer → Option Nat
  | none => none
  | some (.ok _) => some success
  | some (.error e) => some e.status

/-- `track`, mod.rs 105-122. -/
def postTrack (C : Codec) (E : Env Track) (client : Str) (clock : Time) (token body : Str) (a : App) : Option Nat × App :=
  match (C.parse body).bind (trackBodyOf C) with
  | none => (some 400, a)
  | some b => let r := a.step (.track E token (b.request client clock)); (statusOf 201 r.1, r.2)

/-- `identify`, mod.rs 124-139. -/
def postIdentify (C : Codec) (sys : Str → Str) (now clock : Time) (token body : Str) (a : App) : Option Nat × App :=
  match (C.parse body).bind (identifyBodyOf C) with
  | none => (some 400, a)
  | some b => let r := a.step (.identify sys now token (b.request clock)); (statusOf 204 r.1, r.2)

end OptiPrism.Ingest
