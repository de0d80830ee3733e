import Verif.Meta.Modules2
import Verif.Storage.Insert

/-!
# The ingester

Model of /repo/src/ingester/src: `property_to_value` (lib.rs 94-138), `resolve_property` and the two
executors (executor.rs 38-384), the local destination (destinations/local/track.rs 45-302, identify.rs 30-83)
and the handlers' shared mutexes (sources/http/mod.rs 140-243), over the metadata calls of `Verif.Meta` and
the insert of `Verif.Storage.Insert`.

Not modelled: JSON parsing, metrics, flushing. The transformers are an arbitrary function here, that reads the
metadata and changes the list of resolved properties; the two there are follow in `Verif.Ingest.Transform`.
-/

namespace OptiPrism.Ingest

open OptiPrism.Meta
open OptiPrism.Storage (Bytes Value NamedValue Tbl InsertErr ColType Field)

deriving instance DecidableEq for Except

/-- `rust_decimal::Decimal`: the number `m / 10 ^ scale`. -/
structure Num where
  m : Int
  scale : Nat
  deriving DecidableEq, Repr

/-- lib.rs 86-92. -/
inductive PropValue where
  | date (t : Time) | string (s : Str) | number (n : Num) | bool (b : Bool)
  deriving DecidableEq, Repr

/-- `IngesterError` (error.rs) by kind, or a panic. -/
inductive Fail where
  | metadata (e : Err) | store (e : InsertErr) | internal | bad | panic
  deriving DecidableEq, Repr

/-- Whether the thread panics. -/
def Fail.isPanic : Fail → Bool
  | .panic => true
  | .metadata .panic => true
  | .store .panic => true
  | _ => false

/-- The metadata store, the tables by name, and (for specifications only) the accepted inserts so far. -/
structure World where
  kv : Kv
  tbl : Str → Tbl
  rows : List (Str × List NamedValue)

/-- A call: its outcome and the state it leaves (also when it fails). -/
def M (α : Type) := World → Except Fail α × World

def M.pure {α : Type} (a : α) : M α := fun w => (.ok a, w)

def M.bind {α β : Type} (x : M α) (f : α → M β) : M β := fun w =>
  match x w with
  | (.error e, w') => (.error e, w')
  | (.ok a, w') => f a w'

instance : Monad M where
  pure := M.pure
  bind := M.bind

def fail {α : Type} (e : Fail) : M α := fun w => (.error e, w)

def ofExcept {α : Type} (x : Except Fail α) : M α := fun w => (x, w)

/-- A metadata call that may commit although it fails. -/
def callRaw {α : Type} (f : Kv → Except Err α × Kv) : M α := fun w =>
  match f w.kv with
  | (.error e, kv) => (.error (.metadata e), { w with kv := kv })
  | (.ok a, kv) => (.ok a, { w with kv := kv })

/-- A metadata call in one transaction. -/
def call {α : Type} (c : Call α) : M α := callRaw (runCall c)

/-- A metadata read. -/
def read {α : Type} (f : Kv → Except Err α) : M α := callRaw fun kv => (f kv, kv)

/-- `for`/`map … collect::<Result<_>>`: in order, stopping at the first failure. -/
def each {α β : Type} (f : α → M β) : List α → M (List β)
  | [] => M.pure []
  | a :: l => (f a).bind fun b => (each f l).bind fun bs => M.pure (b :: bs)

/-- `OptiDBImpl::insert`. -/
def insertRow (t : Str) (vs : List NamedValue) : M Unit := fun w =>
  match (w.tbl t).insert vs with
  | .error e => (.error (.store e), w)
  | .ok t' => (.ok (), { w with tbl := fun n => if n = t then t' else w.tbl n, rows := w.rows ++ [(t, vs)] })

/-! ## Names -/

/-- `group_col`, common/src/lib.rs 20-22. -/
def groupCol (g : Nat) : Str := kGroup_ ++ decimal g

@[irreducible] def kProjectId : Str := "project_id".toList
@[irreducible] def kCreatedAt : Str := "created_at".toList
@[irreducible] def kEventId : Str := "event_id".toList
@[irreducible] def kIp : Str := "ip".toList
@[irreducible] def kId : Str := "id".toList
@[irreducible] def kVersion : Str := "version".toList
@[irreducible] def kSessionBegin : Str := "Session Begin".toList
@[irreducible] def kUtmSource : Str := "UTM Source".toList
@[irreducible] def kUtmMedium : Str := "UTM Medium".toList
@[irreducible] def kUtmCampaign : Str := "UTM Campaign".toList
@[irreducible] def kUtmTerm : Str := "UTM Term".toList
@[irreducible] def kUtmContent : Str := "UTM Content".toList

def nv (n : Str) (v : Value) : NamedValue := ⟨String.ofList n, v⟩

def i64 (n : Nat) : Value := .int64 (some (BitVec.ofNat 64 n))

/-- `timestamp()` of chrono: whole seconds. -/
def secs (t : Time) : BitVec 64 := t.sec

/-- `timestamp_millis()` of chrono. -/
def millis (t : Time) : BitVec 64 := t.sec * 1000#64 + BitVec.ofNat 64 (t.nano / 1000000)

/-! ## Values -/

/-- `to_i64` of rust_decimal, and `to_i8`/`to_i16`/`to_i32` derived from it: the integer part (towards
zero), `None` when it does not fit. -/
def Num.toInt (w : Nat) (n : Num) : Option (BitVec w) :=
  let i := n.m.tdiv (10 ^ n.scale)
  if -(2 ^ (w - 1) : Int) ≤ i ∧ i < 2 ^ (w - 1) then some (BitVec.ofInt w i) else none

/-- `dict_id as iN`, lib.rs 108-113. -/
def dictCell (dt : DictType) (n : Nat) : GValue :=
  match dt with
  | .int8 => .int8 (some (BitVec.ofNat 8 n))
  | .int16 => .int16 (some (BitVec.ofNat 16 n))
  | .int32 => .int32 (some (BitVec.ofNat 32 n))
  | .int64 => .int64 (some (BitVec.ofNat 64 n))

/-- `to_iN().unwrap()`. -/
def unwrapInt {w : Nat} (k : BitVec w → GValue) (n : Num) : Except Fail GValue :=
  match n.toInt w with
  | none => .error .panic
  | some v => .ok (k v)

/-- The part of `property_to_value` (lib.rs 119-135) for properties without a dictionary. The cell is given
as a `metadata::groups::Value`, which has the same cases as `storage::Value`. -/
def plainCell (dt : DType) (v : PropValue) : Except Fail GValue :=
  match dt, v with
  | .string, .string s => .ok (.str (some s))
  | .int8, .number n => unwrapInt (fun v : BitVec 8 => .int8 (some v)) n
  | .int16, .number n => unwrapInt (fun v : BitVec 16 => .int16 (some v)) n
  | .int32, .number n => unwrapInt (fun v : BitVec 32 => .int32 (some v)) n
  | .int64, .number n => unwrapInt (fun v : BitVec 64 => .int64 (some v)) n
  | .decimal, .number n => .ok (.decimal (some (BitVec.ofInt 128 n.m)))
  | .boolean, .bool b => .ok (.bool (some b))
  | .timestamp, .date t => .ok (.int64 (some (secs t)))
  | _, _ => .error .internal

/-- What the executors are given besides the request: the naming of system columns, the clock, and what the
transformers do to the list of resolved properties. -/
structure Env (X : Type) where
  sys : Str → Str
  now : Time
  transform : Kv → Nat → X → List (Property × PropValue) → Except Fail (List (Property × PropValue))

/-- `property_to_value`, lib.rs 94-138. -/
def propertyToValue (sys : Str → Str) (p : Nat) (t : Str) (pv : Property × PropValue) : M GValue :=
  if pv.1.isDictionary then
    match pv.2 with
    | .string s => (call (dictGetOrCreate p t (pv.1.columnName sys) s)).bind fun id =>
        match pv.1.dictType with
        | none => fail .panic
        | some dt => M.pure (dictCell dt id)
    | _ => fail .internal
  else ofExcept (plainCell pv.1.dataType pv.2)

/-- The conversion of `metadata::groups::Value` to `storage::Value`, track.rs 95-113, identify.rs 58-76. Lists
are not represented (the store refuses them, like `Null`). -/
def toStore : GValue → Value
  | .null => .null
  | .int8 v => .int8 v
  | .int16 v => .int16 v
  | .int32 v => .int32 v
  | .int64 v => .int64 v
  | .bool v => .boolean v
  | .timestamp v => .timestamp v
  | .decimal v => .decimal v
  | .str v => .string (v.map utf8)
  | .list => .null

/-! ## Resolving -/

/-- The request of `resolve_property`, executor.rs 46-74. -/
def propReq (ty : PropType) (name : Str) (v : PropValue) : Property :=
  { id := 0, createdAt := ⟨0, 0⟩, createdBy := 1, updatedAt := none, updatedBy := none, projectId := 0, tags := none, name := name,
    displayName := none, description := none, order := 0, typ := ty,
    dataType := match v with | .date _ => .int64 | .string _ => .string | .number _ => .decimal | .bool _ => .boolean,
    status := .enabled, isSystem := false, nullable := true, hidden := false, isArray := false,
    isDictionary := match v with | .string _ => true | _ => false,
    dictType := match v with | .string _ => some .int64 | _ => none }

/-- The column type of a property, properties.rs 303-312 and `DType::try_into` (lists are not used here). -/
def colType (r : Property) : Option ColType :=
  match r.dictType with
  | some .int8 => some .int8
  | some .int16 => some .int16
  | some .int32 => some .int32
  | some .int64 => some .int64
  | none => match r.dataType with
    | .string => some .string | .int8 => some .int8 | .int16 => some .int16 | .int32 => some .int32 | .int64 => some .int64
    | .decimal => some .decimal | .boolean => some .boolean | .timestamp => some .timestamp | .list _ => none

/-- `add_field`, an existing column is left as it is. -/
def addColumn (t : Str) (col : Str) (dt : ColType) (nullable : Bool) (w : World) : World :=
  match (w.tbl t).addField ⟨String.ofList col, dt, nullable⟩ with
  | none => w
  | some t' => { w with tbl := fun n => if n = t then t' else w.tbl n }

/-- The columns added for a new property, properties.rs 313-347. -/
def addColumns (sys : Str → Str) (r : Property) (w : World) : World :=
  match colType r with
  | none => w
  | some dt =>
    let w1 := addColumn kEvents (r.columnName sys) dt r.nullable w
    match r.typ with
    | .event => w1
    | .group g => addColumn (groupCol g) (r.columnName sys) dt r.nullable w1

/-- `resolve_property`, executor.rs 38-82. `get_or_create` adds the columns when it creates the property. -/
def resolveProperty (sys : Str → Str) (now : Time) (p : Nat) (ty : PropType) (nvp : Str × PropValue) : M (Property × PropValue) := fun w =>
  match call (propGetOrCreate sys p ty now (propReq ty nvp.1 nvp.2) (.ok ())) w with
  | (.error e, w') => (.error e, w')
  | (.ok r, w') => (.ok (r, nvp.2), match (propsC p ty).getBy .name nvp.1 w.kv with | .ok _ => w' | .error _ => addColumns sys r w')

def resolveProperties (sys : Str → Str) (now : Time) (p : Nat) (ty : PropType) (props : Option (List (Str × PropValue))) :
    M (Option (List (Property × PropValue))) :=
  match props with
  | none => M.pure none
  | some l => (each (resolveProperty sys now p ty) l).bind fun r => M.pure (some r)

/-- lib.rs 42-48. -/
structure Campaign where
  source : Str
  medium : Option Str := none
  campaign : Option Str := none
  term : Option Str := none
  content : Option Str := none
  deriving DecidableEq, Repr

/-- The UTM properties set, track.rs 118-212, in order. -/
def Campaign.pairs (c : Campaign) : List (Str × Str) :=
  (kUtmSource, c.source) :: ((c.medium.map fun v => (kUtmMedium, v)).toList ++ (c.campaign.map fun v => (kUtmCampaign, v)).toList ++
    (c.term.map fun v => (kUtmTerm, v)).toList ++ (c.content.map fun v => (kUtmContent, v)).toList)

/-- A track request (lib.rs 153-166, without the resolved fields); maps as lists in the order of their iteration. -/
structure Track where
  userId : Option Str
  anonId : Option Str
  time : Time
  event : Str
  props : Option (List (Str × PropValue)) := none
  groups : Option (List (Str × Str)) := none
  ip : Str := []
  agent : Option Str := none
  campaign : Option Campaign := none
  deriving DecidableEq, Repr

/-- The user of the event, executor.rs 137-191: its number and, for an identified user, its group record.
With both ids given, the branch names them `(aid, uid)` in the order `(user_id, anonymous_id)`. -/
def resolveUser (p : Nat) (user anon : Option Str) : M (Nat × Option GroupValues) :=
  match user, anon with
  | some u, none => (call (groupGetOrCreate p 0 u [])).bind fun g =>
      (call (dictCreateKey p kEvents (groupCol 0) g.id u)).bind fun _ => M.pure (g.id, some g)
  | none, some a => (call (anonymousId p 0 a)).bind fun id =>
      (call (dictCreateKey p kEvents (groupCol 0) id a)).bind fun _ => M.pure (id, none)
  | some u, some a => (callRaw (mergeWithAnonymous p 0 u a [])).bind fun g => M.pure (g.id, none)
  | none, none => fail .bad

/-- One group of the request, executor.rs 201-222. -/
def resolveGroup (p : Nat) (g : Str × Str) : M (Nat × GroupValues) :=
  (call (getOrCreateGroup p g.1 g.1)).bind fun grp =>
  (call (groupGetOrCreate p grp.id g.2 [])).bind fun vals =>
  (call (dictCreateKey p kEvents (groupCol grp.id) vals.id g.2)).bind fun _ => M.pure (grp.id, vals)

/-- The groups of the request, executor.rs 194-224. -/
def resolveGroups (p : Nat) (user : Option GroupValues) (groups : Option (List (Str × Str))) : M (Option (List (Nat × GroupValues))) :=
  match groups with
  | none => M.pure none
  | some l => (each (resolveGroup p) l).bind fun r => M.pure (some ((user.map fun g => (0, g)).toList ++ r))

/-- executor.rs 225-239. -/
def eventReq (name : Str) (props : Option (List (Property × PropValue))) : Event :=
  { id := 0, createdAt := ⟨0, 0⟩, updatedAt := none, createdBy := 1, updatedBy := none, projectId := 0, tags := none, name := name,
    displayName := none, description := none, status := .enabled, isSystem := false,
    eventProperties := props.map fun l => l.map fun pv => pv.1.id, userProperties := none, customProperties := none }

/-- What the destination gets. -/
structure Resolved where
  user : Nat
  event : Event
  props : Option (List (Property × PropValue))
  groups : Option (List (Nat × GroupValues))

/-- executor.rs 246-252. -/
def attachProps (p ev : Nat) (props : Option (List (Property × PropValue))) : M Unit :=
  match props with
  | none => M.pure ()
  | some l => (call (eventTryAttach p ev (l.map fun pv => pv.1.id))).bind fun _ => M.pure ()

/-- executor.rs 254-256; an empty list is not stored (e.g. transformers/geo/track.rs 41-45). -/
def transformed (E : Env Track) (p : Nat) (req : Track) (props : Option (List (Property × PropValue))) :
    M (Option (List (Property × PropValue))) := fun w =>
  match E.transform w.kv p req (props.getD []) with
  | .error e => (.error e, w)
  | .ok l => (.ok (if l.isEmpty then props else some l), w)

/-- executor.rs 120-258, up to the transformers. -/
def resolveTrack (E : Env Track) (p : Nat) (req : Track) : M Resolved :=
  (resolveProperties E.sys E.now p .event req.props).bind fun props =>
  (resolveUser p req.userId req.anonId).bind fun u =>
  (resolveGroups p u.2 req.groups).bind fun groups =>
  (callRaw (getOrCreateEvent p E.now (eventReq req.event props))).bind fun ev =>
  (attachProps p ev.id props).bind fun _ =>
  (transformed E p req props).bind fun props' =>
  M.pure ⟨u.1, ev, props', groups⟩

/-! ## The local destination -/

/-- The group columns, track.rs 54-77. `GROUPS_COUNT` is 5. -/
def groupCells (groups : Option (List (Nat × GroupValues))) : List NamedValue :=
  match groups with
  | some l => (l.map fun g => nv (groupCol g.1) (i64 g.2.id)) ++
      (([1, 2, 3, 4].filter fun g => !(l.map Prod.fst).contains g).map fun g => nv (groupCol g) (.int64 none))
  | none => [1, 2, 3, 4].map fun g => nv (groupCol g) (.int64 none)

/-- track.rs 79-90. -/
def propCells (sys : Str → Str) (p : Nat) (t : Str) (props : List (Property × PropValue)) : M (List NamedValue) :=
  each (fun pv => (propertyToValue sys p t pv).bind fun v => M.pure (nv (pv.1.columnName sys) (toStore v))) props

/-- The stored values of a group, track.rs 92-115, identify.rs 54-79. -/
def valueCells (sys : Str → Str) (p : Nat) (g : Nat) (vals : List PropVal) : M (List NamedValue) :=
  each (fun v => (read ((propsC p (.group g)).getById v.propertyId)).bind fun r => M.pure (nv (r.columnName sys) (toStore v.value))) vals

/-- track.rs 117-217. -/
def utmCells (sys : Str → Str) (p : Nat) (c : Option Campaign) : M (List NamedValue) :=
  match c with
  | none => M.pure []
  | some c => each (fun nvp => (read ((propsC p .event).getBy .name nvp.1)).bind fun r =>
      (propertyToValue sys p kEvents (r, .string nvp.2)).bind fun v => M.pure (nv (r.columnName sys) (toStore v))) c.pairs

/-- The values common to both rows: the key columns, then the groups. -/
def keyCells (p user : Nat) : List NamedValue := [nv kProjectId (i64 p), nv (groupCol 0) (i64 user)]

/-- The row of the event, track.rs 273-299. -/
def eventRow (p user rec ev : Nat) (t : Time) (groups props : List NamedValue) : List NamedValue :=
  keyCells p user ++ groups ++ [nv kCreatedAt (.timestamp (some (millis t))), nv kEventId (i64 rec), nv kEvent (i64 ev)] ++ props

/-- The row opening a session, track.rs 219-262; the time is in seconds (241). -/
def sessionRow (p user rec ev : Nat) (t : Time) (ip : Str) (groups utm props : List NamedValue) : List NamedValue :=
  keyCells p user ++ groups ++ utm ++ [nv kCreatedAt (.timestamp (some (secs t))), nv kEventId (i64 rec), nv kEvent (i64 ev),
    nv kIp (.string (some (utf8 ip)))] ++ props

/-- `Destination<Track>::send`, track.rs 45-302. -/
def sendTrack (E : Env Track) (p : Nat) (req : Track) (r : Resolved) : M Unit :=
  (call (setCurrentTime p r.user E.now)).bind fun isNew =>
  (propCells E.sys p kEvents (r.props.getD [])).bind fun props =>
  (each (fun g => valueCells E.sys p g.1 g.2.values) (r.groups.getD [])).bind fun gprops =>
  (utmCells E.sys p req.campaign).bind fun utm =>
  let cells := props ++ gprops.flatten
  (if isNew then
    (call (nextSeq (.recSeq p))).bind fun rec =>
    (read ((eventsC p).getBy .name kSessionBegin)).bind fun ev =>
    insertRow kEvents (sessionRow p r.user rec ev.id req.time req.ip (groupCells r.groups) utm cells)
  else M.pure ()).bind fun _ =>
  (call (nextSeq (.recSeq p))).bind fun rec =>
  insertRow kEvents (eventRow p r.user rec r.event.id req.time (groupCells r.groups) cells)

/-- `Executor<Track>::execute`, executor.rs 120-263, with the one local destination. -/
def executeTrack (E : Env Track) (token : Str) (req : Track) : M Unit :=
  (read (getByToken token)).bind fun project =>
  (resolveTrack E project.id req).bind fun r =>
  (sendTrack E project.id req r).bind fun _ =>
  (call (incrementEvents project.id)).bind fun _ => M.pure ()

/-! ## Identify -/

/-- lib.rs 140-150, without the resolved fields; `group_id` is 0 until set (mod.rs 232). -/
structure Identify where
  group : Str
  id : Str
  time : Time
  props : Option (List (Str × PropValue)) := none
  deriving DecidableEq, Repr

/-- `Destination<Identify>::send`, identify.rs 30-83. -/
def sendIdentify (sys : Str → Str) (p g : Nat) (t : Time) (vals : GroupValues) : M Unit :=
  (call (nextSeq (.groupRecSeq p g))).bind fun version =>
  (valueCells sys p g vals.values).bind fun cells =>
  insertRow (groupCol g) ([nv kProjectId (i64 p), nv kId (i64 vals.id), nv kVersion (i64 version),
    nv kCreatedAt (.timestamp (some (millis t)))] ++ cells)

/-- `Executor<Identify>::execute`, executor.rs 282-384. The table given to `property_to_value` (308) is that
of `req.group_id`, which is still 0. There are no transformers for identify requests (cmd/src/lib.rs). -/
def executeIdentify (sys : Str → Str) (now : Time) (token : Str) (req : Identify) : M Unit :=
  (read (getByToken token)).bind fun project =>
  (call (getOrCreateGroup project.id req.group req.group)).bind fun grp =>
  (resolveProperties sys now project.id (.group grp.id) req.props).bind fun props =>
  (each (fun pv => (propertyToValue sys project.id (groupCol 0) pv).bind fun v => M.pure (⟨pv.1.id, v⟩ : PropVal)) (props.getD [])).bind fun vals =>
  (call (groupCreateOrUpdate project.id grp.id req.id vals)).bind fun gv =>
  (call (dictCreateKey project.id (groupCol grp.id) kId gv.id req.id)).bind fun _ =>
  sendIdentify sys project.id grp.id req.time gv

/-! ## The handlers -/

/-- The application state of sources/http/mod.rs 140-144: the world and whether each mutex is poisoned. -/
structure App where
  world : World
  trackPoisoned : Bool := false
  identifyPoisoned : Bool := false

inductive HttpReq where
  | track (E : Env Track) (token : Str) (req : Track)
  | identify (sys : Str → Str) (now : Time) (token : Str) (req : Identify)

/-- The answer to a request: `none` when the handler panicked (no answer). -/
abbrev Answer := Option (Except Fail Unit)

def answerOf : Except Fail Unit → Answer
  | .ok () => some (.ok ())
  | .error e => if e.isPanic then none else some (.error e)

/-- `App::track` and `App::identify`, mod.rs 147-242: `lock().unwrap()` panics when the mutex is poisoned, and
a panic while the guard is held poisons it. -/
def App.step (a : App) : HttpReq → Answer × App
  | .track E token req =>
    if a.trackPoisoned then (none, a)
    else
      let r := executeTrack E token req a.world
      (answerOf r.1, { a with world := r.2, trackPoisoned := (answerOf r.1).isNone })
  | .identify sys now token req =>
    if a.identifyPoisoned then (none, a)
    else
      let r := executeIdentify sys now token req a.world
      (answerOf r.1, { a with world := r.2, identifyPoisoned := (answerOf r.1).isNone })

/-- A sequence of requests; the answers in order. -/
def App.run (a : App) : List HttpReq → List Answer × App
  | [] => ([], a)
  | r :: l => ((a.step r).1 :: ((a.step r).2.run l).1, ((a.step r).2.run l).2)

end OptiPrism.Ingest
