import Verif.Meta.Frame

/-!
# The metadata modules that are not plain collections

Dictionaries, groups, sessions, bookmarks, backups, properties.
-/

namespace OptiPrism.Meta

open OptiPrism.Storage (Bytes fromLE)

/-! ## Dictionaries -/

/-- `_get_key_or_create`, dictionaries.rs 59-95. -/
def dictGetOrCreate (p : Nat) (t d v : Str) : Call Nat := fun kv =>
  match getK kv (.dictVal p t d v) with
  | some b => match readU64 b with
    | .error e => .error e
    | .ok n => .ok (n, kv)
  | none => match nextSeq (.dictSeq p t d) kv with
    | .error e => .error e
    | .ok (id, kv) => .ok (id, putK (putK kv (.dictKey p t d id) (utf8 v)) (.dictVal p t d v) (le64 id))

/-- `create_key`, dictionaries.rs 97-119: no check. -/
def dictCreateKey (p : Nat) (t d : Str) (n : Nat) (v : Str) : Call Unit := fun kv =>
  .ok ((), putK (putK kv (.dictKey p t d n) (utf8 v)) (.dictVal p t d v) (le64 n))

/-- `get_value`, dictionaries.rs 134-143. -/
def dictGetValue (p : Nat) (t d : Str) (n : Nat) (kv : Kv) : Except Err Str :=
  match getK kv (.dictKey p t d n) with
  | none => .error .notFound
  | some b => match ofUtf8 b with
    | none => .error .codec
    | some s => .ok s

/-- `get_key`, dictionaries.rs 145-155. -/
def dictGetKey (p : Nat) (t d v : Str) (kv : Kv) : Except Err Nat :=
  match getK kv (.dictVal p t d v) with
  | none => .error .notFound
  | some b => readU64 b

/-! ## Events with their dictionary entry -/

/-- The column `event` of the table `events` (common/src/types.rs). -/
@[irreducible] def kEvent : Str := "event".toList

/-- `Events::create`, events.rs 139-193, 210-215: the transaction is committed also when `create_` fails.
Where it can fail (a name already in use; a sequence that cannot be read) it has written nothing, except
when the dictionary entry fails, which is after the event has been written. -/
def createEvent (p : Nat) (now : Time) (req : Event) (kv : Kv) : Except Err Event × Kv :=
  match eventCreate p now req kv with
  | .error e => (.error e, kv)
  | .ok (ev, kv1) => match dictGetOrCreate p kEvents kEvent ev.name kv1 with
    | .error e => (.error e, kv1)
    | .ok (_, kv2) => (.ok ev, kv2)

/-- `Events::get_or_create`, events.rs 217-230. -/
def getOrCreateEvent (p : Nat) (now : Time) (req : Event) (kv : Kv) : Except Err Event × Kv :=
  match (eventsC p).getBy .name req.name kv with
  | .ok ev => (.ok ev, kv)
  | .error .notFound => createEvent p now req kv
  | .error e => (.error e, kv)

/-! ## Groups -/

/-- `get_or_create_anonymous_id`, groups.rs 31-65. -/
def anonymousId (p g : Nat) (s : Str) : Call Nat := fun kv =>
  match getK kv (.anon p g s) with
  | some b => match readU64 b with
    | .error e => .error e
    | .ok n => .ok (n, kv)
  | none => match nextSeq (.groupSeq p g) kv with
    | .error e => .error e
    | .ok (id, kv) => .ok (id, putK kv (.anon p g s) (le64 id))

/-- Reads a stored `GroupValues`; `serialize_group_values` panics where `enc` has no value (excluded by the
validity of the values). -/
def gvRead (b : Bytes) : Except Err GroupValues :=
  match GroupValues.dec b with
  | none => .error .panic
  | some g => .ok g

/-- `get_or_create`, groups.rs 103-140. -/
def groupGetOrCreate (p g : Nat) (s : Str) (values : List PropVal) : Call GroupValues := fun kv =>
  match getK kv (.real p g s) with
  | some b => match gvRead b with
    | .error e => .error e
    | .ok r => .ok (r, kv)
  | none => match nextSeq (.groupSeq p g) kv with
    | .error e => .error e
    | .ok (id, kv) =>
      let r : GroupValues := ⟨id, values⟩
      match r.enc with
      | none => .error .panic
      | some b => .ok (r, putK kv (.real p g s) b)

/-- The merge of values in `create_or_update`, groups.rs 162-178: each new value replaces the first stored
value of the same property or is appended. The search is in the stored values. -/
def mergeValues (stored : List PropVal) (new : List PropVal) : List PropVal :=
  new.foldl (fun vals v =>
    match stored.findIdx? (fun x => x.propertyId == v.propertyId) with
    | some i => vals.set i v
    | none => vals ++ [v]) stored

/-- `create_or_update`, groups.rs 142-189. -/
def groupCreateOrUpdate (p g : Nat) (s : Str) (values : List PropVal) : Call GroupValues := fun kv =>
  match getK kv (.real p g s) with
  | some b => match gvRead b with
    | .error e => .error e
    | .ok r =>
      let r' : GroupValues := ⟨r.id, mergeValues r.values values⟩
      match r'.enc with
      | none => .error .panic
      | some b => .ok (r', putK kv (.real p g s) b)
  | none => match nextSeq (.groupSeq p g) kv with
    | .error e => .error e
    | .ok (id, kv) =>
      let r : GroupValues := ⟨id, values⟩
      match r.enc with
      | none => .error .panic
      | some b => .ok (r, putK kv (.real p g s) b)

/-- `merge_with_anonymous`, groups.rs 70-101. The anonymous id is resolved in a transaction of its own
(committed also if the rest fails). The sequence of the group is overwritten with the decimal digits of the
anonymous id, although `next_seq` reads eight little-endian bytes. -/
def mergeWithAnonymous (p g : Nat) (anon s : Str) (values : List PropVal) (kv : Kv) : Except Err GroupValues × Kv :=
  match getK kv (.real p g s) with
  | some b => match gvRead b with
    | .error e => (.error e, kv)
    | .ok r => (.ok r, kv)
  | none => match runCall (anonymousId p g anon) kv with
    | (.error e, kv) => (.error e, kv)
    | (.ok id, kv) =>
      let r : GroupValues := ⟨id, values⟩
      match r.enc with
      | none => (.error .panic, kv)
      | some b => (.ok r, putK (putK kv (.groupSeq p g) (utf8 (decimal id))) (.real p g s) b)

/-- `get_or_create_group`, groups.rs 211-246; `GROUPS_COUNT` is 5 (common/src/lib.rs). -/
def getOrCreateGroup (p : Nat) (name displayName : Str) : Call Group := fun kv =>
  match getK kv (.groupName p name) with
  | some b => match Group.dec b with
    | none => .error .panic
    | some g => .ok (g, kv)
  | none => match nextZeroSeq (.groupNamesSeq p) kv with
    | .error e => .error e
    | .ok (id, kv) =>
      if 5 ≤ id then .error .badRequest
      else .ok (⟨id, name, displayName⟩, putK kv (.groupName p name) (Group.enc ⟨id, name, displayName⟩))

/-! ## Listing by prefix -/

/-- `prefix_iterator` from the prefix until the first key without it: the entries with the prefix. -/
def entries (pre : Str) (kv : Kv) : List (Str × Bytes) := kv.filter fun e => pre.isPrefixOf e.1

/-- Reads every entry; any unreadable one fails the listing. -/
def readAll {α : Type} (dec : Bytes → Option α) : List (Str × Bytes) → Except Err (List α)
  | [] => .ok []
  | e :: l => match dec e.2 with
    | none => .error .codec
    | some a => match readAll dec l with
      | .error x => .error x
      | .ok as => .ok (a :: as)

/-- `list` (e.g. events.rs 240-263). The order is that of the keys; here it is left open. -/
def Coll.list {R : Type} (c : Coll R) (kv : Kv) : Except Err (List R) := readAll c.dec (entries c.ns.listPrefix kv)

/-! ## Sessions -/

/-- `set_current_time`, sessions.rs 75-102: the answer says whether the session is new. -/
def setCurrentTime (p u : Nat) (time : Time) : Call Bool := fun kv =>
  match getK kv (.session p u) with
  | none => .ok (true, putK kv (.session p u) (Session.enc ⟨u, time⟩))
  | some b => match Session.dec b with
    | none => .error .panic
    | some s => .ok (false, putK kv (.session p u) (Session.enc { s with createdAt := time }))

/-- `get_by_user_id`, sessions.rs 37-46. -/
def getSession (p u : Nat) (kv : Kv) : Except Err Session :=
  match getK kv (.session p u) with
  | none => .error .notFound
  | some b => match Session.dec b with
    | none => .error .panic
    | some s => .ok s

def deleteSessions (p : Nat) (us : List Nat) (kv : Kv) : Kv := us.foldl (fun kv u => delK kv (.session p u)) kv

/-- `clear_project`, sessions.rs 48-73. -/
def clearProject (p : Nat) : Call Unit := fun kv =>
  match readAll Session.dec (entries (sessionPrefix p) kv) with
  | .error e => .error e
  | .ok l => .ok ((), deleteSessions p (l.map Session.userId) kv)

/-- `check_for_deletion`, sessions.rs 104-132; `cb` is the callback's answer (an error aborts). -/
def collectExpired (cb : Session → Except Err Bool) : List Session → Except Err (List Nat)
  | [] => .ok []
  | s :: l => match cb s with
    | .error e => .error e
    | .ok b => match collectExpired cb l with
      | .error e => .error e
      | .ok us => .ok (if b then s.userId :: us else us)

def checkForDeletion (p : Nat) (cb : Session → Except Err Bool) : Call Unit := fun kv =>
  match readAll Session.dec (entries (sessionPrefix p) kv) with
  | .error e => .error e
  | .ok l => match collectExpired cb l with
    | .error e => .error e
    | .ok us => .ok ((), deleteSessions p us kv)

/-! ## Backups -/

/-- `create`, backups.rs 112-142. -/
def backupCreate (now : Time) (req : Backup) : Call Backup := fun kv =>
  let mk := fun id => { req with id := id, createdAt := now, updatedAt := none }
  if req.status = .idle then
    match backupsC.list kv with
    | .error e => .error e
    | .ok l => if l.any fun b => b.status = .idle then .error .alreadyExists else backupsC.create [] mk kv
  else backupsC.create [] mk kv

/-- `update_status`, backups.rs 177-188. -/
def backupUpdateStatus (id : Nat) (now : Time) (st : BackupStatus) : Call Backup :=
  backupsC.update id (fun _ => []) fun b => .ok { b with status := st, updatedAt := some now }

/-! ## Bookmarks -/

/-- `create`, bookmarks.rs 45-72; `id` is the random name. -/
def bookmarkCreate {Q : Type} (bc : Bincode Q) (p : Nat) (req : Bookmark Q) : Call (Bookmark Q) := fun kv =>
  let r := { req with projectId := p }
  .ok (r, putK kv (.bookmark p req.createdBy req.id) (Bookmark.enc bc r))

/-- `get_by_id`, bookmarks.rs 29-43, 74-78. -/
def bookmarkGet {Q : Type} (bc : Bincode Q) (p a : Nat) (id : Str) (kv : Kv) : Except Err (Bookmark Q) :=
  match getK kv (.bookmark p a id) with
  | none => .error .notFound
  | some b => match Bookmark.dec bc b with
    | none => .error .panic
    | some r => .ok r

/-- `delete`, bookmarks.rs 80-87. -/
def bookmarkDelete {Q : Type} (bc : Bincode Q) (p a : Nat) (id : Str) : Call (Bookmark Q) := fun kv =>
  match getK kv (.bookmark p a id) with
  | none => .error .notFound
  | some b => match Bookmark.dec bc b with
    | none => .error .panic
    | some r => .ok (r, delK kv (.bookmark p a id))

/-! ## Properties -/

/-- `Type::path`, properties.rs 555-562. -/
def PropType.coll : PropType → PColl
  | .event => .eventProps
  | .group g => .groupProps g

/-- properties.rs 50-87. The caches are not part of this model. -/
def propsC (p : Nat) (ty : PropType) : Coll Property :=
  ⟨.proj p ty.coll, [(.name, fun r => some r.name), (.displayName, fun r => r.displayName)], fun r => r.encO.getD [],
   Property.dec, Property.id⟩

/-- `DType::short_name`, common/src/types.rs 140-165; lists of lists panic. -/
def DType.shortName : DType → Option Str
  | .string => some "str".toList
  | .int8 => some "i8".toList
  | .int16 => some "i16".toList
  | .int32 => some "i32".toList
  | .int64 => some "i64".toList
  | .decimal => some "d".toList
  | .boolean => some "b".toList
  | .timestamp => some "ts".toList
  | .list .string => some "l_str".toList
  | .list .int8 => some "l_i8".toList
  | .list .int16 => some "l_i16".toList
  | .list .int32 => some "l_i32".toList
  | .list .int64 => some "l_i64".toList
  | .list .decimal => some "l_d".toList
  | .list .boolean => some "l_b".toList
  | .list .timestamp => some "l_ts".toList
  | .list (.list _) => none

/-- `column_name`, properties.rs 610-631. `sys` is the name made for system properties: the characters
kept (612-618), `to_case(Case::Snake)` of the `convert_case` crate, `trim`. -/
def Property.columnName (sys : Str → Str) (r : Property) : Str :=
  if r.isSystem then sys r.name
  else match r.typ with
    | .event => 'e' :: '_' :: ((r.dataType.shortName.getD []) ++ '_' :: decimal r.order)
    | .group g => 'g' :: '_' :: (decimal g ++ '_' :: ((r.dataType.shortName.getD []) ++ '_' :: decimal r.order))

def columnIdx (p : Nat) (col : Str) : Key := .idx (.proj p .global) .columnName col

/-- `create_`, properties.rs 219-348. `field` is the outcome of `OptiDBImpl::add_field` (an existing column is
not an error there). -/
def propCreate (sys : Str → Str) (p : Nat) (ty : PropType) (now : Time) (req : Property) (field : Except Err Unit) :
    Call Property := fun kv =>
  let ns := Ns.proj p ty.coll
  let keys := [some (.idx ns .name req.name), req.displayName.map (.idx ns .displayName)]
  if clashInsert keys kv then .error .alreadyExists else
  match nextSeq (.seq ns) kv with
  | .error e => .error e
  | .ok (id, kv) =>
  match req.dataType.shortName with
  | none => .error .panic
  | some sh =>
  match nextZeroSeq (.orderSeq p sh) kv with
  | .error e => .error e
  | .ok (order, kv) =>
    let r : Property := { req with id := id, createdAt := now, updatedAt := none, updatedBy := none, projectId := p, order := order }
    match r.encO with
    | none => .error .panic
    | some b =>
      let kv := insertIndex (keys ++ [some (columnIdx p (r.columnName sys))]) id (putK kv (.data ns id) b)
      match field with
      | .error e => .error e
      | .ok () => .ok (r, kv)

/-- `get_or_create`, properties.rs 358-371. -/
def propGetOrCreate (sys : Str → Str) (p : Nat) (ty : PropType) (now : Time) (req : Property) (field : Except Err Unit) :
    Call Property := fun kv =>
  match (propsC p ty).getBy .name req.name kv with
  | .ok r => .ok (r, kv)
  | .error .notFound => propCreate sys p ty now req field kv
  | .error e => .error e

/-- `UpdatePropertyRequest`, properties.rs 675-689. The name is not changed, whatever the request says
(properties.rs 432-447 is commented out). -/
structure PropUpd where
  updatedBy : Nat
  tags : Option (Option (List Str)) := none
  displayName : Option (Option Str) := none
  description : Option (Option Str) := none
  typ : Option PropType := none
  dataType : Option DType := none
  status : Option Status := none
  isSystem : Option Bool := none
  nullable : Option Bool := none
  isArray : Option Bool := none
  isDictionary : Option Bool := none
  dictType : Option (Option DictType) := none
  name : Option Str := none

def PropUpd.apply (q : PropUpd) (now : Time) (r : Property) : Property :=
  { r with
    updatedAt := some now, updatedBy := some q.updatedBy, tags := q.tags.getD r.tags,
    displayName := q.displayName.getD r.displayName, description := q.description.getD r.description,
    typ := q.typ.getD r.typ, dataType := q.dataType.getD r.dataType, status := q.status.getD r.status,
    isSystem := q.isSystem.getD r.isSystem, nullable := q.nullable.getD r.nullable, isArray := q.isArray.getD r.isArray,
    isDictionary := q.isDictionary.getD r.isDictionary, dictType := q.dictType.getD r.dictType }

def PropUpd.pairs (q : PropUpd) (p : Nat) (ty : PropType) (r : Property) : List (Option Key × Option Key) :=
  match q.displayName with
  | none => []
  | some d => [(d.map (.idx (.proj p ty.coll) .displayName), r.displayName.map (.idx (.proj p ty.coll) .displayName))]

/-- `update`, properties.rs 419-516. -/
def propUpdate (p : Nat) (ty : PropType) (id : Nat) (now : Time) (q : PropUpd) : Call Property :=
  (propsC p ty).update id (q.pairs p ty) fun r => .ok (q.apply now r)

/-- A property that can be written. -/
structure Property.Valid (r : Property) : Prop where
  bounds : r.Bounds
  enc : r.dataType.num.isSome

theorem props_ok (p : Nat) (ty : PropType) : (propsC p ty).Ok Property.norm Property.Valid where
  nodup := by simp [propsC]
  dec_enc := by
    intro r h
    obtain ⟨n, hn⟩ := Option.isSome_iff_exists.mp h.enc
    obtain ⟨b, hb⟩ : ∃ b, r.encO = some b := ⟨_, by rw [Property.encO, hn]; rfl⟩
    simp only [propsC, hb, Option.getD_some]
    exact Property.dec_enc r _ h.bounds hb
  id_norm := fun _ => rfl
  ix_norm := by intro r i hi; simp [propsC] at hi; rcases hi with rfl | rfl <;> rfl
  valid_norm := fun _ h => ⟨⟨h.bounds.head, h.bounds.proj, h.bounds.order, h.bounds.grp⟩, h.enc⟩

end OptiPrism.Meta
