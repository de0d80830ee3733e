import Verif.Meta.SystemReach

/-!
# Model: the caches of properties (`metadata/src/properties.rs`)

Every kind of properties has two caches of records, by identifier and by name. Creating and updating put the record there
before the transaction is committed, deleting removes it, reading looks there first and does not add to it. The caches are
limited (`LruCache` of ten): an entry may vanish at any time.
-/

namespace OptiPrism.Meta

/-- `id_cache` and `name_cache` (properties.rs 89-95) of all kinds of properties. -/
structure Caches where
  byId : PropType → Nat → Nat → Option Property
  byName : PropType → Nat → Str → Option Property

/-- properties.rs 97-146. -/
def Caches.empty : Caches := ⟨fun _ _ _ => none, fun _ _ _ => none⟩

/-- properties.rs 279-287 and 501-508. -/
def Caches.put (c : Caches) (p : Nat) (ty : PropType) (r : Property) : Caches where
  byId ty' p' id := if ty' = ty ∧ p' = p ∧ id = r.id then some r else c.byId ty' p' id
  byName ty' p' n := if ty' = ty ∧ p' = p ∧ n = r.name then some r else c.byName ty' p' n

/-- properties.rs 530-534. -/
def Caches.pop (c : Caches) (p : Nat) (ty : PropType) (r : Property) : Caches where
  byId ty' p' id := if ty' = ty ∧ p' = p ∧ id = r.id then none else c.byId ty' p' id
  byName ty' p' n := if ty' = ty ∧ p' = p ∧ n = r.name then none else c.byName ty' p' n

/-- What is left when some entries have been evicted. -/
def Caches.Evict (c c' : Caches) : Prop :=
  (∀ ty p id r, c'.byId ty p id = some r → c.byId ty p id = some r) ∧
  (∀ ty p n r, c'.byName ty p n = some r → c.byName ty p n = some r)

/-- `get_by_id_`, properties.rs 194-217. -/
def cGetById (c : Caches) (p : Nat) (ty : PropType) (id : Nat) (kv : Kv) : Except Err Property :=
  match c.byId ty p id with
  | some r => .ok r
  | none => (propsC p ty).getById id kv

/-- `get_by_name_`, properties.rs 165-192. -/
def cGetByName (c : Caches) (p : Nat) (ty : PropType) (n : Str) (kv : Kv) : Except Err Property :=
  match c.byName ty p n with
  | some r => .ok r
  | none => match getIndex (.idx (.proj p ty.coll) .name n) kv with
    | .error e => .error e
    | .ok id => cGetById c p ty id kv

/-- `create`, properties.rs 219-356: the record is in the caches from before it is serialized. -/
def cCreate (sys : Str → Str) (p : Nat) (ty : PropType) (now : Time) (req : Property) (field : Except Err Unit)
    (s : Caches × Kv) : Except Err Property × (Caches × Kv) :=
  let ns := Ns.proj p ty.coll
  let keys := [some (.idx ns .name req.name), req.displayName.map (.idx ns .displayName)]
  if clashInsert keys s.2 then (.error .alreadyExists, s) else
  match nextSeq (.seq ns) s.2 with
  | .error e => (.error e, s)
  | .ok (id, kv) =>
  match req.dataType.shortName with
  | none => (.error .panic, s)
  | some sh =>
  match nextZeroSeq (.orderSeq p sh) kv with
  | .error e => (.error e, s)
  | .ok (order, kv) =>
    let r : Property := { req with id := id, createdAt := now, updatedAt := none, updatedBy := none, projectId := p, order := order }
    let c := s.1.put p ty r
    match r.encO with
    | none => (.error .panic, c, s.2)
    | some b =>
      let kv := insertIndex (keys ++ [some (columnIdx p (r.columnName sys))]) id (putK kv (.data ns id) b)
      match field with
      | .error e => (.error e, c, s.2)
      | .ok () => (.ok r, c, kv)

/-- `get_or_create`, properties.rs 358-371. -/
def cGetOrCreate (sys : Str → Str) (p : Nat) (ty : PropType) (now : Time) (req : Property) (field : Except Err Unit)
    (s : Caches × Kv) : Except Err Property × (Caches × Kv) :=
  match cGetByName s.1 p ty req.name s.2 with
  | .ok r => (.ok r, s)
  | .error .notFound => cCreate sys p ty now req field s
  | .error e => (.error e, s)

/-- `update`, properties.rs 419-516. -/
def cUpdate (p : Nat) (ty : PropType) (id : Nat) (now : Time) (q : PropUpd) (s : Caches × Kv) :
    Except Err Property × (Caches × Kv) :=
  match cGetById s.1 p ty id s.2 with
  | .error e => (.error e, s)
  | .ok r =>
    if clashUpdate (q.pairs p ty r) s.2 then (.error .alreadyExists, s) else
    let r' := q.apply now r
    let c := s.1.put p ty r'
    match r'.encO with
    | none => (.error .panic, c, s.2)
    | some b => (.ok r', c, updateIndex (q.pairs p ty r) id (putK s.2 (.data (.proj p ty.coll) r'.id) b))

/-- `delete`, properties.rs 518-537. -/
def cDelete (p : Nat) (ty : PropType) (id : Nat) (s : Caches × Kv) : Except Err Property × (Caches × Kv) :=
  match cGetById s.1 p ty id s.2 with
  | .error e => (.error e, s)
  | .ok r => (.ok r, s.1.pop p ty r, deleteIndex (keysOf (.proj p ty.coll) (propsC p ty).ixs r) (delK s.2 (.data (.proj p ty.coll) id)))

variable {Q : Type}

/-- A request to the metadata with the caches; the other modules have none. -/
def cExec (E : Env Q) : Req Q → Caches × Kv → Caches × Kv
  | .propCreate p ty now r f, s => (cCreate E.sys p ty now r f s).2
  | .propGetOrCreate p ty now r f, s => (cGetOrCreate E.sys p ty now r f s).2
  | .propUpdate p ty id now q, s => (cUpdate p ty id now q s).2
  | .propDelete p ty id, s => (cDelete p ty id s).2
  | r, s => (s.1, r.exec E s.2)

end OptiPrism.Meta
