import Verif.Storage.Log

/-!
# Inserting rows and adding columns

Model of `OptiDBImpl::insert` (/repo/src/storage/src/db.rs 702-800), `add_field` (1233-1273) and
of reopening the table (344-381), on the part of the table state they touch: schema, number of
key columns, memtable, current log. Flushing (784-796) is modelled in `Verif.Storage.Disk`;
locks and interleavings in `Verif.Storage.Conc`.
-/

namespace OptiPrism.Storage

/-- arrow2 `Field` as used by the store: name, type, nullability. -/
structure Field where
  name : String
  dt : ColType
  nullable : Bool
  deriving DecidableEq, Repr

/-- A named value, /repo/src/storage/src/lib.rs `NamedValue`. -/
structure NamedValue where
  name : String
  value : Value
  deriving DecidableEq, Repr

/-- The unflushed side of a table. -/
structure Tbl where
  schema : List Field
  indexCols : Nat
  mem : Memtable
  log : List LogOp
  deriving DecidableEq, Repr

inductive InsertErr where
  | unknownColumn | typeMismatch | panic
  deriving DecidableEq, Repr

/-- The type test of `insert`, db.rs 724-733. Note that `Value::Null` and all list values are
rejected for every column type. -/
def typeOk : Value → ColType → Bool
  | .int8 _, .int8 => true
  | .int16 _, .int16 => true
  | .int32 _, .int32 => true
  | .int64 _, .int64 => true
  | .boolean _, .boolean => true
  | .decimal _, .decimal => true
  | .string _, .string => true
  | .timestamp _, .timestamp => true
  | _, _ => false

/-- The validation loop, db.rs 715-743. -/
def validate (schema : List Field) : List NamedValue → Option InsertErr
  | [] => none
  | v :: vs =>
    match schema.find? (fun f => f.name == v.name) with
    | none => some .unknownColumn
    | some f => if typeOk v.value f.dt then validate schema vs else some .typeMismatch

/-- `final_values`, db.rs 751-768: for every non-key field the first remaining value of that
name, else `Null`. -/
def finalValues (fields : List Field) (values : List NamedValue) : List Value :=
  fields.map fun f =>
    match values.find? (fun v => f.name == v.name) with
    | some v => v.value
    | none => .null

/-- `insert`, db.rs 702-781. The key is taken from the first `index_cols` supplied values, by
position (745-749); `drain` panics when there are fewer. -/
def Tbl.insert (t : Tbl) (values : List NamedValue) : Except InsertErr Tbl :=
  match validate t.schema values with
  | some e => .error e
  | none =>
    if values.length < t.indexCols then .error .panic
    else
      match (values.take t.indexCols).mapM (fun v => v.value.toKey) with
      | none => .error .panic
      | some pk =>
        let fin := finalValues (t.schema.drop t.indexCols) (values.drop t.indexCols)
        match t.mem.pushFrom 0 (pk.map KeyValue.toValue) with
        | none => .error .panic
        | some m1 =>
          match m1.pushFrom t.indexCols fin with
          | none => .error .panic
          | some m2 => .ok { t with mem := m2, log := t.log ++ [.insert pk fin] }

/-- `for _ in 0..new_cols { memtable.add_column(dt) }`, db.rs 1265-1271. -/
def addCols (m : Memtable) (dt : ColType) : Nat → Memtable
  | 0 => m
  | n + 1 => addCols (m.addColumn dt) dt n

/-- `add_field`, db.rs 1233-1273; `none` = `AlreadyExists`. -/
def Tbl.addField (t : Tbl) (f : Field) : Option Tbl :=
  if t.schema.any (fun g => g.name == f.name) then none
  else
    let schema := t.schema ++ [f]
    some { t with
      schema := schema
      mem := if t.mem.cols.length < schema.length
        then addCols t.mem f.dt (schema.length - t.mem.cols.length) else t.mem }

/-- `create_table`, db.rs 1275-1325. -/
def Tbl.create (indexCols : Nat) : Tbl := ⟨[], indexCols, .new, []⟩

/-- Reopening without flush: the schema comes from the manifest (written by `add_field` before it
returns), the memtable from the log, db.rs 344-381. `none` = replay panics. The byte level of the
log is C01. -/
def Tbl.reopen (t : Tbl) : Option Tbl :=
  match recoverOps (freshMemtable (t.schema.map Field.dt)) t.log with
  | none => none
  | some m => some { t with mem := m }

/-! ### lemmas -/

theorem pushFrom_append (m : Memtable) (base : Nat) (a b : List Value) :
    m.pushFrom base (a ++ b) = (m.pushFrom base a).bind (fun m' => m'.pushFrom (base + a.length) b) := by
  induction a generalizing m base with
  | nil => simp [Memtable.pushFrom]
  | cons v a ih =>
    simp only [List.cons_append, Memtable.pushFrom]
    cases h : m.pushValue base v with
    | none => simp
    | some m1 => simp [ih, Nat.add_assoc, Nat.add_comm 1]

theorem mapM_option_length {α β : Type} (f : α → Option β) (l : List α) (r : List β)
    (h : l.mapM f = some r) : r.length = l.length := by
  induction l generalizing r with
  | nil => simp at h; subst h; rfl
  | cons a l ih =>
    simp only [List.mapM_cons] at h
    cases ha : f a with
    | none => simp [ha] at h
    | some b =>
      cases hl : l.mapM f with
      | none => simp [ha, hl] at h
      | some bs =>
        simp [ha, hl] at h
        subst h
        simp [ih bs hl]

theorem mapM_option_getElem {α β : Type} (f : α → Option β) (l : List α) (r : List β)
    (h : l.mapM f = some r) (i : Nat) (a : α) (ha : l[i]? = some a) :
    ∃ b, r[i]? = some b ∧ f a = some b := by
  induction l generalizing r i with
  | nil => simp at ha
  | cons x l ih =>
    simp only [List.mapM_cons] at h
    cases hx : f x with
    | none => simp [hx] at h
    | some b =>
      cases hl : l.mapM f with
      | none => simp [hx, hl] at h
      | some bs =>
        simp [hx, hl] at h
        subst h
        cases i with
        | zero => simp at ha; subst ha; exact ⟨b, by simp, hx⟩
        | succ i => simpa using ih bs hl i (by simpa using ha)

/-- The row that a successful insert appends. -/
theorem insert_ok_row {t t' : Tbl} {values : List NamedValue} (h : t.insert values = .ok t') :
    ∃ pk fin, (values.take t.indexCols).mapM (fun v => v.value.toKey) = some pk ∧
      fin = finalValues (t.schema.drop t.indexCols) (values.drop t.indexCols) ∧
      t.indexCols ≤ values.length ∧ validate t.schema values = none ∧
      t.mem.pushFrom 0 (pk.map KeyValue.toValue ++ fin) = some t'.mem ∧
      t'.schema = t.schema ∧ t'.indexCols = t.indexCols ∧
      t'.log = t.log ++ [.insert pk fin] := by
  unfold Tbl.insert at h
  split at h
  · cases h
  · rename_i hv
    split at h
    · cases h
    · rename_i hlen
      split at h
      · cases h
      · rename_i pk hpk
        simp only at h
        split at h
        · cases h
        · rename_i m1 hm1
          split at h
          · cases h
          · rename_i m2 hm2
            cases h
            refine ⟨pk, _, hpk, rfl, by omega, hv, ?_, rfl, rfl, rfl⟩
            have hl := mapM_option_length _ _ _ hpk
            have hl' : pk.length = t.indexCols := by rw [hl, List.length_take]; omega
            rw [pushFrom_append, hm1]
            simpa [hl'] using hm2

/-- Well-formed unflushed state: the memtable has one column per schema field (same types) and
represents the rows `rs`. -/
structure Tbl.Good (t : Tbl) (rs : List Row) : Prop where
  rep : Memtable.Rep t.mem rs
  dts : t.mem.cols.map Column.dt = t.schema.map Field.dt

theorem Tbl.Good.colsLen {t : Tbl} {rs : List Row} (h : t.Good rs) :
    t.mem.cols.length = t.schema.length := by
  have := congrArg List.length h.dts; simpa using this

theorem pushFrom_some_le (m m' : Memtable) (base : Nat) (vs : List Value)
    (h : m.pushFrom base vs = some m') : vs = [] ∨ base + vs.length ≤ m.cols.length := by
  induction vs generalizing m base with
  | nil => exact Or.inl rfl
  | cons v vs ih =>
    simp only [Memtable.pushFrom] at h
    split at h
    · cases h
    · rename_i m1 hm1
      unfold Memtable.pushValue at hm1
      split at hm1
      · cases hm1
      · rename_i c hc
        cases hm1
        have hlt := (List.getElem?_eq_some_iff.mp hc).1
        right
        simp only [List.length_cons]
        rcases ih _ _ h with rfl | h'
        · simp; omega
        · simp at h'; omega

/-- A successful insert proves that all key columns exist. -/
theorem insert_ok_key {t t' : Tbl} {rs : List Row} {values : List NamedValue} (hg : t.Good rs)
    (h : t.insert values = .ok t') : t.indexCols ≤ t.schema.length := by
  obtain ⟨pk, fin, hpk, hfin, hlen, hv, hpush, _⟩ := insert_ok_row h
  have hl' : pk.length = t.indexCols := by
    rw [mapM_option_length _ _ _ hpk, List.length_take]; omega
  rcases pushFrom_some_le _ _ _ _ hpush with h0 | h0
  · have := congrArg List.length h0
    simp [hl'] at this
    omega
  · simp [hl', hg.colsLen] at h0
    omega

theorem insert_good {t t' : Tbl} {rs : List Row} {values : List NamedValue} (hg : t.Good rs)
    (hne : t.schema ≠ []) (h : t.insert values = .ok t') :
    ∃ pk, (values.take t.indexCols).mapM (fun v => v.value.toKey) = some pk ∧
      pk.length = t.indexCols ∧
      t'.Good (rs ++ [pk.map KeyValue.toValue ++
        finalValues (t.schema.drop t.indexCols) (values.drop t.indexCols)]) ∧
      t'.schema = t.schema ∧ t'.indexCols = t.indexCols ∧
      t'.log = t.log ++ [.insert pk
        (finalValues (t.schema.drop t.indexCols) (values.drop t.indexCols))] := by
  obtain ⟨pk, fin, hpk, rfl, hlen, hv, hpush, hs, hi, hl⟩ := insert_ok_row h
  have hl' : pk.length = t.indexCols := by
    rw [mapM_option_length _ _ _ hpk, List.length_take]; omega
  have hcl := hg.colsLen
  have hkey := insert_ok_key hg h
  have hrow : (pk.map KeyValue.toValue ++
      finalValues (t.schema.drop t.indexCols) (values.drop t.indexCols)).length =
      t.mem.cols.length := by
    simp [finalValues, hl']; omega
  have hcne : t.mem.cols ≠ [] := by
    intro e; rw [e] at hcl; exact hne (List.eq_nil_of_length_eq_zero hcl.symm)
  obtain ⟨m', g1, g2, g3, g4⟩ := hg.rep.push _ hrow hcne
  rw [hpush] at g1
  cases g1
  refine ⟨pk, hpk, hl', ⟨g3, by rw [g4, hg.dts, hs]⟩, hs, hi, hl⟩

/-- A validated insert whose leading values are usable as keys never panics. -/
theorem insert_succeeds {t : Tbl} {rs : List Row} {values : List NamedValue} (hg : t.Good rs)
    (hkey : t.indexCols ≤ t.schema.length) (hv : validate t.schema values = none) (hlen : t.indexCols ≤ values.length) {pk : List KeyValue}
    (hpk : (values.take t.indexCols).mapM (fun v => v.value.toKey) = some pk) :
    ∃ t', t.insert values = .ok t' := by
  have hl' : pk.length = t.indexCols := by
    rw [mapM_option_length _ _ _ hpk, List.length_take]; omega
  have hcl := hg.colsLen
  obtain ⟨m1, h1, h2, _⟩ := Memtable.pushFrom_spec t.mem 0 (pk.map KeyValue.toValue)
    (by simp; omega)
  obtain ⟨m2, h3, _, _⟩ := Memtable.pushFrom_spec m1 t.indexCols
    (finalValues (t.schema.drop t.indexCols) (values.drop t.indexCols))
    (by simp [finalValues]; omega)
  refine ⟨{ t with mem := m2, log := t.log ++ [.insert pk
    (finalValues (t.schema.drop t.indexCols) (values.drop t.indexCols))] }, ?_⟩
  unfold Tbl.insert
  simp only [hv, hpk, h1, h3]
  rw [if_neg (by omega)]

theorem addField_good {t t' : Tbl} {rs : List Row} {f : Field} (hg : t.Good rs)
    (h : t.addField f = some t') :
    t'.Good (rs.map fun r => r ++ [.null]) ∧ t'.schema = t.schema ++ [f] ∧ t'.log = t.log ∧
      t'.indexCols = t.indexCols := by
  unfold Tbl.addField at h
  split at h
  · cases h
  · simp only [Option.some.injEq] at h
    subst h
    have hcl := hg.colsLen
    have hlt : t.mem.cols.length < (t.schema ++ [f]).length := by simp; omega
    have h1 : (t.schema ++ [f]).length - t.mem.cols.length = 1 := by simp; omega
    simp only [hlt, if_true, h1, addCols]
    refine ⟨⟨hg.rep.addColumn f.dt, ?_⟩, by simp, by simp, by simp⟩
    rw [Memtable.addColumn_cols, hg.dts]; simp

end OptiPrism.Storage
