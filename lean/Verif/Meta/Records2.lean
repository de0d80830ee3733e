import Verif.Meta.Records

/-!
# More records: settings, properties, custom events
-/

namespace OptiPrism.Meta

open OptiPrism.Proto
open OptiPrism.Storage (Bytes toLE fromLE)

/-! ## Settings -/

/-- settings.rs 11-16. -/
inductive BackupProvider where | localDir | s3 | gcp
  deriving DecidableEq, Repr
def BackupProvider.num : BackupProvider → Nat | .localDir => 1 | .s3 => 2 | .gcp => 3
def BackupProvider.ofNum : Nat → Option BackupProvider | 1 => some .localDir | 2 => some .s3 | 3 => some .gcp | _ => none
@[simp] theorem BackupProvider.ofNum_num (s : BackupProvider) : BackupProvider.ofNum s.num = some s := by cases s <;> rfl
theorem BackupProvider.num_lt (s : BackupProvider) : s.num < 2 ^ 64 := by cases s <;> decide

/-- settings.rs 19-26. -/
inductive Interval where | hourly | daily | weekly | monthly | yearly
  deriving DecidableEq, Repr
def Interval.num : Interval → Nat | .hourly => 1 | .daily => 2 | .weekly => 3 | .monthly => 4 | .yearly => 5
def Interval.ofNum : Nat → Option Interval
  | 1 => some .hourly | 2 => some .daily | 3 => some .weekly | 4 => some .monthly | 5 => some .yearly | _ => none
@[simp] theorem Interval.ofNum_num (s : Interval) : Interval.ofNum s.num = some s := by cases s <;> rfl
theorem Interval.num_lt (s : Interval) : s.num < 2 ^ 64 := by cases s <;> decide

/-- settings.rs 29-49. -/
structure Settings where
  accessToken : Str
  refreshToken : Str
  adminPassword : Str
  backupEnabled : Bool
  encryptionEnabled : Bool
  encryptionPassword : Str
  compressionEnabled : Bool
  provider : BackupProvider
  localPath : Str
  s3Bucket : Str
  s3Path : Str
  s3Region : Str
  s3AccessKey : Str
  s3SecretKey : Str
  gcpBucket : Str
  gcpPath : Str
  gcpKey : Str
  interval : Interval
  startHour : Nat
  deriving DecidableEq, Repr

namespace Settings
def fields (r : Settings) : List Fields :=
  [putS 1 r.accessToken, putS 2 r.refreshToken, putS 3 r.adminPassword, putBool 4 r.backupEnabled, putBool 5 r.encryptionEnabled,
   putS 6 r.encryptionPassword, putBool 7 r.compressionEnabled, putU64 8 r.provider.num, putS 9 r.localPath, putS 10 r.s3Bucket,
   putS 11 r.s3Path, putS 12 r.s3Region, putS 13 r.s3AccessKey, putS 14 r.s3SecretKey, putS 15 r.gcpBucket, putS 16 r.gcpPath,
   putS 17 r.gcpKey, putU64 18 r.interval.num, putU64 19 0]
/-- settings.rs 156-190: the start hour is written as 0. -/
def enc (r : Settings) : Bytes := encFields r.fields.flatten
/-- settings.rs 192-227. -/
def dec (b : Bytes) : Option Settings := do
  let fs ← decFields b
  let pr ← rdU64 (vals 8 fs)
  let iv ← rdU64 (vals 18 fs)
  return { accessToken := ← rdS (vals 1 fs), refreshToken := ← rdS (vals 2 fs), adminPassword := ← rdS (vals 3 fs),
           backupEnabled := ← rdBool (vals 4 fs), encryptionEnabled := ← rdBool (vals 5 fs),
           encryptionPassword := ← rdS (vals 6 fs), compressionEnabled := ← rdBool (vals 7 fs),
           provider := ← BackupProvider.ofNum pr, localPath := ← rdS (vals 9 fs), s3Bucket := ← rdS (vals 10 fs),
           s3Path := ← rdS (vals 11 fs), s3Region := ← rdS (vals 12 fs), s3AccessKey := ← rdS (vals 13 fs),
           s3SecretKey := ← rdS (vals 14 fs), gcpBucket := ← rdS (vals 15 fs), gcpPath := ← rdS (vals 16 fs),
           gcpKey := ← rdS (vals 17 fs), interval := ← Interval.ofNum iv, startHour := ← rdU64 (vals 19 fs) }
def norm (r : Settings) : Settings := { r with startHour := 0 }

theorem dec_enc (r : Settings) : dec r.enc = some r.norm := by
  have hw : WF r.fields.flatten := by have := r.provider.num_lt; have := r.interval.num_lt; unfold fields; wf_fields
  unfold dec enc
  rw [decFields_enc _ hw]
  unfold fields
  rd_fields
  simp only [BackupProvider.ofNum_num, Interval.ofNum_num, Option.bind_some]
  rfl
end Settings

/-! ## Properties -/

/-- common/src/types.rs 126-137. -/
inductive DType where | string | int8 | int16 | int32 | int64 | decimal | boolean | timestamp | list (t : DType)
  deriving DecidableEq, Repr
/-- `list` panics. -/
def DType.num : DType → Option Nat
  | .string => some 1 | .int8 => some 2 | .int16 => some 3 | .int32 => some 4 | .int64 => some 5 | .decimal => some 6
  | .boolean => some 7 | .timestamp => some 8 | .list _ => none
def DType.ofNum : Nat → Option DType
  | 1 => some .string | 2 => some .int8 | 3 => some .int16 | 4 => some .int32 | 5 => some .int64 | 6 => some .decimal
  | 7 => some .boolean | 8 => some .timestamp | _ => none
theorem DType.ofNum_num {t : DType} {n : Nat} (h : t.num = some n) : DType.ofNum n = some t ∧ n < 2 ^ 64 := by
  cases t <;> simp [DType.num] at h <;> subst h <;> exact ⟨rfl, by decide⟩

/-- properties.rs 567-573. -/
inductive DictType where | int8 | int16 | int32 | int64
  deriving DecidableEq, Repr
def DictType.num : DictType → Nat | .int8 => 1 | .int16 => 2 | .int32 => 3 | .int64 => 4
def DictType.ofNum : Nat → Option DictType
  | 1 => some .int8 | 2 => some .int16 | 3 => some .int32 | 4 => some .int64 | _ => none
@[simp] theorem DictType.ofNum_num (s : DictType) : DictType.ofNum s.num = some s := by cases s <;> rfl
theorem DictType.num_lt (s : DictType) : s.num < 2 ^ 64 := by cases s <;> decide

/-- properties.rs 547-552. -/
inductive PropType where | event | group (g : Nat)
  deriving DecidableEq, Repr

/-- properties.rs 587-609. -/
structure Property where
  id : Nat
  createdAt : Time
  createdBy : Nat
  updatedAt : Option Time
  updatedBy : Option Nat
  projectId : Nat
  tags : Option (List Str)
  name : Str
  displayName : Option Str
  description : Option Str
  order : Nat
  typ : PropType
  dataType : DType
  status : Status
  isSystem : Bool
  nullable : Bool
  hidden : Bool
  isArray : Bool
  isDictionary : Bool
  dictType : Option DictType
  deriving DecidableEq, Repr

namespace Property
def fields (r : Property) (dt : Nat) : List Fields :=
  [putU64 1 r.id, putTime 2 r.createdAt, putU64 3 r.createdBy, putOptTime 4 r.updatedAt, putOptU64 5 r.updatedBy,
   putU64 6 r.projectId, putStrs 7 (r.tags.getD []), putS 8 r.name, putOptS 9 r.displayName, putOptS 10 r.description,
   putU64 11 r.order, putOptU64 12 (match r.typ with | .event => some 1 | .group _ => none),
   putOptU64 13 (match r.typ with | .event => none | .group g => some g), putU64 14 dt, putU64 15 r.status.num,
   putBool 16 r.isSystem, putBool 17 r.nullable, putBool 18 r.hidden, putBool 19 r.isArray, putBool 20 r.isDictionary,
   putOptU64 21 (r.dictType.map DictType.num)]
/-- properties.rs 692-743; `none` is the panic on list types. -/
def encO (r : Property) : Option Bytes := r.dataType.num.map fun dt => encFields (r.fields dt).flatten
def decDict : Option Nat → Option (Option DictType)
  | none => some none
  | some n => (DictType.ofNum n).map some
/-- properties.rs 746-798. -/
def dec (b : Bytes) : Option Property := do
  let fs ← decFields b
  let te ← rdOptU64 (vals 12 fs)
  let tg ← rdOptU64 (vals 13 fs)
  let typ ← if (te.map fun v => v != 0).getD false then some PropType.event else tg.map PropType.group
  let dt ← rdU64 (vals 14 fs)
  let st ← rdU64 (vals 15 fs)
  let dict ← rdOptU64 (vals 21 fs)
  return { id := ← rdU64 (vals 1 fs), createdAt := ← rdTime (vals 2 fs), createdBy := ← rdU64 (vals 3 fs),
           updatedAt := ← rdOptTime (vals 4 fs), updatedBy := ← rdOptU64 (vals 5 fs), projectId := ← rdU64 (vals 6 fs),
           tags := optList (← rdStrs (vals 7 fs)), name := ← rdS (vals 8 fs), displayName := ← rdOptS (vals 9 fs),
           description := ← rdOptS (vals 10 fs), order := ← rdU64 (vals 11 fs), typ := typ, dataType := ← DType.ofNum dt,
           status := ← Status.ofNum st, isSystem := ← rdBool (vals 16 fs), nullable := ← rdBool (vals 17 fs),
           hidden := ← rdBool (vals 18 fs), isArray := ← rdBool (vals 19 fs), isDictionary := ← rdBool (vals 20 fs),
           dictType := ← decDict dict }
def norm (r : Property) : Property :=
  { r with createdAt := r.createdAt.trunc, updatedAt := r.updatedAt.map Time.trunc, tags := normList r.tags }
structure Bounds (r : Property) : Prop where
  head : HeadOk r.id r.createdBy r.updatedBy
  proj : r.projectId < 2 ^ 64
  order : r.order < 2 ^ 64
  grp : ∀ g, r.typ = .group g → g < 2 ^ 64

theorem dec_enc (r : Property) (b : Bytes) (h : r.Bounds) (he : r.encO = some b) :
    dec b = some r.norm := by
  obtain ⟨⟨h1, h2, h3⟩, h4, h5, h6⟩ := h
  obtain ⟨dt, hdt, rfl⟩ := Option.map_eq_some_iff.mp he
  obtain ⟨ho, hd⟩ := DType.ofNum_num hdt
  have hw : WF (r.fields dt).flatten := by
    have := r.status.num_lt
    have h12 : OptOk (match r.typ with | .event => some 1 | .group _ => none) := by split <;> simp
    have h13 : OptOk (match r.typ with | .event => none | .group g => some g) := by
      split
      · simp
      · next g e => simpa using h6 g e
    have h21 : OptOk (r.dictType.map DictType.num) := by
      cases e : r.dictType with
      | none => simp
      | some a => have := a.num_lt; simpa using this
    unfold fields; wf_fields
  unfold dec
  rw [decFields_enc _ hw]
  unfold fields
  rd_fields
  have hdict : decDict (r.dictType.map DictType.num) = some r.dictType := by cases r.dictType <;> simp [decDict]
  rw [hdict]
  simp only [Status.ofNum_num, ho, Option.bind_some]
  obtain ⟨_, _, _, _, _, _, _, _, _, _, _, typ, _, _, _, _, _, _, _, _⟩ := r
  cases typ <;> rfl
end Property

/-! ## Custom events -/

/-- datafusion `ScalarValue`; `other` stands for the kinds `serialize` does not handle. -/
inductive Scalar where
  | bool (v : Option Bool)
  | decimal (v : Option (BitVec 128)) (precision scale : Nat)
  | int8 (v : Option (BitVec 8))
  | int16 (v : Option (BitVec 16))
  | int32 (v : Option (BitVec 32))
  | int64 (v : Option (BitVec 64))
  | str (v : Option Str)
  | timestampMs (v : Option (BitVec 64)) (tz : Option Str)
  | other
  deriving DecidableEq, Repr

namespace Scalar
def fields : Scalar → Option (List Fields)
  | bool v => some [putOptU64 7 (v.map fun b => if b then 1 else 0)]
  | decimal v _ _ => some [putOptStr 6 (v.map fun v => toLE 16 v.toNat)]
  | int8 v => some [putOptU64 2 (v.map fun v => (v.signExtend 64).toNat)]
  | int16 v => some [putOptU64 3 (v.map fun v => (v.signExtend 64).toNat)]
  | int32 v => some [putOptU64 4 (v.map fun v => (v.signExtend 64).toNat)]
  | int64 v => some [putOptU64 5 (v.map fun v => v.toNat)]
  | str v => some [putOptS 1 v]
  | timestampMs v _ => some [putOptU64 8 (v.map fun v => v.toNat)]
  | other => none
/-- custom_events.rs 402-490; `none` is the `unimplemented!()`. -/
def encO (v : Scalar) : Option Bytes := v.fields.map fun fs => encFields fs.flatten
/-- custom_events.rs 568-594: a value without any field set is `unimplemented!()`. -/
def dec (b : Bytes) : Option Scalar := do
  let fs ← decFields b
  let s ← rdOptS (vals 1 fs)
  let i8 ← rdOptU64 (vals 2 fs)
  let i16 ← rdOptU64 (vals 3 fs)
  let i32 ← rdOptU64 (vals 4 fs)
  let i64 ← rdOptU64 (vals 5 fs)
  let d ← rdOptBytes (vals 6 fs)
  let bo ← rdOptU64 (vals 7 fs)
  let ts ← rdOptU64 (vals 8 fs)
  match s, i8, i16, i32, i64, d, bo, ts with
  | some v, _, _, _, _, _, _, _ => some (str (some v))
  | _, some v, _, _, _, _, _, _ => some (int8 (some (BitVec.ofNat 8 v)))
  | _, _, some v, _, _, _, _, _ => some (int16 (some (BitVec.ofNat 16 v)))
  | _, _, _, some v, _, _, _, _ => some (int32 (some (BitVec.ofNat 32 v)))
  | _, _, _, _, some v, _, _, _ => some (int64 (some (BitVec.ofNat 64 v)))
  | _, _, _, _, _, some v, _, _ => if v.length = 16 then some (decimal (some (BitVec.ofNat 128 (fromLE v))) 28 16) else none
  | _, _, _, _, _, _, some v, _ => some (bool (some (v != 0)))
  | _, _, _, _, _, _, _, some v => some (timestampMs (some (BitVec.ofNat 64 v)) none)
  | _, _, _, _, _, _, _, _ => none
/-- What can be written and read: a supported kind with a value. -/
def Ok : Scalar → Bool
  | bool v => v.isSome
  | decimal v _ _ => v.isSome
  | int8 v => v.isSome
  | int16 v => v.isSome
  | int32 v => v.isSome
  | int64 v => v.isSome
  | str v => v.isSome
  | timestampMs v _ => v.isSome
  | other => false
def norm : Scalar → Scalar
  | decimal v _ _ => decimal v 28 16
  | timestampMs v _ => timestampMs v none
  | v => v

theorem dec_enc (v : Scalar) (b : Bytes) (h : v.encO = some b) :
    dec b = if v.Ok then some v.norm else none := by
  obtain ⟨fs, hf, rfl⟩ := Option.map_eq_some_iff.mp h
  have hw : WF fs.flatten := by
    cases v <;> simp only [fields, Option.some.injEq, reduceCtorEq] at hf <;> subst hf
    case decimal => wf_fields
    case str => wf_fields
    all_goals
      refine WF_flatten_cons (WF_putOptU64 (by decide) ?_) WF_flatten_nil
      intro x e
      obtain ⟨y, -, rfl⟩ := Option.map_eq_some_iff.mp e
      first | exact BitVec.isLt _ | (split <;> omega)
  unfold dec
  rw [decFields_enc _ hw]
  cases v <;> simp only [fields, Option.some.injEq, reduceCtorEq] at hf <;> subst hf
  all_goals
    simp only [vals_flatten_cons, vals_flatten_nil, ne_eq, not_false_eq_true, Nat.reduceEqDiff,
      vals_putOptU64_ne, vals_putOptStr_ne, vals_putOptS_ne, List.append_nil, rdOptU64_put, rdOptS_put, rdOptBytes_put,
      Option.bind_eq_bind, Option.bind_some, show rdOptS [] = some none from rfl, show rdOptU64 [] = some none from rfl,
      show rdOptBytes [] = some none from rfl]
  case bool v => rcases v with _ | _ | _ <;> simp [Ok, norm]
  case decimal v p s =>
    rcases v with _ | v
    · simp [Ok]
    · have : v.toNat < 2 ^ (8 * 16) := v.isLt
      simp [Ok, norm, Storage.toLE_length, Storage.fromLE_toLE 16 v.toNat (by omega)]
  case int8 v =>
    rcases v with _ | v
    · simp [Ok]
    · have := ofNat_signExtend v (by decide)
      rw [BitVec.ofNat_toNat] at this
      simp [Ok, norm, this]
  case int16 v =>
    rcases v with _ | v
    · simp [Ok]
    · have := ofNat_signExtend v (by decide)
      rw [BitVec.ofNat_toNat] at this
      simp [Ok, norm, this]
  case int32 v =>
    rcases v with _ | v
    · simp [Ok]
    · have := ofNat_signExtend v (by decide)
      rw [BitVec.ofNat_toNat] at this
      simp [Ok, norm, this]
  case int64 v => cases v <;> simp [Ok, norm]
  case str v => cases v <;> simp [Ok, norm]
  case timestampMs v tz => cases v <;> simp [Ok, norm]
end Scalar

/-- common/src/query.rs 235-250. -/
inductive PropOp where
  | eq | neq | gt | gte | lt | lte | true | false | exists | empty | like | notLike | regex | notRegex
  deriving DecidableEq, Repr
def PropOp.num : PropOp → Nat
  | .eq => 1 | .neq => 2 | .gt => 3 | .gte => 4 | .lt => 5 | .lte => 6 | .true => 7 | .false => 8 | .exists => 9
  | .empty => 10 | .like => 11 | .notLike => 12 | .regex => 13 | .notRegex => 14
def PropOp.ofNum : Nat → Option PropOp
  | 1 => some .eq | 2 => some .neq | 3 => some .gt | 4 => some .gte | 5 => some .lt | 6 => some .lte | 7 => some .true
  | 8 => some .false | 9 => some .exists | 10 => some .empty | 11 => some .like | 12 => some .notLike | 13 => some .regex
  | 14 => some .notRegex | _ => none
@[simp] theorem PropOp.ofNum_num (s : PropOp) : PropOp.ofNum s.num = some s := by cases s <;> rfl
theorem PropOp.num_lt (s : PropOp) : s.num < 2 ^ 64 := by cases s <;> decide

/-- common/src/query.rs, `PropertyRef`. -/
inductive PropertyRef where | group (name : Str) (g : Nat) | event (name : Str) | custom (id : Nat)
  deriving DecidableEq, Repr

def PropertyRef.Ok : PropertyRef → Prop
  | .group _ g => g < 2 ^ 64
  | .event _ => True
  | .custom i => i < 2 ^ 64

/-- common/src/query.rs, `PropValueFilter::Property`. -/
structure PropFilter where
  property : PropertyRef
  op : PropOp
  value : Option (List Scalar)
  deriving DecidableEq, Repr

/-- `mapM` over a list for partial encoders. -/
theorem mapM_dec_norm {α β : Type} {enc : α → Option Bytes} {dec : Bytes → Option β} {g : α → β} (l : List α) (bs : List Bytes)
    (h : l.mapM enc = some bs) (hd : ∀ a ∈ l, ∀ b ∈ bs, enc a = some b → dec b = some (g a)) : bs.mapM dec = some (l.map g) := by
  induction l generalizing bs with
  | nil => cases h; rfl
  | cons a l ih =>
    rw [List.mapM_cons] at h
    simp only [Option.bind_eq_bind, Option.pure_def, Option.bind_eq_some_iff] at h
    obtain ⟨b, hb, bs', hbs, e⟩ := h
    cases e
    rw [List.mapM_cons, hd a (by simp) b (by simp) hb, ih bs' hbs fun a ha b hb => hd a (by simp [ha]) b (by simp [hb])]
    rfl

namespace PropFilter
def fields (f : PropFilter) (vs : List Bytes) : List Fields :=
  [putOptS 1 (match f.property with | .group n _ => some n | .event n => some n | .custom _ => none),
   putOptU64 2 (match f.property with | .group _ g => some g | _ => none),
   putOptU64 3 (match f.property with | .custom i => some i | _ => none),
   putU64 4 f.op.num, putRep 5 vs]
/-- custom_events.rs 359-497. -/
def encO (f : PropFilter) : Option Bytes :=
  ((f.value.getD []).mapM Scalar.encO).map fun vs => encFields (f.fields vs).flatten
/-- custom_events.rs 536-601: the values come back as `Some`, also when there were none. -/
def dec (b : Bytes) : Option PropFilter := do
  let fs ← decFields b
  let n ← rdOptS (vals 1 fs)
  let g ← rdOptU64 (vals 2 fs)
  let c ← rdOptU64 (vals 3 fs)
  let property ← (match n, g with
    | some n, some g => some (PropertyRef.group n g)
    | some n, none => some (.event n)
    | none, _ => c.map .custom)
  let op ← PropOp.ofNum (← rdU64 (vals 4 fs))
  let value ← rdMsgs Scalar.dec (vals 5 fs)
  return { property, op, value := some value }
def norm (f : PropFilter) : PropFilter := { f with value := some ((f.value.getD []).map Scalar.norm) }
structure Ok (f : PropFilter) : Prop where
  ref : f.property.Ok
  vals : ∀ v ∈ f.value.getD [], v.Ok = true

theorem dec_enc (f : PropFilter) (b : Bytes) (h : f.Ok) (he : f.encO = some b) :
    dec b = some f.norm := by
  obtain ⟨vs, hvs, rfl⟩ := Option.map_eq_some_iff.mp he
  obtain ⟨h1, h2⟩ := h
  have hw : WF (f.fields vs).flatten := by
    have := f.op.num_lt
    have hg : OptOk (match f.property with | .group _ g => some g | _ => none) := by
      split
      · next g e => rw [e] at h1; exact (OptOk_some _).mpr h1
      · simp
    have hc : OptOk (match f.property with | .custom i => some i | _ => none) := by
      split
      · next g e => rw [e] at h1; exact (OptOk_some _).mpr h1
      · simp
    unfold fields; wf_fields
  have hm : rdMsgs Scalar.dec (Proto.vals 5 (putRep 5 vs)) = some ((f.value.getD []).map Scalar.norm) := by
    unfold rdMsgs; rw [rdRep_put]
    refine mapM_dec_norm _ _ hvs fun a ha b hb e => ?_
    rw [Scalar.dec_enc a b e, if_pos (h2 a ha)]
  unfold dec
  rw [decFields_enc _ hw]
  unfold fields
  rd_fields
  rw [hm]
  simp only [PropOp.ofNum_num, Option.bind_some]
  obtain ⟨p, _, _⟩ := f
  cases p <;> rfl
end PropFilter

/-- common/src/query.rs, `EventRef`. -/
inductive EventRef where | regularName (n : Str) | regular (id : Nat) | custom (id : Nat)
  deriving DecidableEq, Repr

def EventRef.Ok : EventRef → Prop
  | .regularName _ => True
  | .regular i => i < 2 ^ 64
  | .custom i => i < 2 ^ 64

/-- custom_events.rs 293-296. -/
structure CEvent where
  event : EventRef
  filters : Option (List PropFilter)
  deriving DecidableEq, Repr

namespace CEvent
def fields (e : CEvent) (fl : List Bytes) : List Fields :=
  [putOptS 1 (match e.event with | .regularName n => some n | _ => none),
   putOptU64 2 (match e.event with | .regular i => some i | _ => none),
   putOptU64 3 (match e.event with | .custom i => some i | _ => none), putRep 4 fl]
/-- custom_events.rs 343-502. -/
def encO (e : CEvent) : Option Bytes :=
  ((e.filters.getD []).mapM PropFilter.encO).map fun fl => encFields (e.fields fl).flatten
/-- custom_events.rs 527-611. -/
def dec (b : Bytes) : Option CEvent := do
  let fs ← decFields b
  let n ← rdOptS (vals 1 fs)
  let r ← rdOptU64 (vals 2 fs)
  let c ← rdOptU64 (vals 3 fs)
  let event ← (match r, n with
    | some i, _ => some (EventRef.regular i)
    | none, some n => some (.regularName n)
    | none, none => c.map .custom)
  let fl ← rdMsgs PropFilter.dec (vals 4 fs)
  return { event, filters := optList fl }
def norm (e : CEvent) : CEvent := { e with filters := normList (e.filters.map fun l => l.map PropFilter.norm) }
structure Ok (e : CEvent) : Prop where
  ref : e.event.Ok
  filters : ∀ f ∈ e.filters.getD [], f.Ok

theorem dec_enc (e : CEvent) (b : Bytes) (h : e.Ok) (he : e.encO = some b) :
    dec b = some e.norm := by
  obtain ⟨vs, hvs, rfl⟩ := Option.map_eq_some_iff.mp he
  obtain ⟨h1, h2⟩ := h
  have hw : WF (e.fields vs).flatten := by
    have hg : OptOk (match e.event with | .regular i => some i | _ => none) := by
      split
      · next g e => rw [e] at h1; exact (OptOk_some _).mpr h1
      · simp
    have hc : OptOk (match e.event with | .custom i => some i | _ => none) := by
      split
      · next g e => rw [e] at h1; exact (OptOk_some _).mpr h1
      · simp
    unfold fields; wf_fields
  have hm : rdMsgs PropFilter.dec (vals 4 (putRep 4 vs)) = some ((e.filters.getD []).map PropFilter.norm) := by
    unfold rdMsgs; rw [rdRep_put]
    exact mapM_dec_norm _ _ hvs fun a ha b hb he =>
      PropFilter.dec_enc a b (h2 a ha) he
  unfold dec
  rw [decFields_enc _ hw]
  unfold fields
  rd_fields
  rw [hm]
  obtain ⟨p, f⟩ := e
  cases p <;> rcases f with _ | _ | ⟨f, l⟩ <;> rfl
end CEvent

/-- custom_events.rs 299-312. -/
structure CustomEvent where
  id : Nat
  createdAt : Time
  createdBy : Nat
  updatedAt : Option Time
  updatedBy : Option Nat
  projectId : Nat
  tags : Option (List Str)
  name : Str
  description : Option Str
  status : Status
  isSystem : Bool
  events : List CEvent
  deriving DecidableEq, Repr

namespace CustomEvent
def fields (r : CustomEvent) (ev : List Bytes) : List Fields :=
  [putU64 1 r.id, putTime 2 r.createdAt, putU64 3 r.createdBy, putOptTime 4 r.updatedAt, putOptU64 5 r.updatedBy,
   putU64 6 r.projectId, putStrs 7 (r.tags.getD []), putS 8 r.name, putOptS 9 r.description, putU64 10 r.status.num,
   putBool 11 r.isSystem, putRep 12 ev]
/-- custom_events.rs 336-525. -/
def encO (r : CustomEvent) : Option Bytes := (r.events.mapM CEvent.encO).map fun ev => encFields (r.fields ev).flatten
/-- custom_events.rs 527-644. -/
def dec (b : Bytes) : Option CustomEvent := do
  let fs ← decFields b
  let st ← rdU64 (vals 10 fs)
  return { id := ← rdU64 (vals 1 fs), createdAt := ← rdTime (vals 2 fs), createdBy := ← rdU64 (vals 3 fs),
           updatedAt := ← rdOptTime (vals 4 fs), updatedBy := ← rdOptU64 (vals 5 fs), projectId := ← rdU64 (vals 6 fs),
           tags := optList (← rdStrs (vals 7 fs)), name := ← rdS (vals 8 fs), description := ← rdOptS (vals 9 fs),
           status := ← Status.ofNum st, isSystem := ← rdBool (vals 11 fs), events := ← rdMsgs CEvent.dec (vals 12 fs) }
def norm (r : CustomEvent) : CustomEvent :=
  { r with createdAt := r.createdAt.trunc, updatedAt := r.updatedAt.map Time.trunc, tags := normList r.tags,
           events := r.events.map CEvent.norm }
structure Bounds (r : CustomEvent) : Prop where
  head : HeadOk r.id r.createdBy r.updatedBy
  proj : r.projectId < 2 ^ 64
  events : ∀ e ∈ r.events, e.Ok

theorem dec_enc (r : CustomEvent) (b : Bytes) (h : r.Bounds) (he : r.encO = some b) :
    dec b = some r.norm := by
  obtain ⟨vs, hvs, rfl⟩ := Option.map_eq_some_iff.mp he
  obtain ⟨⟨h1, h2, h3⟩, h4, h5⟩ := h
  have hw : WF (r.fields vs).flatten := by have := r.status.num_lt; unfold fields; wf_fields
  have hm : rdMsgs CEvent.dec (vals 12 (putRep 12 vs)) = some (r.events.map CEvent.norm) := by
    unfold rdMsgs; rw [rdRep_put]
    exact mapM_dec_norm _ _ hvs fun a ha b hb he =>
      CEvent.dec_enc a b (h5 a ha) he
  unfold dec
  rw [decFields_enc _ hw]
  unfold fields
  rd_fields
  rw [hm]
  simp only [Status.ofNum_num, Option.bind_some]
  rfl
end CustomEvent

end OptiPrism.Meta
