import Verif.Proto
import Verif.Storage.Log

/-!
# The table manifest

Model of `Metadata` and its parts (/repo/src/storage/src/table.rs 24-41, 76-130), of `serialize_md` /
`deserialize_md` (143-354) through the protobuf schema /repo/src/storage/src/pb/metadata.proto, of
`write_metadata` (/repo/src/storage/src/db.rs 281-296) and of the manifest reading half of
`try_recover_table` (298-328).

`u64` / `usize` are 64-bit vectors (a 64-bit target). Field and schema metadata maps are empty in
every schema the code builds and are left out. Names are byte lists.
-/

namespace OptiPrism.Storage

open OptiPrism.Proto

abbrev U64 := BitVec (8 * 8)

inductive TimeUnit where
  | second | millisecond | microsecond | nanosecond
  deriving DecidableEq, Repr

/-- arrow2 `DataType`, as far as `serialize_md` distinguishes: 150-160. -/
inductive MType where
  | utf8 | int8 | int16 | int32 | int64
  | decimal (precision scale : Nat)
  | boolean
  | timestamp (unit : TimeUnit) (tz : Option Bytes)
  | other (tag : Nat)
  deriving DecidableEq, Repr

structure MField where
  name : Bytes
  dt : MType
  nullable : Bool
  deriving DecidableEq, Repr

/-- `Part`, 76-83. -/
structure MPart where
  id : U64
  sizeBytes : U64
  values : U64
  min : List KeyValue
  max : List KeyValue
  deriving DecidableEq, Repr

/-- `Level`, 85-89. -/
structure MLevel where
  partId : U64
  parts : List MPart
  deriving DecidableEq, Repr

/-- `Stats`, /repo/src/storage/src/lib.rs 119-128. -/
structure MStats where
  resident : U64
  onDisk : U64
  logged : U64
  written : U64
  read : U64
  spaceAmp : U64
  writeAmp : U64
  deriving DecidableEq, Repr

/-- `Options`, 24-41. -/
structure MOptions where
  indexCols : U64
  isReplacing : Bool
  levels : U64
  l0MaxParts : U64
  l1MaxSize : U64
  levelSizeMult : U64
  maxLogLength : U64
  mergeMaxL1Part : U64
  mergePartMult : U64
  mergePageLimit : Option U64
  mergeRowGroup : U64
  mergeArraySize : U64
  mergeChunkSize : U64
  mergeArrayPage : U64
  mergeMaxPage : U64
  deriving DecidableEq, Repr

/-- `Metadata`, 118-127. -/
structure Manifest where
  version : U64
  logId : U64
  tableName : Bytes
  fields : List MField
  levels : List MLevel
  stats : MStats
  opts : MOptions
  deriving DecidableEq, Repr

/-! ### writing -/

/-- 149-161; `none` = `unimplemented!`. -/
def MType.tag : MType → Option Nat
  | .utf8 => some 1
  | .int8 => some 2
  | .int16 => some 3
  | .int32 => some 4
  | .int64 => some 5
  | .decimal _ _ => some 6
  | .boolean => some 7
  | .timestamp _ _ => some 8
  | .other _ => none

def MField.ser (f : MField) : Option Bytes :=
  (f.dt.tag).map fun t => encFields (putStr 1 f.name ++ (putU64 2 t ++ putBool 3 f.nullable))

/-- 173-196: `as u32` / `as u64` sign-extend. -/
def KeyValue.ser : KeyValue → Bytes
  | .int8 v => encFields (putOptU64 1 (some (v.signExtend 32).toNat))
  | .int16 v => encFields (putOptU64 2 (some (v.signExtend 32).toNat))
  | .int32 v => encFields (putOptU64 3 (some v.toNat))
  | .int64 v => encFields (putOptU64 4 (some v.toNat))
  | .string s => encFields (putOptStr 5 (some s))
  | .timestamp v => encFields (putOptU64 6 (some v.toNat))

def MPart.ser (p : MPart) : Bytes :=
  encFields (putU64 1 p.id.toNat ++ (putU64 2 p.sizeBytes.toNat ++ (putU64 3 p.values.toNat ++
    (putRep 4 (p.min.map KeyValue.ser) ++ putRep 5 (p.max.map KeyValue.ser)))))

def MLevel.ser (l : MLevel) : Bytes :=
  encFields (putU64 1 l.partId.toNat ++ putRep 2 (l.parts.map MPart.ser))

def MStats.ser (s : MStats) : Bytes :=
  encFields (putU64 1 s.resident.toNat ++ (putU64 2 s.onDisk.toNat ++ (putU64 3 s.logged.toNat ++
    (putU64 4 s.written.toNat ++ (putU64 5 s.read.toNat ++ (putU64 6 s.spaceAmp.toNat ++
      putU64 7 s.writeAmp.toNat))))))

def MOptions.ser (o : MOptions) : Bytes :=
  encFields (putU64 1 o.indexCols.toNat ++ (putBool 2 o.isReplacing ++ (putU64 3 o.levels.toNat ++
    (putU64 4 o.l0MaxParts.toNat ++ (putU64 5 o.l1MaxSize.toNat ++ (putU64 6 o.levelSizeMult.toNat ++
    (putU64 7 o.maxLogLength.toNat ++ (putU64 8 o.mergeMaxL1Part.toNat ++
    (putU64 9 o.mergePartMult.toNat ++ (putOptU64 10 (o.mergePageLimit.map BitVec.toNat) ++
    (putU64 11 o.mergeRowGroup.toNat ++ (putU64 12 o.mergeArraySize.toNat ++
    (putU64 13 o.mergeChunkSize.toNat ++ (putU64 14 o.mergeArrayPage.toNat ++
      putU64 15 o.mergeMaxPage.toNat))))))))))))))

/-- `serialize_md`, 143-252. `version as u32` truncates. -/
def Manifest.ser (m : Manifest) : Option Bytes :=
  match m.fields.mapM MField.ser with
  | none => none
  | some fs => some (encFields
      (putU64 1 (m.version.setWidth 32).toNat ++ (putU64 2 m.logId.toNat ++ (putStr 3 m.tableName ++
        (putMsg 4 (encFields (putRep 1 fs)) ++ (putRep 5 (m.levels.map MLevel.ser) ++
          (putMsg 6 m.stats.ser ++ putMsg 7 m.opts.ser)))))))

/-! ### reading -/

def readU64 (n : Nat) (fs : Fields) : Option U64 := (getU64 n fs).map (BitVec.ofNat _)

/-- 267-277; DECIMAL_PRECISION 28, DECIMAL_SCALE 16. -/
def MType.ofTag : Nat → Option MType
  | 1 => some .utf8
  | 2 => some .int8
  | 3 => some .int16
  | 4 => some .int32
  | 5 => some .int64
  | 6 => some (.decimal 28 16)
  | 7 => some .boolean
  | 8 => some (.timestamp .millisecond none)
  | _ => none

def MField.de (b : Bytes) : Option MField := do
  let fs ← decFields b
  let name ← getStr 1 fs
  let t ← getU64 2 fs
  let nullable ← getBool 3 fs
  let dt ← MType.ofTag t
  pure ⟨name, dt, nullable⟩

/-- 291-307: first present alternative in this order; `none` = `unreachable!` -/
def KeyValue.de (b : Bytes) : Option KeyValue := do
  let fs ← decFields b
  let i8 ← getOptU64 1 fs
  let i16 ← getOptU64 2 fs
  let i32 ← getOptU64 3 fs
  let i64 ← getOptU64 4 fs
  let s ← getOptStr 5 fs
  let ts ← getOptU64 6 fs
  match i8, i16, i32, i64, s, ts with
  | some v, _, _, _, _, _ => some (.int8 ((BitVec.ofNat 32 v).setWidth _))
  | none, some v, _, _, _, _ => some (.int16 ((BitVec.ofNat 32 v).setWidth _))
  | none, none, some v, _, _, _ => some (.int32 (BitVec.ofNat _ v))
  | none, none, none, some v, _, _ => some (.int64 (BitVec.ofNat _ v))
  | none, none, none, none, some s, _ => some (.string s)
  | none, none, none, none, none, some v => some (.timestamp (BitVec.ofNat _ v))
  | none, none, none, none, none, none => none

def MPart.de (b : Bytes) : Option MPart := do
  let fs ← decFields b
  let id ← readU64 1 fs
  let sz ← readU64 2 fs
  let vs ← readU64 3 fs
  let mins ← getRep 4 fs
  let maxs ← getRep 5 fs
  let mins ← mins.mapM KeyValue.de
  let maxs ← maxs.mapM KeyValue.de
  pure ⟨id, sz, vs, mins, maxs⟩

def MLevel.de (b : Bytes) : Option MLevel := do
  let fs ← decFields b
  let id ← readU64 1 fs
  let ps ← getRep 2 fs
  let ps ← ps.mapM MPart.de
  pure ⟨id, ps⟩

def MStats.de (b : Bytes) : Option MStats := do
  let fs ← decFields b
  pure ⟨← readU64 1 fs, ← readU64 2 fs, ← readU64 3 fs, ← readU64 4 fs, ← readU64 5 fs,
    ← readU64 6 fs, ← readU64 7 fs⟩

def MOptions.de (b : Bytes) : Option MOptions := do
  let fs ← decFields b
  let lim ← getOptU64 10 fs
  pure ⟨← readU64 1 fs, ← getBool 2 fs, ← readU64 3 fs, ← readU64 4 fs, ← readU64 5 fs,
    ← readU64 6 fs, ← readU64 7 fs, ← readU64 8 fs, ← readU64 9 fs, lim.map (BitVec.ofNat _),
    ← readU64 11 fs, ← readU64 12 fs, ← readU64 13 fs, ← readU64 14 fs, ← readU64 15 fs⟩

/-- `deserialize_md`, 254-354; missing schema / stats / options unwrap to a panic (`none`). -/
def Manifest.de (b : Bytes) : Option Manifest := do
  let fs ← decFields b
  let version ← getU64 1 fs
  let logId ← readU64 2 fs
  let name ← getStr 3 fs
  let schema ← getMsg 4 fs
  let schema ← schema
  let sf ← decFields schema
  let fields ← getRep 1 sf
  let fields ← fields.mapM MField.de
  let levels ← getRep 5 fs
  let levels ← levels.mapM MLevel.de
  let stats ← getMsg 6 fs
  let stats ← stats
  let stats ← MStats.de stats
  let opts ← getMsg 7 fs
  let opts ← opts
  let opts ← MOptions.de opts
  pure ⟨(BitVec.ofNat 32 version).setWidth _, logId, name, fields, levels, stats, opts⟩

/-! ### the manifest file -/

/-- Overwriting a file from its start, without truncation. -/
def overwrite (old new : Bytes) : Bytes := new ++ old.drop new.length

/-- `write_metadata`, db.rs 281-296. -/
def writeManifest (crc : Bytes → Nat) (old : Bytes) (m : Manifest) : Option Bytes :=
  m.ser.map fun data => overwrite old (frame crc data)

/-- First half of `try_recover_table`, db.rs 300-325. -/
def readManifest (crc : Bytes → Nat) (file : Bytes) : Except OpenErr Manifest :=
  if file = [] then .error .emptyMetadata
  else
    let r0 := readUpTo 4 file
    let r1 := readUpTo 8 r0.2
    let len := fromLE r1.1
    if 2 ^ 63 ≤ len then .error .alloc
    else
      let r2 := readUpTo len r1.2
      if fromLE r0.1 ≠ crc r2.1 then .error .corrupted
      else
        match Manifest.de r2.1 with
        | none => .error .decode
        | some m => .ok m

/-! ### round trips -/

theorem encFields_append (a b : Fields) : encFields (a ++ b) = encFields a ++ encFields b := by
  simp [encFields]

theorem putRep_len_le {n : Nat} {l : List Bytes} {b : Bytes} (h : b ∈ l) :
    b.length ≤ (encFields (putRep n l)).length :=
  len_le_encFields (n := n) (List.mem_map.mpr ⟨b, h, rfl⟩)

theorem readU64_of {n : Nat} {v : U64} {fs : Fields} (h : vals n fs = vals n (putU64 n v.toNat)) :
    readU64 n fs = some v := by
  simp [readU64, getU64_of h]

theorem setWidth_signExtend {a b : Nat} (v : BitVec a) (h : a ≤ b) :
    (v.signExtend b).setWidth a = v := by
  apply BitVec.eq_of_getLsbD_eq
  intro i hi
  simp only [BitVec.getLsbD_setWidth, BitVec.getLsbD_signExtend, hi, decide_true, Bool.true_and,
    if_true]
  have : i < b := by omega
  simp [this]

theorem KeyValue.de_ser (k : KeyValue) (h : k.ser.length < 2 ^ 64) : KeyValue.de k.ser = some k := by
  cases k with
  | int8 v =>
    have hw : WF (putOptU64 1 (some (v.signExtend 32).toNat)) :=
      WF_putOptU64 (by decide) (by intro x e; injection e with e; have := (v.signExtend 32).isLt; omega)
    simp only [KeyValue.ser] at h
    simp only [KeyValue.de, KeyValue.ser, decFields_enc _ hw, Option.bind_eq_bind, Option.bind_some]
    rw [getOptU64_of (v := some (v.signExtend 32).toNat) rfl, getOptU64_of (v := none) (by rfl),
      getOptU64_of (v := none) (by rfl), getOptU64_of (v := none) (by rfl),
      getOptStr_of (s := none) (by rfl), getOptU64_of (v := none) (by rfl)]
    simp only [Option.bind_some, BitVec.ofNat_toNat, BitVec.setWidth_eq]
    rw [setWidth_signExtend v (by decide)]
  | int16 v =>
    have hw : WF (putOptU64 2 (some (v.signExtend 32).toNat)) :=
      WF_putOptU64 (by decide) (by intro x e; injection e with e; have := (v.signExtend 32).isLt; omega)
    simp only [KeyValue.ser] at h
    simp only [KeyValue.de, KeyValue.ser, decFields_enc _ hw, Option.bind_eq_bind, Option.bind_some]
    rw [getOptU64_of (n := 1) (v := none) (by rfl), getOptU64_of (n := 2) (v := some (v.signExtend 32).toNat) rfl,
      getOptU64_of (v := none) (by rfl), getOptU64_of (v := none) (by rfl),
      getOptStr_of (s := none) (by rfl), getOptU64_of (v := none) (by rfl)]
    simp only [Option.bind_some, BitVec.ofNat_toNat, BitVec.setWidth_eq]
    rw [setWidth_signExtend v (by decide)]
  | int32 v =>
    have hw : WF (putOptU64 3 (some v.toNat)) :=
      WF_putOptU64 (by decide) (by intro x e; injection e with e; have := v.isLt; omega)
    simp only [KeyValue.ser] at h
    simp only [KeyValue.de, KeyValue.ser, decFields_enc _ hw, Option.bind_eq_bind, Option.bind_some]
    rw [getOptU64_of (n := 1) (v := none) (by rfl), getOptU64_of (n := 2) (v := none) (by rfl),
      getOptU64_of (n := 3) (v := some v.toNat) rfl, getOptU64_of (v := none) (by rfl),
      getOptStr_of (s := none) (by rfl), getOptU64_of (v := none) (by rfl)]
    simp
  | int64 v =>
    have hw : WF (putOptU64 4 (some v.toNat)) :=
      WF_putOptU64 (by decide) (by intro x e; injection e with e; have := v.isLt; omega)
    simp only [KeyValue.ser] at h
    simp only [KeyValue.de, KeyValue.ser, decFields_enc _ hw, Option.bind_eq_bind, Option.bind_some]
    rw [getOptU64_of (n := 1) (v := none) (by rfl), getOptU64_of (n := 2) (v := none) (by rfl),
      getOptU64_of (n := 3) (v := none) (by rfl), getOptU64_of (n := 4) (v := some v.toNat) rfl,
      getOptStr_of (s := none) (by rfl), getOptU64_of (n := 6) (v := none) (by rfl)]
    simp
  | string s =>
    have hw : WF (putOptStr 5 (some s)) := WF_putOptStr (by decide)
    simp only [KeyValue.ser] at h
    simp only [KeyValue.de, KeyValue.ser, decFields_enc _ hw, Option.bind_eq_bind, Option.bind_some]
    rw [getOptU64_of (n := 1) (v := none) (by rfl), getOptU64_of (n := 2) (v := none) (by rfl),
      getOptU64_of (n := 3) (v := none) (by rfl), getOptU64_of (n := 4) (v := none) (by rfl),
      getOptStr_of (s := some s) (by rfl), getOptU64_of (n := 6) (v := none) (by rfl)]
    simp
  | timestamp v =>
    have hw : WF (putOptU64 6 (some v.toNat)) :=
      WF_putOptU64 (by decide) (by intro x e; injection e with e; have := v.isLt; omega)
    simp only [KeyValue.ser] at h
    simp only [KeyValue.de, KeyValue.ser, decFields_enc _ hw, Option.bind_eq_bind, Option.bind_some]
    rw [getOptU64_of (n := 1) (v := none) (by rfl), getOptU64_of (n := 2) (v := none) (by rfl),
      getOptU64_of (n := 3) (v := none) (by rfl), getOptU64_of (n := 4) (v := none) (by rfl),
      getOptStr_of (s := none) (by rfl), getOptU64_of (n := 6) (v := some v.toNat) (by rfl)]
    simp

theorem u64_lt (v : U64) : v.toNat < 2 ^ 64 := v.isLt

theorem MPart.de_ser (p : MPart) (h : p.ser.length < 2 ^ 64) : MPart.de p.ser = some p := by
  unfold MPart.ser at h
  have hw := (WF_putU64 (n := 1) (by decide) (u64_lt p.id)).append
    ((WF_putU64 (n := 2) (by decide) (u64_lt p.sizeBytes)).append
    ((WF_putU64 (n := 3) (by decide) (u64_lt p.values)).append
    ((WF_putRep (n := 4) (l := p.min.map KeyValue.ser) (by decide)).append
    (WF_putRep (n := 5) (l := p.max.map KeyValue.ser) (by decide)))))
  have hmin : ∀ k ∈ p.min, KeyValue.de k.ser = some k := by
    intro k hk
    apply KeyValue.de_ser
    have := putRep_len_le (n := 4) (List.mem_map_of_mem (f := KeyValue.ser) hk)
    simp only [encFields_append, List.length_append] at h
    omega
  have hmax : ∀ k ∈ p.max, KeyValue.de k.ser = some k := by
    intro k hk
    apply KeyValue.de_ser
    have := putRep_len_le (n := 5) (List.mem_map_of_mem (f := KeyValue.ser) hk)
    simp only [encFields_append, List.length_append] at h
    omega
  simp only [MPart.de, MPart.ser, decFields_enc _ hw, Option.bind_eq_bind, Option.bind_some]
  rw [readU64_of (n := 1) (v := p.id) (by simp), readU64_of (n := 2) (v := p.sizeBytes) (by simp),
    readU64_of (n := 3) (v := p.values) (by simp), getRep_of (n := 4) (l := p.min.map KeyValue.ser) (by simp),
    getRep_of (n := 5) (l := p.max.map KeyValue.ser) (by simp)]
  simp only [Option.bind_some, mapM_inverse _ _ _ hmin, mapM_inverse _ _ _ hmax]
  rfl

theorem MLevel.de_ser (l : MLevel) (h : l.ser.length < 2 ^ 64) : MLevel.de l.ser = some l := by
  unfold MLevel.ser at h
  have hw := (WF_putU64 (n := 1) (by decide) (u64_lt l.partId)).append
    (WF_putRep (n := 2) (l := l.parts.map MPart.ser) (by decide))
  have hp : ∀ k ∈ l.parts, MPart.de k.ser = some k := by
    intro k hk
    apply MPart.de_ser
    have := putRep_len_le (n := 2) (List.mem_map_of_mem (f := MPart.ser) hk)
    simp only [encFields_append, List.length_append] at h
    omega
  simp only [MLevel.de, MLevel.ser, decFields_enc _ hw, Option.bind_eq_bind, Option.bind_some]
  rw [readU64_of (n := 1) (v := l.partId) (by simp),
    getRep_of (n := 2) (l := l.parts.map MPart.ser) (by simp)]
  simp only [Option.bind_some, mapM_inverse _ _ _ hp]
  rfl

theorem MStats.de_ser (s : MStats) (h : s.ser.length < 2 ^ 64) : MStats.de s.ser = some s := by
  unfold MStats.ser at h
  have hw := (WF_putU64 (n := 1) (by decide) (u64_lt s.resident)).append
    ((WF_putU64 (n := 2) (by decide) (u64_lt s.onDisk)).append
    ((WF_putU64 (n := 3) (by decide) (u64_lt s.logged)).append
    ((WF_putU64 (n := 4) (by decide) (u64_lt s.written)).append
    ((WF_putU64 (n := 5) (by decide) (u64_lt s.read)).append
    ((WF_putU64 (n := 6) (by decide) (u64_lt s.spaceAmp)).append
    (WF_putU64 (n := 7) (by decide) (u64_lt s.writeAmp)))))))
  simp only [MStats.de, MStats.ser, decFields_enc _ hw, Option.bind_eq_bind, Option.bind_some]
  rw [readU64_of (n := 1) (v := s.resident) (by simp), readU64_of (n := 2) (v := s.onDisk) (by simp),
    readU64_of (n := 3) (v := s.logged) (by simp), readU64_of (n := 4) (v := s.written) (by simp),
    readU64_of (n := 5) (v := s.read) (by simp), readU64_of (n := 6) (v := s.spaceAmp) (by simp),
    readU64_of (n := 7) (v := s.writeAmp) (by simp)]
  rfl

theorem MOptions.de_ser (o : MOptions) (h : o.ser.length < 2 ^ 64) : MOptions.de o.ser = some o := by
  unfold MOptions.ser at h
  have hw := (WF_putU64 (n := 1) (by decide) (u64_lt o.indexCols)).append
    ((WF_putBool (n := 2) (b := o.isReplacing) (by decide)).append
    ((WF_putU64 (n := 3) (by decide) (u64_lt o.levels)).append
    ((WF_putU64 (n := 4) (by decide) (u64_lt o.l0MaxParts)).append
    ((WF_putU64 (n := 5) (by decide) (u64_lt o.l1MaxSize)).append
    ((WF_putU64 (n := 6) (by decide) (u64_lt o.levelSizeMult)).append
    ((WF_putU64 (n := 7) (by decide) (u64_lt o.maxLogLength)).append
    ((WF_putU64 (n := 8) (by decide) (u64_lt o.mergeMaxL1Part)).append
    ((WF_putU64 (n := 9) (by decide) (u64_lt o.mergePartMult)).append
    ((WF_putOptU64 (n := 10) (v := o.mergePageLimit.map BitVec.toNat) (by decide) (by
      intro x e
      obtain ⟨y, _, rfl⟩ := Option.map_eq_some_iff.mp e
      exact u64_lt y)).append
    ((WF_putU64 (n := 11) (by decide) (u64_lt o.mergeRowGroup)).append
    ((WF_putU64 (n := 12) (by decide) (u64_lt o.mergeArraySize)).append
    ((WF_putU64 (n := 13) (by decide) (u64_lt o.mergeChunkSize)).append
    ((WF_putU64 (n := 14) (by decide) (u64_lt o.mergeArrayPage)).append
    (WF_putU64 (n := 15) (by decide) (u64_lt o.mergeMaxPage)))))))))))))))
  simp only [MOptions.de, MOptions.ser, decFields_enc _ hw, Option.bind_eq_bind, Option.bind_some]
  rw [readU64_of (n := 1) (v := o.indexCols) (by simp), getBool_of (n := 2) (b := o.isReplacing) (by simp),
    readU64_of (n := 3) (v := o.levels) (by simp), readU64_of (n := 4) (v := o.l0MaxParts) (by simp),
    readU64_of (n := 5) (v := o.l1MaxSize) (by simp), readU64_of (n := 6) (v := o.levelSizeMult) (by simp),
    readU64_of (n := 7) (v := o.maxLogLength) (by simp), readU64_of (n := 8) (v := o.mergeMaxL1Part) (by simp),
    readU64_of (n := 9) (v := o.mergePartMult) (by simp),
    getOptU64_of (n := 10) (v := o.mergePageLimit.map BitVec.toNat) (by simp),
    readU64_of (n := 11) (v := o.mergeRowGroup) (by simp), readU64_of (n := 12) (v := o.mergeArraySize) (by simp),
    readU64_of (n := 13) (v := o.mergeChunkSize) (by simp), readU64_of (n := 14) (v := o.mergeArrayPage) (by simp),
    readU64_of (n := 15) (v := o.mergeMaxPage) (by simp)]
  simp [Option.map_map, Function.comp_def]

/-- The eight types whose tag determines them. -/
def MType.canon : MType → MType
  | .decimal _ _ => .decimal 28 16
  | .timestamp _ _ => .timestamp .millisecond none
  | t => t

theorem MType.ofTag_tag {t : MType} {n : Nat} (h : t.tag = some n) :
    MType.ofTag n = some t.canon ∧ n < 2 ^ 64 := by
  cases t <;> simp [MType.tag] at h <;> subst h <;> exact ⟨rfl, by decide⟩

def MField.canon (f : MField) : MField := { f with dt := f.dt.canon }

theorem MField.de_ser (f : MField) (b : Bytes) (hs : f.ser = some b) (h : b.length < 2 ^ 64) :
    MField.de b = some f.canon := by
  unfold MField.ser at hs
  obtain ⟨t, ht, rfl⟩ := Option.map_eq_some_iff.mp hs
  obtain ⟨ho, hlt⟩ := MType.ofTag_tag ht
  have hw := (WF_putStr (n := 1) (s := f.name) (by decide)).append
    ((WF_putU64 (n := 2) (by decide) hlt).append (WF_putBool (n := 3) (b := f.nullable) (by decide)))
  simp only [MField.de, decFields_enc _ hw, Option.bind_eq_bind, Option.bind_some]
  rw [getStr_of (n := 1) (s := f.name) (by simp), getU64_of (n := 2) (v := t) (by simp),
    getBool_of (n := 3) (b := f.nullable) (by simp)]
  simp only [Option.bind_some, ho]
  rfl

/-- What a manifest becomes after a write and a read. -/
def Manifest.canon (m : Manifest) : Manifest :=
  { m with version := (m.version.setWidth 32).setWidth _, fields := m.fields.map MField.canon }

theorem mapM_ser_de (l : List MField) (bs : List Bytes) (h : l.mapM MField.ser = some bs)
    (hl : ∀ b ∈ bs, b.length < 2 ^ 64) : bs.mapM MField.de = some (l.map MField.canon) := by
  induction l generalizing bs with
  | nil => simp at h; subst h; rfl
  | cons f l ih =>
    rw [List.mapM_cons] at h
    cases hf : f.ser with
    | none => rw [hf] at h; simp at h
    | some b =>
      rw [hf] at h
      cases hr : l.mapM MField.ser with
      | none => rw [hr] at h; simp at h
      | some bs' =>
        rw [hr] at h
        simp at h
        subst h
        rw [List.mapM_cons, MField.de_ser f b hf (hl b (by simp)),
          ih bs' hr (fun x hx => hl x (by simp [hx]))]
        rfl

theorem Manifest.de_ser (m : Manifest) (b : Bytes) (hs : m.ser = some b) (h : b.length < 2 ^ 64) :
    Manifest.de b = some m.canon := by
  unfold Manifest.ser at hs
  cases hf : m.fields.mapM MField.ser with
  | none => rw [hf] at hs; cases hs
  | some fs =>
    rw [hf] at hs
    injection hs with hs
    subst hs
    have hver : (m.version.setWidth 32).toNat < 2 ^ 64 := by
      have := (m.version.setWidth 32).isLt; omega
    have hw := (WF_putU64 (n := 1) (by decide) hver).append
      ((WF_putU64 (n := 2) (by decide) (u64_lt m.logId)).append
      ((WF_putStr (n := 3) (s := m.tableName) (by decide)).append
      ((WF_putMsg (n := 4) (b := encFields (putRep 1 fs)) (by decide)).append
      ((WF_putRep (n := 5) (l := m.levels.map MLevel.ser) (by decide)).append
      ((WF_putMsg (n := 6) (b := m.stats.ser) (by decide)).append
      (WF_putMsg (n := 7) (b := m.opts.ser) (by decide)))))))
    have l4 := len_le_encFields (fs := putMsg 4 (encFields (putRep 1 fs))) (n := 4)
      (b := encFields (putRep 1 fs)) (by simp [putMsg])
    have l6 := len_le_encFields (fs := putMsg 6 m.stats.ser) (n := 6) (b := m.stats.ser)
      (by simp [putMsg])
    have l7 := len_le_encFields (fs := putMsg 7 m.opts.ser) (n := 7) (b := m.opts.ser)
      (by simp [putMsg])
    have hh := h
    simp only [encFields_append, List.length_append] at hh
    have hlev : ∀ k ∈ m.levels, MLevel.de k.ser = some k := by
      intro k hk
      apply MLevel.de_ser
      have := putRep_len_le (n := 5) (List.mem_map_of_mem (f := MLevel.ser) hk)
      omega
    have hfld : fs.mapM MField.de = some (m.fields.map MField.canon) := by
      apply mapM_ser_de _ _ hf
      intro b hb
      have := putRep_len_le (n := 1) hb
      omega
    have hsub : decFields (encFields (putRep 1 fs)) = some (putRep 1 fs) :=
      decFields_enc _ (WF_putRep (by decide))
    simp only [Manifest.de, decFields_enc _ hw, Option.bind_eq_bind, Option.bind_some]
    rw [getU64_of (n := 1) (v := (m.version.setWidth 32).toNat) (by simp),
      readU64_of (n := 2) (v := m.logId) (by simp), getStr_of (n := 3) (s := m.tableName) (by simp),
      getMsg_of (n := 4) (b := encFields (putRep 1 fs)) (by simp),
      getRep_of (n := 5) (l := m.levels.map MLevel.ser) (by simp),
      getMsg_of (n := 6) (b := m.stats.ser) (by simp), getMsg_of (n := 7) (b := m.opts.ser) (by simp)]
    simp only [Option.bind_some, hsub]
    rw [getRep_of (n := 1) (l := fs) rfl]
    simp only [Option.bind_some, hfld, mapM_inverse _ _ _ hlev, MStats.de_ser m.stats (by omega),
      MOptions.de_ser m.opts (by omega)]
    simp only [BitVec.ofNat_toNat, BitVec.setWidth_eq]
    rfl

end OptiPrism.Storage
