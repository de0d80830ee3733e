import Verif.Storage.ManifestProps

/-!
# Full backup and restore

Model of `full_backup` and `full_restore` (/repo/src/storage/src/db.rs 1348-1436, 1446-1506) over
byte streams, with no other thread running. The `bincode` encoding of the table list
(`SerializableTable`, /repo/src/storage/src/table.rs 129-140) and the zlib wrapper of the `_local`
variants are parameters/outside. Directory creation is left out: table names are distinct.
-/

namespace OptiPrism.Storage

/-- `VERSION`, 109. -/
def backupVersion : Nat := 1

/-- `BACKUP_MAGIC`, 110. -/
def backupMagic : Bytes := [1, 2, 3, 4, 5, 6, 7, 8]

/-- One table: its metadata, its current log file, its part files by level and id. -/
structure BTable where
  name : Bytes
  md : Manifest
  log : Bytes
  files : Nat → U64 → Option Bytes

/-- The parts in the order of 1410-1412 and 1484-1486. -/
def levelParts : Nat → List MLevel → List (Nat × MPart)
  | _, [] => []
  | l, lv :: ls => lv.parts.map (fun p => (l, p)) ++ levelParts (l + 1) ls

def Manifest.partList (m : Manifest) : List (Nat × MPart) := levelParts 0 m.levels

/-- Parts section, 1410-1420; `none` = `unwrap` of a failed open. -/
def backupParts (files : Nat → U64 → Option Bytes) : List (Nat × MPart) → Option Bytes
  | [] => some []
  | (l, p) :: ps =>
    match files l p.id, backupParts files ps with
    | some b, some rest => some (b ++ rest)
    | _, _ => none

/-- 1393-1421. -/
def backupTable (t : BTable) : Option Bytes :=
  (backupParts t.files t.md.partList).map fun ps => toLE 8 t.log.length ++ (t.log ++ ps)

def backupTables : List BTable → Option Bytes
  | [] => some []
  | t :: ts =>
    match backupTable t, backupTables ts with
    | some a, some b => some (a ++ b)
    | _, _ => none

/-- The stream written by `full_backup`. -/
def fullBackup (ser : List (Bytes × Manifest) → Bytes) (ts : List BTable) : Option Bytes :=
  (backupTables ts).map fun body =>
    let data := ser (ts.map fun t => (t.name, t.md))
    toLE 8 backupVersion ++ (toLE 8 data.length ++ (data ++ (body ++ backupMagic)))

inductive RErr where
  | eof | decode | panic | magic
deriving DecidableEq, Repr

/-- Files of a restored table. -/
structure RTable where
  name : Bytes
  mdFile : Bytes
  log0 : Bytes
  parts : List ((Nat × U64) × Bytes)
deriving DecidableEq

/-- `read_exact`. -/
def readExact (n : Nat) (s : Bytes) : Except RErr (Bytes × Bytes) :=
  if s.length < n then .error .eof else .ok (s.take n, s.drop n)

/-- `io::copy` from `reader.take(n)`: stops at the end of the stream without an error. -/
def copyTake (n : Nat) (s : Bytes) : Bytes × Bytes := (s.take n, s.drop n)

/-- 1484-1492. -/
def restoreParts : List (Nat × MPart) → Bytes → List ((Nat × U64) × Bytes) × Bytes
  | [], s => ([], s)
  | (l, p) :: ps, s =>
    let c := copyTake p.sizeBytes.toNat s
    let r := restoreParts ps c.2
    (((l, p.id), c.1) :: r.1, r.2)

/-- 1463-1493. -/
def restoreTable (crc : Bytes → Nat) (version : Nat) (name : Bytes) (md : Manifest) (s : Bytes) :
    Except RErr (RTable × Bytes) :=
  match writeManifest crc [] { md with logId := 0, version := BitVec.ofNat _ version } with
  | none => .error .panic
  | some mdFile =>
    match readExact 8 s with
    | .error e => .error e
    | .ok (b, s) =>
      let c := copyTake (fromLE b) s
      let r := restoreParts md.partList c.2
      .ok (⟨name, mdFile, c.1, r.1⟩, r.2)

def restoreTables (crc : Bytes → Nat) (version : Nat) : List (Bytes × Manifest) → Bytes → Except RErr (List RTable × Bytes)
  | [], s => .ok ([], s)
  | (n, md) :: ts, s =>
    match restoreTable crc version n md s with
    | .error e => .error e
    | .ok (t, s) =>
      match restoreTables crc version ts s with
      | .error e => .error e
      | .ok (r, s) => .ok (t :: r, s)

/-- 1451-1498, up to the recovery of the written files. -/
def restoreFiles (de : Bytes → Option (List (Bytes × Manifest))) (crc : Bytes → Nat) (s : Bytes) : Except RErr (List RTable) :=
  match readExact 8 s with
  | .error e => .error e
  | .ok (v, s) =>
    match readExact 8 s with
    | .error e => .error e
    | .ok (n, s) =>
      match readExact (fromLE n) s with
      | .error e => .error e
      | .ok (d, s) =>
        match de d with
        | none => .error .decode
        | some ts =>
          match restoreTables crc (fromLE v) ts s with
          | .error e => .error e
          | .ok (r, s) =>
            match readExact 8 s with
            | .error e => .error e
            | .ok (m, _) => if m = backupMagic then .ok r else .error .magic

/-- Contents of part file `(l, id)` after the restore (a later write replaces an earlier one; equal
paths get equal contents, see `restore_file`). -/
def RTable.file (t : RTable) (l : Nat) (id : U64) : Option Bytes :=
  (t.parts.find? fun e => e.1 == (l, id)).map (·.2)

/-- The tables the open database serves after `full_restore`: `truncate_all` (1449) comes first, so
a failure leaves none. -/
def servedAfter (r : Except RErr (List RTable)) : List RTable :=
  match r with
  | .ok ts => ts
  | .error _ => []

end OptiPrism.Storage
