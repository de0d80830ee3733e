/-!
Starting the storage: `recover` and `create_table` (storage/src/db.rs) as `init_storage` (cmd/src/lib.rs 226-284) calls them, with the settings of the
configuration file (cmd/src/config.rs, common/src/config.rs).

A table is a directory. Of its files the model has the directories of the levels, the manifest ("metadata") and the rest as one value `α`: the log and
the parts, whose contents are the matter of C01-C24. Names are lists of characters. Failures of the file system other than a file that is there
already are left out; so is what `create_dir_all` does above the directory it makes.
-/

namespace OptiPrism.Storage

/-- `Table` of the configuration (cmd/src/config.rs 39-54, common/src/config.rs 37-52). -/
structure TableConf where
  levels : Nat
  l0MaxParts : Nat
  l1MaxSizeBytes : Nat
  levelSizeMultiplier : Nat
  maxLogLengthBytes : Nat
  mergeMaxL1PartSizeBytes : Nat
  mergePartSizeMultiplier : Nat
  mergeDataPageSizeLimitBytes : Nat
  mergeRowGroupValuesLimit : Nat
  mergeArraySize : Nat
  mergeChunkSize : Nat
  mergeArrayPageSize : Nat
  mergeMaxPageSize : Nat
deriving DecidableEq, Repr

/-- The part of `Config` about tables. -/
structure TablesConf where
  events : TableConf
  group : TableConf
deriving DecidableEq, Repr

/-- `try_into` of a table (cmd/src/config.rs 99-130). -/
def TableConf.common (c : TableConf) : TableConf where
  levels := c.levels
  l0MaxParts := c.l0MaxParts
  l1MaxSizeBytes := c.l1MaxSizeBytes
  levelSizeMultiplier := c.levelSizeMultiplier
  maxLogLengthBytes := c.maxLogLengthBytes
  mergeMaxL1PartSizeBytes := c.mergeMaxL1PartSizeBytes
  mergePartSizeMultiplier := c.mergePartSizeMultiplier
  mergeDataPageSizeLimitBytes := c.mergeDataPageSizeLimitBytes
  mergeRowGroupValuesLimit := c.mergeRowGroupValuesLimit
  mergeArraySize := c.mergeArraySize
  mergeChunkSize := c.mergeChunkSize
  mergeArrayPageSize := c.mergeArrayPageSize
  mergeMaxPageSize := c.mergeMaxPageSize

/-- `table::Options`. -/
structure TableOpts where
  levels : Nat
  mergeArraySize : Nat
  indexCols : Nat
  l1MaxSizeBytes : Nat
  levelSizeMultiplier : Nat
  l0MaxParts : Nat
  maxLogLengthBytes : Nat
  mergeArrayPageSize : Nat
  mergeDataPageSizeLimitBytes : Option Nat
  mergeMaxL1PartSizeBytes : Nat
  mergePartSizeMultiplier : Nat
  mergeRowGroupValuesLimit : Nat
  mergeChunkSize : Nat
  mergeMaxPageSize : Nat
  isReplacing : Bool
deriving DecidableEq, Repr

/-- `events_table` and `tbl` (cmd/src/lib.rs 227-243, 253-271). -/
def TableConf.opts (c : TableConf) (replacing : Bool) : TableOpts where
  levels := c.levels
  mergeArraySize := c.mergeArraySize
  indexCols := 2
  l1MaxSizeBytes := c.l1MaxSizeBytes
  levelSizeMultiplier := c.levelSizeMultiplier
  l0MaxParts := c.l0MaxParts
  maxLogLengthBytes := c.maxLogLengthBytes
  mergeArrayPageSize := c.mergeArrayPageSize
  mergeDataPageSizeLimitBytes := some c.mergeDataPageSizeLimitBytes
  mergeMaxL1PartSizeBytes := c.mergeMaxL1PartSizeBytes
  mergePartSizeMultiplier := c.mergePartSizeMultiplier
  mergeRowGroupValuesLimit := c.mergeRowGroupValuesLimit
  mergeChunkSize := c.mergeChunkSize
  mergeMaxPageSize := c.mergeMaxPageSize
  isReplacing := replacing

/-- `TABLE_EVENTS` (common/src/types.rs). -/
def eventsName : List Char := "events".toList

/-- `group_col` for the numbers below `GROUPS_COUNT` (common/src/lib.rs), by the digit of the group. -/
def groupName (g : Nat) : List Char := "group_".toList ++ [Nat.digitChar g]

/-- The calls of `create_table` in `init_storage` (cmd/src/lib.rs 244, 252-274). -/
def tableCalls (c : TablesConf) : List (List Char × TableOpts) :=
  (eventsName, c.events.common.opts false) :: (List.range 5).map fun g => (groupName g, c.group.common.opts true)

/-- The directory of a table: its levels, its log and parts, its manifest (`some none`: the file is there and not written). -/
structure TableDir (α : Type) where
  levels : List Nat
  data : Option α
  manifest : Option (Option TableOpts)

/-- The directory "tables". -/
abbrev Root (α : Type) := List (List Char × TableDir α)

variable {α : Type}

def Root.update (root : Root α) (n : List Char) (f : TableDir α → TableDir α) : Root α := root.map fun q => if q.1 = n then (q.1, f q.2) else q

/-- One change of the file system in `create_table`. -/
inductive StartOp where
  | dir (n : List Char)
  | level (n : List Char) (l : Nat)
  | log (n : List Char)
  | manifest (n : List Char)
  | write (n : List Char) (o : TableOpts)

/-- `none`: the file is there already (`create_new`), or its directory is not. -/
def StartOp.apply (fresh : α) (root : Root α) : StartOp → Option (Root α)
  | .dir n => some (if root.any (fun q => q.1 = n) then root else root ++ [(n, ⟨[], none, none⟩)])
  | .level n l => some (root.update n fun d => { d with levels := if l ∈ d.levels then d.levels else d.levels ++ [l] })
  | .log n => match root.find? (fun q => q.1 = n) with
    | some (_, ⟨_, none, _⟩) => some (root.update n fun d => { d with data := some fresh })
    | _ => none
  | .manifest n => match root.find? (fun q => q.1 = n) with
    | some (_, ⟨_, _, none⟩) => some (root.update n fun d => { d with manifest := some none })
    | _ => none
  | .write n o => some (root.update n fun d => { d with manifest := some (some o) })

/-- `create_table` (db.rs 1285-1312). -/
def createOps (n : List Char) (o : TableOpts) : List StartOp :=
  .dir n :: (List.range o.levels).map (.level n) ++ [.log n, .manifest n, .write n o]

/-- `try_recover_table` (db.rs 298-352): the manifest must be there, written, and there must be a log. -/
def TableDir.recovers (d : TableDir α) : Bool :=
  match d.manifest, d.data with
  | some (some _), some _ => true
  | _, _ => false

/-- `init_storage`: a table that is there is left alone (db.rs 1278-1283, cmd/src/lib.rs 244-250, 274-280). -/
def initOps : List (List Char) → List (List Char × TableOpts) → List StartOp
  | _, [] => []
  | have_, (n, o) :: rest => if n ∈ have_ then initOps have_ rest else createOps n o ++ initOps (n :: have_) rest

/-- The changes one after the other, up to the first that fails. -/
def runOps (fresh : α) : Root α → List StartOp → Root α × Bool
  | root, [] => (root, true)
  | root, op :: ops => match op.apply fresh root with
    | none => (root, false)
    | some root => runOps fresh root ops

/-- A start: `recover` (db.rs 401-414), which fails if one table cannot be recovered, and `init_storage`. With `cut`, the process ends after so many
changes. The second component says whether the server goes on. -/
def startTables (fresh : α) (c : TablesConf) (cut : Option Nat) (root : Root α) : Root α × Bool :=
  if root.all (fun q => q.2.recovers) then
    let ops := initOps (root.map (·.1)) (tableCalls c)
    match cut with
    | none => runOps fresh root ops
    | some k => ((runOps fresh root (ops.take k)).1, false)
  else (root, false)

/-- The life of a data directory: starts, and work on the tables between them. -/
inductive Life (α : Type) where
  | start (c : TablesConf) (cut : Option Nat)
  | work (f : List Char → α → α)

/-- Work on the log and the parts of tables that can be recovered (what else is there the server does not come to use). -/
def workOn (f : List Char → α → α) (root : Root α) : Root α := root.map fun q => (q.1, if q.2.recovers then { q.2 with data := q.2.data.map (f q.1) } else q.2)

def Life.run (fresh : α) (root : Root α) : Life α → Root α
  | .start c cut => (startTables fresh c cut root).1
  | .work f => workOn f root

def lifeOf (fresh : α) (root : Root α) (ls : List (Life α)) : Root α := ls.foldl (Life.run fresh) root

end OptiPrism.Storage
