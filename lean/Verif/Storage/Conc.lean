/-!
# Interleavings of insert, flush and scan

The lock-protected sections of `insert`, `flush`/`flush_log_` and `scan`
(/repo/src/storage/src/db.rs 497-559, 620-699, 702-800, 1188-1207) as atomic actions of arbitrarily
many threads, over abstract rows.

- `insert`: validation reads a copy of the metadata (no effect here); the row is written to the open
  log under the log lock (`log`, 765-770), which is then released; under the metadata and memtable
  locks it is pushed (`push`, 771-782), and the call returns. The automatic flush (784-790) continues
  with the same locks held: here it is a `push` followed by a flush.
- `flush`: under the metadata and memtable locks the memtable becomes a part, the manifest is
  written, the old log is removed, the new one created (`flushFiles`, 1199-1203); then, the locks
  still held, the log lock is taken and the open log exchanged (`flushHandle`, 1204-1205).
- `scan`: the metadata are copied under their lock (`scanMeta`, 629-631), then the memtable is read
  under its lock and the files of the copied part list are opened (`scanMem`, 634-667).

Not modelled: compaction and garbage collection, I/O errors.
-/

namespace OptiPrism.Storage

variable {R : Type}

inductive Act (R : Type) where
  | log (t : Nat) (r : R)
  | push (t : Nat)
  | flushFiles
  | flushHandle
  | scanMeta (t : Nat)
  | scanMem (t : Nat)
deriving DecidableEq, Repr

structure CSt (R : Type) where
  /-- rows of the part files recorded in the manifest -/
  parts : List (List R)
  mem : List R
  /-- log files present in the directory -/
  logs : List (Nat × List R)
  logId : Nat
  /-- id of the log file that is open for writing -/
  handle : Nat
  /-- a flush is between its two sections (metadata and memtable locked) -/
  flushing : Bool
  /-- inserts that have been logged but not yet pushed -/
  pend : List (Nat × R)
  /-- rows whose insert has returned -/
  acked : List R
  /-- scans that have copied the part list -/
  scans : List (Nat × List (List R))
  /-- results of scans -/
  results : List (Nat × List R)
deriving DecidableEq, Repr

def CSt.init : CSt R := ⟨[], [], [(0, [])], 0, 0, false, [], [], [], []⟩

/-- A write to the open log; if the file's name is gone, the data are in no file. -/
def CSt.write (s : CSt R) (r : R) : List (Nat × List R) :=
  s.logs.map fun q => if q.1 = s.handle then (q.1, q.2 ++ [r]) else q

/-- One action; `none` = not possible now (lock held, or the thread is not at that point). A thread
is at most in one insert and one scan at a time. -/
def cstep (s : CSt R) : Act R → Option (CSt R)
  | .log t r =>
    if s.pend.any (fun e => e.1 == t) then none
    else some { s with logs := s.write r, pend := (t, r) :: s.pend }
  | .push t =>
    if s.flushing then none
    else
      match s.pend.find? (fun e => e.1 == t) with
      | none => none
      | some e => some { s with
          mem := s.mem ++ [e.2], pend := s.pend.filter (fun x => x.1 != t), acked := e.2 :: s.acked }
  | .flushFiles =>
    if s.flushing then none
    else if s.mem.isEmpty then some s
    else some { s with
      parts := s.parts ++ [s.mem], mem := [], logId := s.logId + 1, flushing := true
      logs := (s.logs.filter fun q => q.1 != s.logId) ++ [(s.logId + 1, [])] }
  | .flushHandle => if s.flushing then some { s with handle := s.logId, flushing := false } else none
  | .scanMeta t =>
    if s.flushing then none
    else if s.scans.any (fun e => e.1 == t) then none
    else some { s with scans := (t, s.parts) :: s.scans }
  | .scanMem t =>
    if s.flushing then none
    else
      match s.scans.find? (fun e => e.1 == t) with
      | none => none
      | some e => some { s with
          scans := s.scans.filter (fun x => x.1 != t), results := (t, s.mem ++ e.2.flatten) :: s.results }

def crun : CSt R → List (Act R) → Option (CSt R)
  | s, [] => some s
  | s, a :: as =>
    match cstep s a with
    | none => none
    | some s' => crun s' as

end OptiPrism.Storage
