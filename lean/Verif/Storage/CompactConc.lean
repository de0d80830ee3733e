import Verif.Storage.CompactCrash
import Verif.Storage.CompactProps

/-!
# Compaction in the background

`Compactor::run` (/repo/src/storage/src/compaction.rs 87-180) runs in its own thread. It holds the
lock of the metadata only while it copies them (124-127) and while it installs the result (138-156);
merging and the deferred file operations (158-176) run without it. `gc`
(/repo/src/storage/src/db.rs 163-221) runs in another thread, `insert`, `flush` and `scan` in others.

A step of this model is something the code does under one lock or with one system call:

* `insert`, `flush`: as in `Disk.lean` (both hold the lock of the metadata or of the memtable);
* `compute`: copying the metadata and merging, without the installation. Taken as one step at the time
  of the copy: the merge reads only files recorded in the copy, which nobody else removes, and writes
  only files with new ids on levels from 1 on, which nobody else does;
* `install`: the new levels and the manifest, 138-156;
* `op`: the next file operation. A rename is one step; a deletion is two, the release of the count and
  `try_remove_file`, 170-173;
* `gc`: one pass over the table, which holds the lock of the metadata;
* `scanStart`, `scanOpen`, `scanEnd`: the copy of the metadata (620-632, together with the rows in
  memory: the gap between the two is the subject of `Conc.lean`), opening the next part file (660-666),
  and the end of the stream, which releases the counts (593-601).

A failure of `compute` ends the history (`none`); a failing file operation kills the compactor
(`Phase.dead`) while everything else goes on.
-/

namespace OptiPrism.Storage

variable {R K : Type}

/-- A scan that has not ended: files still to open, files opened, rows found so far. An opened file
stays readable when its name goes away. -/
structure Sc (R : Type) where
  todo : List (Nat × Nat)
  opened : List (Nat × Nat)
  rows : List R

/-- What the compactor is doing. -/
inductive Phase (R K : Type) where
  | idle
  /-- merged, not yet installed -/
  | merging (st : CState R K)
  /-- installed; `pend` = the file whose count was just released and that is to be removed -/
  | finishing (pend : Option (Nat × Nat)) (ops : List COp)
  /-- the thread has panicked -/
  | dead

structure BSt (R K : Type) where
  d : Disk R K
  p : Proc R K
  cnt : Cnt
  phase : Phase R K
  /-- running scans by name -/
  scans : List (Nat × Sc R)
  /-- ended scans; `none` = a file could not be opened -/
  out : List (Nat × Option (List R))
  /-- ghost: the choices of all compactions so far -/
  picks : List (List (Nat × Nat))

inductive BAct (R : Type) where
  | insert (r : R)
  | flush
  | compute
  | install
  | op
  | gc
  | scanStart (t : Nat)
  | scanOpen (t : Nat)
  | scanEnd (t : Nat)

/-- The next step of the deferred file operations, compaction.rs 158-176. -/
def opStep (s : BSt R K) : Option (BSt R K) :=
  match s.phase with
  | .finishing none [] => some { s with phase := .idle }
  | .finishing none (.rename a b :: ops) =>
    match s.d.parts a.1 a.2 with
    | none => some { s with phase := .dead }
    | some v =>
      match s.cnt.close a with
      | none => some { s with phase := .dead }
      | some c1 =>
        match c1.close b with
        | none => some { s with phase := .dead }
        | some c2 =>
          some { s with
            d := { s.d with parts := setPart (setPart s.d.parts a.1 a.2 none) b.1 b.2 (some v) }
            cnt := c2
            phase := .finishing none ops }
  | .finishing none (.delete a :: ops) =>
    match s.cnt.close a with
    | none => some { s with phase := .dead }
    | some c1 => some { s with cnt := c1, phase := .finishing (some a) ops }
  | .finishing (some a) ops =>
    if s.cnt a.1 a.2 = 0 then
      match s.d.parts a.1 a.2 with
      | none => some { s with phase := .dead }
      | some _ =>
        some { s with
          d := { s.d with parts := setPart s.d.parts a.1 a.2 none }, phase := .finishing none ops }
    else some { s with phase := .finishing none ops }
  | _ => none

/-- Releasing the counts of a scan, db.rs 593-601. -/
def closeAll (c : Cnt) : List (Nat × Nat) → Option Cnt
  | [] => some c
  | x :: xs =>
    match c.close x with
    | none => none
    | some c' => closeAll c' xs

def scanOf (s : BSt R K) (t : Nat) : Option (Sc R) := s.scans.lookup t

def dropScan (t : Nat) (l : List (Nat × Sc R)) : List (Nat × Sc R) := l.filter fun x => x.1 != t

def bstep (le : K → K → Prop) [DecidableRel le] (e : Env R K) (s : BSt R K) : BAct R → Option (BSt R K)
  | .insert r => some { s with d := (insertRow s.d s.p r).1, p := (insertRow s.d s.p r).2 }
  | .flush =>
    match flush e.key e.toBlock e.size s.d s.p with
    | none => none
    | some (d, p) => some { s with d := d, p := p }
  | .compute =>
    match s.phase with
    | .idle =>
      match compact le e.opts e.merge s.d.parts s.cnt s.p.md.levels with
      | none => none
      | some none => some s
      | some (some st) =>
        some { s with
          d := { s.d with parts := st.files }, cnt := st.cnt, phase := .merging st
          picks := s.picks ++ st.picks }
    | _ => none
  | .install =>
    match s.phase with
    | .merging st =>
      some { s with
        d := { s.d with manifest := some (Storage.install s.p.md st) }
        p := { s.p with md := Storage.install s.p.md st }
        phase := .finishing none st.ops }
    | _ => none
  | .op => opStep s
  | .gc => some { s with d := gcPass (fun l i => s.cnt l i != 0) s.d s.p.md }
  | .scanStart t =>
    match scanOf s t with
    | some _ => none
    | none => some { s with scans := (t, ⟨pathsOf 0 s.p.md.levels, [], s.p.mem⟩) :: s.scans }
  | .scanOpen t =>
    match scanOf s t with
    | some ⟨x :: todo, opened, rows⟩ =>
      match fileRows s.d.parts x.1 x.2 with
      | none =>
        some { s with
          cnt := s.cnt.open x, scans := dropScan t s.scans, out := s.out ++ [(t, none)] }
      | some r =>
        some { s with
          cnt := s.cnt.open x
          scans := (t, ⟨todo, x :: opened, rows ++ r⟩) :: dropScan t s.scans }
    | _ => none
  | .scanEnd t =>
    match scanOf s t with
    | some ⟨[], opened, rows⟩ =>
      match closeAll s.cnt opened with
      | none => none
      | some c =>
        some { s with cnt := c, scans := dropScan t s.scans, out := s.out ++ [(t, some rows)] }
    | _ => none

def brun (le : K → K → Prop) [DecidableRel le] (e : Env R K) (s : BSt R K) :
    List (BAct R) → Option (BSt R K)
  | [] => some s
  | a :: as =>
    match bstep le e s a with
    | none => none
    | some s' => brun le e s' as

/-- A table just created. -/
def BSt.init (levels : Nat) : BSt R K :=
  ⟨createDisk levels, createProc levels, fun _ _ => 0, .idle, [], [], []⟩

/-- The rows of the acknowledged inserts. -/
def BAct.rows : BAct R → List R
  | .insert r => [r]
  | _ => []

/-- The garbage collector does not run between the two halves of a deletion by the compactor. -/
def BSt.calm (s : BSt R K) : BAct R → Prop
  | .gc => ∀ a ops, s.phase ≠ .finishing (some a) ops
  | _ => True

def Calm (le : K → K → Prop) [DecidableRel le] (e : Env R K) (s : BSt R K) : List (BAct R) → Prop
  | [] => True
  | a :: as => s.calm a ∧ ∀ s', bstep le e s a = some s' → Calm le e s' as

/-- The file operations the compactor still has to do. -/
def Phase.todo : Phase R K → List COp
  | .finishing _ ops => ops
  | _ => []

end OptiPrism.Storage
