import Verif.Storage.CompactProps

/-!
# Point reads and compare-and-swap

`get`, `get_cas`, `replace` (/repo/src/storage/src/db.rs 802-1161) over the table of `Disk`, with full
keys. `cols` gives the integer key columns of a key (`get` panics on other key types). The statistics
of a row group are taken to be the true minimum and maximum of each key column. Decoding of the
cells of the found row (1010-1150) is not modelled; the row is returned as a whole.
-/

namespace OptiPrism.Storage

variable {R K : Type}

/-- Per-column check against the statistics of a row group, 893-925. -/
def groupFits (cols : K → List Int) (key : R → K) (k : K) (g : List R) : Bool :=
  (List.range (cols k).length).all fun i =>
    g.any (fun r => decide ((cols (key r)).getD i 0 ≤ (cols k).getD i 0)) &&
    g.any (fun r => decide ((cols k).getD i 0 ≤ (cols (key r)).getD i 0))

/-- Reading one part file, 889-1155: the first row group that fits is searched, no other. -/
def getFile [DecidableEq K] (cols : K → List Int) (key : R → K) (k : K) (groups : List (List R)) : Option R :=
  match groups.find? (groupFits cols key k) with
  | none => none
  | some g => g.find? fun r => decide (key r = k)

/-- The loop over the parts of a level in reverse, 880-1158. Outer `none` = the file cannot be read;
`some none` = no part of this level covers the key; `some (some x)` = `return Ok(x)`.
`groups` = the row groups of a file. -/
def getParts (le : K → K → Prop) [DecidableRel le] [DecidableEq K] (cols : K → List Int) (key : R → K)
    (groups : List R → List (List R)) (file : Nat → Option (PFile R)) (k : K) :
    List (PartRef K) → Option (Option (Option R))
  | [] => some none
  | q :: qs =>
    if le q.min k ∧ le k q.max then
      match file q.id with
      | some (.full rows) => some (some (getFile cols key k (groups rows)))
      | _ => none
    else getParts le cols key groups file k qs

/-- The loop over the levels. -/
def getLevels (le : K → K → Prop) [DecidableRel le] [DecidableEq K] (cols : K → List Int) (key : R → K)
    (groups : List R → List (List R)) (files : Nat → Nat → Option (PFile R)) (k : K) :
    Nat → List (DLevel K) → Option (Option R)
  | _, [] => some none
  | l, lv :: ls =>
    match getParts le cols key groups (files l) k lv.parts.reverse with
    | none => none
    | some (some x) => some x
    | some none => getLevels le cols key groups files k (l + 1) ls

/-- `get`, 864-1161. The memtable gives the last row with that key (C05). Outer `none` = error. -/
def getRow (le : K → K → Prop) [DecidableRel le] [DecidableEq K] (cols : K → List Int) (key : R → K)
    (groups : List R → List (List R)) (d : Disk R K) (p : Proc R K) (k : K) : Option (Option R) :=
  match p.mem.reverse.find? fun r => decide (key r = k) with
  | some r => some (some r)
  | none => getLevels le cols key groups d.parts k 0 p.md.levels

/-! ### compare-and-swap -/

/-- `LruCache`, most recently used first. -/
abbrev Lru (A : Type) := List (A × Int)

variable {A : Type} [DecidableEq A]

/-- `LruCache::put` with capacity `cap` (10, db.rs 395 and 1321). -/
def Lru.put (cap : Nat) (c : Lru A) (a : A) (v : Int) : Lru A :=
  ((a, v) :: c.filter fun e => decide (e.1 ≠ a)).take cap

/-- `LruCache::pop`. -/
def Lru.pop (c : Lru A) (a : A) : Option Int × Lru A :=
  ((c.find? fun e => decide (e.1 = a)).map Prod.snd, c.filter fun e => decide (e.1 ≠ a))

/-- The table as compare-and-swap sees it: rows in insertion order with key prefix, version and
content, and the cache. -/
structure CasTbl (A V : Type) where
  rows : List (A × Int × V)
  cache : Lru A

variable {V : Type}

/-- `get_cas`, 802-831, for a key prefix whose row `get` returned with version `v`. -/
def CasTbl.getCas (t : CasTbl A V) (a : A) (v : Int) : CasTbl A V := { t with cache := t.cache.put 10 a v }

/-- `replace`, 833-862: the entry is popped, then compared. The flag says whether the call
succeeded. `insert` is the append of a row. -/
def CasTbl.replace (t : CasTbl A V) (a : A) (v : Int) (x : V) : Bool × CasTbl A V :=
  match t.cache.pop a with
  | (some c, cache) => if c ≠ v then (false, { t with cache }) else (true, ⟨t.rows ++ [(a, v, x)], cache⟩)
  | (none, cache) => (true, ⟨t.rows ++ [(a, v, x)], cache⟩)

inductive CasOp (A V : Type) where
  | getCas (a : A) (v : Int)
  | replace (a : A) (v : Int) (x : V)

def CasOp.key : CasOp A V → A
  | .getCas a _ => a
  | .replace a _ _ => a

def CasTbl.step (t : CasTbl A V) : CasOp A V → CasTbl A V
  | .getCas a v => t.getCas a v
  | .replace a v x => (t.replace a v x).2

def CasTbl.run (t : CasTbl A V) (ops : List (CasOp A V)) : CasTbl A V := ops.foldl CasTbl.step t

end OptiPrism.Storage
