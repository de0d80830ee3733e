import Verif.Storage.Compact

/-!
# The merge of part files

Model of /repo/src/storage/src/parquet/parquet_merger.rs (`check_intersection` 201-229, the row merges 403-621,
`merge_chunks` 628-713, `Merger::merge` 868-1029, `merge_queue` 1287-1318, `next_index_chunk` 1321-1372,
`try_drain_result` 1375-1393), parquet/mod.rs (`CompressedPageIterator` 518-627, `get_page_min_max_values` 472-514) and
parquet/merge_data_arrays.rs (`merge_arrays_inner!` 3-106).

A key is the list of its index columns, `Vec<ParquetValue>`. A part file is a list of row groups; a row group has its keys,
the range its page statistics give, and for each data column the pages. Compression and encoding are left out: a
page is the list of its values. A binary heap is any pair of functions `push`, `pop` which does what heaps do (`Heap.Ok`).
The writer's choice of page boundaries only shows in the statistics (`Opts.stat`). When a file is full is any
function of what was written to it (`Opts.full`).
-/

namespace OptiPrism.Storage.PMerge

abbrev Key := List Int

/-- `Ord` of `Vec<ParquetValue>` with values of one type per position. -/
def vecLe : Key → Key → Bool
  | [], _ => true
  | _ :: _, [] => false
  | a :: as, b :: bs => decide (a < b) || (decide (a = b) && vecLe as bs)

/-- `vecLe` as a relation. -/
def VLe (a b : Key) : Prop := vecLe a b = true

instance (a b : Key) : Decidable (VLe a b) := by unfold VLe; exact inferInstance

/-- One row group of a part file. `lo`, `hi`: first page's minimum and last page's maximum per index column. -/
structure Group (V C : Type) where
  keys : List Key
  lo : Key
  hi : Key
  pages : C → List (List V)

/-- A part file. `has`: the columns its schema has (`contains_column`, mod.rs 551-560). -/
structure PartFile (V C : Type) where
  has : C → Bool
  groups : List (Group V C)

/-- `PagesIndexChunk`, parquet_merger.rs 231-237. -/
structure Chunk where
  stream : Nat
  keys : List Key
  lo : Key
  hi : Key
  deriving DecidableEq, Repr

/-- `MergeReorder`, 765-770. -/
inductive Reorder where
  | pick (stream n : Nat)
  | merge (order : List (Option Nat)) (streams : List Nat)
  deriving DecidableEq, Repr

/-- `MergedPagesChunk`, 372-382. -/
structure MChunk where
  keys : List Key
  lo : Key
  hi : Key
  ro : Reorder
  deriving DecidableEq, Repr

structure Heap (α : Type) where
  push : List α → α → List α
  pop : List α → Option (α × List α)

/-- What std's `BinaryHeap` promises, smallest key first (`cmp` is reversed, 263-267, mod.rs 149-235). -/
structure Heap.Ok {α : Type} (h : Heap α) (key : α → Key) : Prop where
  push : ∀ l a, (h.push l a).Perm (a :: l)
  empty : ∀ l, h.pop l = none → l = []
  pop : ∀ l a l', h.pop l = some (a, l') → l.Perm (a :: l') ∧ ∀ b ∈ l', VLe (key a) (key b)

/-- The options, the two heaps, and what is left open. -/
structure Opts where
  cols : Nat
  replacing : Bool
  arraySize : Nat
  rowLimit : Nat
  chunkHeap : Heap Chunk
  rowHeap : Heap (Nat × Key)
  stat : List Key → Key × Key
  full : List (List MChunk) → Bool

/-! ## Row merges -/

/-- Pop until empty. -/
def popAll (h : Heap (Nat × Key)) : Nat → List (Nat × Key) → List (Nat × Key)
  | 0, _ => []
  | n + 1, l =>
    match h.pop l with
    | none => []
    | some (a, l') => a :: popAll h n l'

/-- `merge_two_primitives` pushes every row, 495-502, and pops them all. -/
def allRows (h : Heap (Nat × Key)) (blocks : List (List Key)) : List (Nat × Key) :=
  popAll h (pushed blocks).length ((pushed blocks).foldl h.push [])

/-- `merge_one_primitive` and `merge_three_primitives`: after a pop, the next value of the same array is
pushed, 435-442, 585-595. -/
def kway (h : Heap (Nat × Key)) : Nat → List (List Key) → List (Nat × Key) → List (Nat × Key)
  | 0, _, _ => []
  | n + 1, its, l =>
    match h.pop l with
    | none => []
    | some ((i, k), l') =>
      (i, k) ::
        match its[i]? with
        | some (k' :: t) => kway h n (its.set i t) (h.push l' (i, k'))
        | _ => kway h n its l'

/-- The first values, 429-432, 575-583; an empty array panics. -/
def firsts : List (List Key) → Option (List Key)
  | [] => some []
  | [] :: _ => none
  | (k :: _) :: bs => (firsts bs).map (k :: ·)

def kwayRows (h : Heap (Nat × Key)) (blocks : List (List Key)) : Option (List (Nat × Key)) :=
  (firsts blocks).map fun fs =>
    kway h blocks.flatten.length (blocks.map List.tail) ((fs.zipIdx.map fun p => (p.2, p.1)).foldl h.push [])

/-- `peek` finds a row with the same first column, 505-506. -/
def sameNext (k : Key) : List (Nat × Key) → Bool
  | [] => false
  | p :: _ => k.head? == p.2.head?

/-- The output loop, 435-458, 503-534, 585-616: a row is dropped (`-1`) if the table is replacing and the next row on the heap
has the same first column; the arrays are cut when they reach `array_size`. -/
def cutOut (rep : Bool) (size : Nat) (streams : List Nat) :
    List (Nat × Key) → List Key → List (Option Nat) → List (List Key × List (Option Nat))
  | [], ks, os => if os.isEmpty then [] else [(ks, os)]
  | (i, k) :: rest, ks, os =>
    if rep && sameNext k rest then
      cutOut rep size streams rest ks (os ++ [none])
    else if size ≤ (ks ++ [k]).length then
      (ks ++ [k], os ++ [some (streams.getD i 0)]) :: cutOut rep size streams rest [] []
    else cutOut rep size streams rest (ks ++ [k]) (os ++ [some (streams.getD i 0)])

/-- `merge_chunks`, 628-713, for integer columns: one, two or three columns; only the merge of two columns knows `is_replacing`. -/
def mergeChunks (o : Opts) (q : List Chunk) : Option (List (List Key × List (Option Nat))) :=
  let blocks := q.map Chunk.keys
  let streams := q.map Chunk.stream
  match o.cols with
  | 1 => (kwayRows o.rowHeap blocks).map fun pops => cutOut false o.arraySize streams pops [] []
  | 2 => some (cutOut o.replacing o.arraySize streams (allRows o.rowHeap blocks) [] [])
  | 3 => (kwayRows o.rowHeap blocks).map fun pops => cutOut false o.arraySize streams pops [] []
  | _ => none

/-! ## Index columns -/

/-- The smallest key of the queue, 212-223. After the first chunk the whole key is kept, not the cut one. -/
def queueMin (n : Nat) : List Chunk → Key
  | [] => []
  | c :: cs => cs.foldl (fun m r => if vecLe (r.lo.take n) m then r.lo else m) (c.lo.take n)

def queueMax (n : Nat) : List Chunk → Key
  | [] => []
  | c :: cs => cs.foldl (fun m r => if vecLe m (r.hi.take n) then r.hi else m) (c.hi.take n)

/-- `check_intersection`, 201-229. -/
def intersects (o : Opts) (q : List Chunk) (c : Chunk) : Bool :=
  let n := if o.replacing then o.cols - 1 else o.cols
  vecLe (queueMin n q) (c.hi.take n) && vecLe (c.lo.take n) (queueMax n q)

/-- What the merger knows: the groups not read yet per stream, the sorter, the results not written yet. -/
structure Ix where
  rest : List (List Chunk)
  sorter : List Chunk
  buf : List MChunk

/-- `next_stream_index_chunk` and the push, 842-853, 1325-1328. -/
def Ix.advance (o : Opts) (st : Ix) (s : Nat) : Ix :=
  match st.rest[s]? with
  | some (c :: cs) => { st with rest := st.rest.set s cs, sorter := o.chunkHeap.push st.sorter c }
  | _ => st

/-- The inner loop of `next_index_chunk`, 1334-1348. -/
def grow (o : Opts) : Nat → List Chunk → Ix → List Chunk × Ix
  | 0, q, st => (q, st)
  | n + 1, q, st =>
    match o.chunkHeap.pop st.sorter with
    | none => (q, st)
    | some (c, l) =>
      if intersects o q c then grow o n (q ++ [c]) (({ st with sorter := l } : Ix).advance o c.stream)
      else (q, st)

/-- `merge_queue` for a queue of several chunks, the chunk itself if it is alone, 1287-1318, 1351-1363. The
list of streams keeps its duplicates here; it is only asked for membership. -/
def emit (o : Opts) (q : List Chunk) : Option (List MChunk) :=
  match q with
  | [c] => some [⟨c.keys, c.lo, c.hi, .pick c.stream c.keys.length⟩]
  | q => (mergeChunks o q).map fun outs =>
      outs.map fun x => ⟨x.1, (o.stat x.1).1, (o.stat x.1).2, .merge x.2 (q.map Chunk.stream)⟩

/-- Number of groups not consumed. -/
def Ix.left (st : Ix) : Nat := st.sorter.length + st.rest.flatten.length

/-- `num_values` over the buffer, 1376-1382. -/
def values (ms : List MChunk) : Nat := (ms.map fun m => m.keys.length).sum

/-- `try_drain_result`, 1375-1393. -/
def tryDrain (limit : Nat) (st : Ix) : Option (List MChunk) :=
  if values st.buf < limit then none else if st.buf.isEmpty then none else some st.buf

/-- `next_index_chunk`, 1321-1372. `none`: a panic (or out of fuel); `some (none, _)`: no more rows. -/
def nextIndexChunk (o : Opts) : Nat → Ix → Option (Option (List MChunk) × Ix)
  | 0, _ => none
  | n + 1, st =>
    match o.chunkHeap.pop st.sorter with
    | none => some (tryDrain 1 st, { st with buf := [] })
    | some (c, l) =>
      let (q, st) := grow o st.left [c] (({ st with sorter := l } : Ix).advance o c.stream)
      match emit o q with
      | none => none
      | some ms =>
        let st := { st with buf := st.buf ++ ms }
        match tryDrain o.rowLimit st with
        | some b => some (some b, { st with buf := [] })
        | none => nextIndexChunk o n st

/-- The row groups written, the loop of `merge`, 899. -/
def rowGroups (o : Opts) : Nat → Ix → Option (List (List MChunk))
  | 0, _ => none
  | n + 1, st =>
    match nextIndexChunk o (st.left + 1) st with
    | none => none
    | some (none, _) => some []
    | some (some g, st) => (rowGroups o n st).map (g :: ·)

/-- The row groups of each file, 884-1027: a file which is full is closed and the next one begun; a file
without row groups is removed. -/
def filesOf (full : List (List MChunk) → Bool) : List (List MChunk) → List (List MChunk) → List (List (List MChunk))
  | [], acc => if acc.isEmpty then [] else [acc]
  | g :: gs, acc => if full (acc ++ [g]) then (acc ++ [g]) :: filesOf full gs [] else filesOf full gs (acc ++ [g])

variable {V C : Type}

def Group.chunk (g : Group V C) (s : Nat) : Chunk := ⟨s, g.keys, g.lo, g.hi⟩

def chunksOf (parts : List (PartFile V C)) : List (List Chunk) :=
  parts.zipIdx.map fun p => p.1.groups.map fun g => g.chunk p.2

/-- The sorter gets one chunk per stream, 870-875. -/
def Ix.init (o : Opts) (chunks : List (List Chunk)) : Ix :=
  (List.range chunks.length).foldl (fun st s => st.advance o s) ⟨chunks, [], []⟩

def indexFiles (o : Opts) (chunks : List (List Chunk)) : Option (List (List MChunk)) :=
  (rowGroups o (chunks.flatten.length + 1) (Ix.init o chunks)).map fun gs => (filesOf o.full gs []).map List.flatten

/-! ## Data columns

The columns are written one after the other within a row group, 945-984; each has its own reader per stream, so the
model runs each column by itself over all row groups. -/

/-- The reader of one column of one stream: row groups not read, `chunk_buffer`, the temporary array and its index. -/
structure Reader (V : Type) where
  groups : List (List (List V))
  buf : List (List V)
  tmp : Option (List V)
  idx : Nat

/-- `next_chunk`, mod.rs 562-596, of a file with at least one row group. -/
def Reader.nextChunk (r : Reader V) : Option (List (List V)) × Reader V :=
  match r.groups with
  | [] => (none, { r with buf := [] })
  | g :: gs => (some g, { r with buf := [], groups := gs })

/-- `next_page`, mod.rs 598-626. -/
def Reader.nextPage (r : Reader V) : Option (List V) × Reader V :=
  match r.buf with
  | p :: ps => (some p, { r with buf := ps })
  | [] =>
    match r.nextChunk with
    | (none, r) => (none, r)
    | (some [], r) => (none, r)
    | (some (p :: ps), r) => (some p, { r with buf := ps })

/-- One step of the loop of `merge_arrays_inner!`, merge_data_arrays.rs 66-90. `none`: panic. -/
def Reader.pull (r : Reader V) : Option (V × Reader V) :=
  let loaded : Option (Reader V) :=
    match r.tmp with
    | some _ => some r
    | none =>
      match r.nextPage with
      | (none, _) => none
      | (some p, r) => some { r with tmp := some p, idx := 0 }
  match loaded with
  | none => none
  | some r =>
    match r.tmp with
    | none => none
    | some arr =>
      match arr[r.idx]? with
      | none => none
      | some v =>
        if r.idx = arr.length - 1 then some (v, { r with tmp := none, idx := 0 })
        else some (v, { r with idx := r.idx + 1 })

abbrev Readers (V : Type) := Nat → Reader V

def Readers.set (rd : Readers V) (s : Nat) (r : Reader V) : Readers V := fun i => if i = s then r else rd i

/-- `merge_arrays_inner!`, 3-106: `-1` is skipped; a stream without the column gives NULL. -/
def mergeCol (null : V) (has : Nat → Bool) (streams : List Nat) : Readers V → List (Option Nat) → Option (List V × Readers V)
  | rd, [] => some ([], rd)
  | rd, none :: ro => mergeCol null has streams rd ro
  | rd, some s :: ro =>
    if streams.contains s && has s then
      match (rd s).pull with
      | none => none
      | some (v, r) => (mergeCol null has streams (rd.set s r) ro).map fun x => (v :: x.1, x.2)
    else (mergeCol null has streams rd ro).map fun x => (null :: x.1, x.2)

/-- One column of one merged chunk, 946-971. -/
def colChunk (null : V) (has : Nat → Bool) (rd : Readers V) (m : MChunk) : Option (List V × Readers V) :=
  match m.ro with
  | .pick s n =>
    if has s then
      match (rd s).nextChunk with
      | (none, _) => none
      | (some g, r) => some (g.flatten, rd.set s r)
    else some (List.replicate n null, rd)
  | .merge order streams => mergeCol null has streams rd order

def colChunks (null : V) (has : Nat → Bool) : Readers V → List MChunk → Option (List V × Readers V)
  | rd, [] => some ([], rd)
  | rd, m :: ms =>
    match colChunk null has rd m with
    | none => none
    | some (x, rd) => (colChunks null has rd ms).map fun y => (x ++ y.1, y.2)

def colFiles (null : V) (has : Nat → Bool) : Readers V → List (List MChunk) → Option (List (List V))
  | _, [] => some []
  | rd, f :: fs =>
    match colChunks null has rd f with
    | none => none
    | some (x, rd) => (colFiles null has rd fs).map (x :: ·)

def hasAt (parts : List (PartFile V C)) (c : C) (s : Nat) : Bool :=
  match parts[s]? with
  | none => false
  | some p => p.has c

def readersOf (parts : List (PartFile V C)) (c : C) : Readers V := fun s =>
  ⟨match parts[s]? with
    | none => []
    | some p => p.groups.map fun g => g.pages c, [], none, 0⟩

/-- The column `c` of every output file. -/
def column (null : V) (parts : List (PartFile V C)) (files : List (List MChunk)) (c : C) : Option (List (List V)) :=
  colFiles null (hasAt parts c) (readersOf parts c) files

/-! ## Rows -/

/-- A row: its key and its value in every data column (NULL where the file does not have the column). -/
abbrev Row (V C : Type) := Key × (C → V)

def rowsOf (null : V) (keys : List Key) (col : C → List V) : List (Row V C) :=
  keys.zipIdx.map fun p => (p.1, fun c => ((col c)[p.2]?).getD null)

def Group.rows (null : V) (has : C → Bool) (g : Group V C) : List (Row V C) :=
  rowsOf null g.keys fun c => if has c then (g.pages c).flatten else []

def PartFile.rows (null : V) (p : PartFile V C) : List (Row V C) := p.groups.flatMap (Group.rows null p.has)

/-- `MergedFile`, 772-780, with the rows that a reader of the file finds: the minimum of the first chunk and the maximum
of the last chunk written. The size is not modelled. -/
def fileOut (null : V) (f : List MChunk) (col : C → List V) : MOut (Row V C) Key :=
  ⟨rowsOf null (f.flatMap MChunk.keys) col, 0, values f, (f.head?.map MChunk.lo).getD [], (f.getLast?.map MChunk.hi).getD []⟩

/-- `merge`, 782-834, 868-1029, with the data columns `cols`. -/
def mergeParts (null : V) (o : Opts) (cols : List C) (parts : List (PartFile V C)) : Option (List (MOut (Row V C) Key)) :=
  match indexFiles o (chunksOf parts) with
  | none => none
  | some files =>
    if cols.all fun c => (column null parts files c).isSome then
      some (files.zipIdx.map fun p => fileOut null p.1 fun c => (((column null parts files c).getD [])[p.2]?).getD [])
    else none

end OptiPrism.Storage.PMerge
