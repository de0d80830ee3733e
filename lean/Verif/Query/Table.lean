import Verif.Util

/-!
The operators that turn aggregates into the result table, in src/query/src/physical_plan: unpivot.rs,
pivot.rs, limit_groups.rs, rename_column_rows.rs and merge.rs.

Batches are read row by row: a row is the list of its cells in the order of the fields, `none` is
NULL. Data types are left out, casts are a parameter. `RecordBatch::try_new` fails if columns differ
in length or a column declared as not nullable has a NULL (arrow, from documentation).
-/

namespace OptiPrism.Query

abbrev Name := List Char

/-- A record batch. -/
structure Tbl (α : Type) where
  fields : List Name
  rows : List (List (Option α))

/-- The cells of a row whose field satisfies `p`. -/
def pick {α : Type} (p : Name → Bool) (fields : List Name) (row : List (Option α)) :
    List (Option α) :=
  ((fields.zip row).filter fun x => p x.1).map Prod.snd

/-! ### Unpivot -/

/-- One output row of `unpivot`: group cells, name and value. -/
structure URow (α β : Type) where
  groups : List (Option α)
  name : Name
  value : β
deriving DecidableEq

/-- Pairing of the three output columns, which must be of the same length. -/
def zip3 {α β : Type} : List (List (Option α)) → List Name → List β → Option (List (URow α β))
  | [], [], [] => some []
  | g :: gs, n :: ns, v :: vs => (zip3 gs ns vs).map fun l => ⟨g, n, v⟩ :: l
  | _, _, _ => none

/-- All values, or nothing if one is NULL. -/
def allSome {β : Type} : List (Option β) → Option (List β)
  | [] => some []
  | none :: _ => none
  | some b :: l => (allSome l).map fun r => b :: r

/-- `unpivot` (unpivot.rs 310-506): the values are those of the selected fields in the order of the
schema (436-454), the names are in the order of the selection (456-465); the value column is not
nullable (114). `none` is an error or, if no field is selected, a panic (481). -/
def unpivot {α β : Type} (cast : α → Option β) (cols : List Name) (t : Tbl α) :
    Option (List (URow α β)) :=
  if t.fields.all fun f => !cols.contains f then none
  else
    (allSome (t.rows.flatMap fun r =>
      (pick (fun f => cols.contains f) t.fields r).map fun c => c.bind cast)).bind
      (zip3 (t.rows.flatMap fun r => cols.map fun _ => pick (fun f => !cols.contains f) t.fields r)
        (t.rows.flatMap fun _ => cols))

/-! ### Pivot -/

/-- One input row of the pivot: group cells, name, value. -/
structure PRow (α β : Type) where
  groups : List (Option α)
  name : Name
  value : Option β

/-- `PivotStream` (pivot.rs 200-213): the groups found so far with their hashes and the buffer of
every result column. -/
structure PivotState (α β : Type) where
  groups : List (Nat × List (Option α))
  bufs : Name → Option (List (Option β))

inductive PErr where
  | unknownName
  | panic
deriving DecidableEq

/-- The index of a hash among the groups. -/
def hashIdx {α : Type} (h : Nat) : List (Nat × List (Option α)) → Option Nat
  | [] => none
  | g :: gs => if g.1 = h then some 0 else (hashIdx h gs).map (· + 1)

variable {α β : Type}

/-- `execute` (pivot.rs 168-174): `B` is `BUFFER_LENGTH`, 1024 in the code. -/
def pivotInit (B : Nat) (cols : List Name) : PivotState α β :=
  ⟨[], fun c => if c ∈ cols then some (List.replicate B none) else none⟩

/-- The groups and the index of the group of a row, which is added if its hash is new
(pivot.rs 268-278). -/
def groupIdx (h : List (Option α) → Nat) (groups : List (Nat × List (Option α)))
    (g : List (Option α)) : List (Nat × List (Option α)) × Nat :=
  match hashIdx (h g) groups with
  | some i => (groups, i)
  | none => (groups ++ [(h g, g)], groups.length)

/-- One row of `pivot_batch` (pivot.rs 267-301): groups are told apart by the hash `h`; a buffer
that is too short is extended once by `B`, after which the index may still be out of range. -/
def pivotRow (B : Nat) (h : List (Option α) → Nat) (st : PivotState α β) (r : PRow α β) :
    Except PErr (PivotState α β) :=
  let gi := groupIdx h st.groups r.groups
  match st.bufs r.name with
  | none => .error .unknownName
  | some buf =>
    let buf := if buf.length - 1 < gi.2 then buf ++ List.replicate B none else buf
    if gi.2 < buf.length then
      .ok ⟨gi.1, fun c => if c = r.name then some (buf.set gi.2 r.value) else st.bufs c⟩
    else .error .panic

/-- `pivot_batch` on all batches (pivot.rs 223-225, 249-304). -/
def pivotRows (B : Nat) (h : List (Option α) → Nat) :
    PivotState α β → List (PRow α β) → Except PErr (PivotState α β)
  | st, [] => .ok st
  | st, r :: rs => match pivotRow B h st r with
    | .error e => .error e
    | .ok st => pivotRows B h st rs

/-- The first `n` slots of a buffer, padded with NULL (`resize`, pivot.rs 328-333). -/
def padTo (n : Nat) (l : List (Option β)) : List (Option β) :=
  l.take n ++ List.replicate (n - l.length) none

/-- `finish` (pivot.rs 306-343): one row per group. -/
def pivotFinish (cols : List Name) (st : PivotState α β) : List (List (Option α) × List (Option β)) :=
  (st.groups.zipIdx).map fun g =>
    (g.1.2, cols.map fun c => ((padTo st.groups.length ((st.bufs c).getD []))[g.2]?).getD none)

/-- The pivot of a stream (pivot.rs 216-239). -/
def pivot (B : Nat) (h : List (Option α) → Nat) (cols : List Name) (rows : List (PRow α β)) :
    Except PErr (List (List (Option α) × List (Option β))) :=
  match pivotRows B h (pivotInit B cols) rows with
  | .error e => .error e
  | .ok st => .ok (pivotFinish cols st)

/-! ### Limit groups -/

/-- The counters of the groups from number `j` on for one row (limit_groups.rs 183-192): `false` if
the row is dropped, but the counters of the groups before stay increased. -/
def limitRow [DecidableEq α] (limit : Nat) : Nat → List (Option α) → (Nat → Option α → Nat) →
    (Nat → Option α → Nat) × Bool
  | _, [], cn => (cn, true)
  | j, v :: vs, cn =>
    if cn j v = limit then (cn, false)
    else limitRow limit (j + 1) vs
      (fun i w => if i = j ∧ w = v then cn i w + 1 else cn i w)

/-- The rows taken from a batch (limit_groups.rs 178-194), given by their group cells. -/
def limitRows [DecidableEq α] {ρ : Type} (cells : ρ → List (Option α)) (limit : Nat) :
    (Nat → Option α → Nat) → List ρ → List ρ
  | _, [] => []
  | cn, r :: rs =>
    let p := limitRow limit 0 (cells r) cn
    if p.2 then r :: limitRows cells limit p.1 rs else limitRows cells limit p.1 rs

/-- `LimitGroupsExec` on a stream of batches (limit_groups.rs 140-207): the counters start at zero
in every batch; with no groups everything is passed on (143-145). -/
def limitGroups [DecidableEq α] {ρ : Type} (groups : Nat) (cells : ρ → List (Option α))
    (limit : Nat) (batches : List (List ρ)) : List (List ρ) :=
  batches.map fun b => if groups = 0 then b else limitRows cells limit (fun _ _ => 0) b

/-! ### Rename rows -/

/-- A name after `RenameColumnRowsExec` (rename_column_rows.rs 137-150): the first entry for it, or
the name itself. -/
def renameRow (rename : List (Name × Name)) (v : Option Name) : Option Name :=
  match v with
  | none => none
  | some n => match rename.find? fun p => p.1 == n with
    | none => some n
    | some p => some p.2

/-! ### Merge -/

/-- `Schema::try_merge` without types (arrow): the fields of all streams in the order of their first
appearance, nullable if nullable in one of them. -/
def mergeSchemas : List (Name × Bool) → List (List (Name × Bool)) → List (Name × Bool)
  | acc, [] => acc
  | acc, s :: ss => mergeSchemas (s.foldl (fun acc f =>
      if acc.any fun g => g.1 == f.1 then
        acc.map fun g => if g.1 == f.1 then (g.1, g.2 || f.2) else g
      else acc ++ [f]) acc) ss

/-- The cell of the merged row for field number `idx` (merge.rs 174-194). `lift` makes a cell of a
stream name. -/
def mergeCell (lift : Name → α) (label : Option Name) (fields : List Name) (row : List (Option α))
    (idx : Nat) (f : Name) : Option α :=
  match fields.idxOf? f with
  | some j => (row[j]?).getD none
  | none => if idx = 0 then label.map lift else none

/-- `MergeStream` (merge.rs 170-208) on the batches of all streams: `none` is the error for a NULL
in a column that is not nullable (`RecordBatch::try_new`, 196). -/
def mergeBatch (lift : Name → α) (schema : List (Name × Bool)) (label : Option Name) (b : Tbl α) :
    Option (List (List (Option α))) :=
  let out := b.rows.map fun r =>
    schema.zipIdx.map fun f => mergeCell lift label b.fields r f.2 f.1.1
  if out.any fun r => (schema.zip r).any fun x => !x.1.2 && x.2.isNone then none else some out

/-- The merged stream: the batches of the first stream, then those of the second and so on.
`names` are the labels of the streams (merge.rs 170-209). -/
def mergeStreams (lift : Name → α) (schema : List (Name × Bool)) :
    List (Option Name) → List (List (Tbl α)) → Option (List (List (Option α)))
  | _, [] => some []
  | [], s :: ss =>
    (s.mapM (mergeBatch lift schema none)).bind fun o =>
      (mergeStreams lift schema [] ss).map fun r => o.flatten ++ r
  | n :: ns, s :: ss =>
    (s.mapM (mergeBatch lift schema n)).bind fun o =>
      (mergeStreams lift schema ns ss).map fun r => o.flatten ++ r

/-- The schema of the merged stream (merge.rs 53-65). -/
def mergeSchema (col : Option Name) (schemas : List (List (Name × Bool))) : List (Name × Bool) :=
  match col with
  | none => mergeSchemas [] schemas
  | some c => (c, false) :: mergeSchemas [] schemas

end OptiPrism.Query
