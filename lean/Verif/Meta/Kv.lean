import Verif.Meta.KeysProps
import Verif.Storage.Bytes

/-!
# The metadata store, its sequences and its indexes

The metadata crate keeps everything in one RocksDB `TransactionDB`: a map from key texts to byte
strings. A call opens a transaction, reads and writes, and commits; a call returning an error (or
panicking) drops the transaction, which rolls it back. For sequential histories a call is therefore a
function `Kv → Except Err (α × Kv)`: an error leaves the store as it was. (`Events::create` and
`get_or_create`, events.rs 210-232, commit also when `create_` fails, but `create_` only returns errors
before its first write, so this makes no difference.) Interleaved transactions are in
`Verif/Meta/Conc.lean`.
-/

namespace OptiPrism.Meta

open OptiPrism.Storage (Bytes toLE fromLE toLE_length fromLE_toLE)

/-- `MetadataError` (error.rs), by kind; `panic` is a thread panic (`unwrap`, `unimplemented!`);
`codec` a decoding failure. -/
inductive Err where
  | notFound | alreadyExists | badRequest | forbidden | internal | codec | panic
deriving DecidableEq, Repr

abbrev Kv := List (Str × Bytes)

def Kv.get (kv : Kv) (k : Str) : Option Bytes := (kv.find? (fun e => e.1 = k)).map (·.2)

def Kv.del (kv : Kv) (k : Str) : Kv := kv.filter (fun e => e.1 ≠ k)

def Kv.put (kv : Kv) (k : Str) (v : Bytes) : Kv := (k, v) :: kv.del k

theorem Kv.get_del (kv : Kv) (k k' : Str) : (kv.del k).get k' = if k' = k then none else kv.get k' := by
  induction kv with
  | nil => simp [Kv.get, Kv.del]
  | cons e kv ih =>
    unfold Kv.get Kv.del at *
    by_cases h : e.1 = k
    · simp only [List.filter_cons, h, ne_eq, not_true_eq_false, decide_false, Bool.false_eq_true, if_false,
        List.find?_cons]
      rw [ih]
      by_cases h2 : k' = k
      · simp [h2]
      · simp [h2, Ne.symm h2]
    · simp only [List.filter_cons, h, ne_eq, not_false_eq_true, decide_true, if_true, List.find?_cons]
      by_cases h2 : e.1 = k'
      · subst h2; simp [h]
      · simp only [h2, decide_false]
        exact ih

theorem Kv.get_put (kv : Kv) (k k' : Str) (v : Bytes) : (kv.put k v).get k' = if k' = k then some v else kv.get k' := by
  by_cases h : k' = k
  · subst h; simp [Kv.put, Kv.get]
  · rw [if_neg h, Kv.put]
    have := Kv.get_del kv k k'
    rw [if_neg h] at this
    rw [← this]
    simp [Kv.get, Ne.symm h]

/-- Access by key. -/
def getK (kv : Kv) (k : Key) : Option Bytes := kv.get k.render
def putK (kv : Kv) (k : Key) (v : Bytes) : Kv := kv.put k.render v
def delK (kv : Kv) (k : Key) : Kv := kv.del k.render

theorem render_eq {k k' : Key} (h : k.WF) (h' : k'.WF) : k.render = k'.render ↔ k = k' :=
  ⟨C28_keys_distinct h h', fun e => by rw [e]⟩

theorem getK_putK (kv : Kv) {k k' : Key} (h : k.WF) (h' : k'.WF) (v : Bytes) :
    getK (putK kv k v) k' = if k' = k then some v else getK kv k' := by
  rw [getK, putK, Kv.get_put]
  simp only [render_eq h' h]
  rfl

theorem getK_delK (kv : Kv) {k k' : Key} (h : k.WF) (h' : k'.WF) :
    getK (delK kv k) k' = if k' = k then none else getK kv k' := by
  rw [getK, delK, Kv.get_del]
  simp only [render_eq h' h]
  rfl

@[simp] theorem wf_data (ns : Ns) (id : Nat) : (Key.data ns id).WF := trivial
@[simp] theorem wf_idx (ns : Ns) (ix : Ix) (s : Str) : (Key.idx ns ix s).WF := trivial
@[simp] theorem wf_seq (ns : Ns) : (Key.seq ns).WF := trivial

/-- `u64::to_le_bytes`. -/
def le64 (n : Nat) : Bytes := toLE 8 n

@[simp] theorem le64_length (n : Nat) : (le64 n).length = 8 := toLE_length 8 n

theorem fromLE_le64 {n : Nat} (h : n < 2 ^ 64) : fromLE (le64 n) = n := fromLE_toLE 8 n h

theorem le64_inj {a b : Nat} (ha : a < 2 ^ 64) (hb : b < 2 ^ 64) (h : le64 a = le64 b) : a = b := by
  rw [← fromLE_le64 ha, h, fromLE_le64 hb]

/-- A call outside of a transaction of somebody else: state and answer. -/
abbrev Call (α : Type) := Kv → Except Err (α × Kv)

/-- `u64::from_le_bytes(v.try_into().unwrap())`: panics unless there are eight bytes. -/
def readU64 (v : Bytes) : Except Err Nat := if v.length = 8 then .ok (fromLE v) else .error .panic

/-- `next_seq`, index.rs 92-101. (`+ 1` wraps in release builds.) -/
def nextSeq (k : Key) : Call Nat := fun kv =>
  match getK kv k with
  | none => .ok (1, putK kv k (le64 1))
  | some v => match readU64 v with
    | .error e => .error e
    | .ok n => .ok ((n + 1) % 2 ^ 64, putK kv k (le64 ((n + 1) % 2 ^ 64)))

/-- `next_zero_seq`, index.rs 103-112. -/
def nextZeroSeq (k : Key) : Call Nat := fun kv =>
  match getK kv k with
  | none => .ok (0, putK kv k (le64 0))
  | some v => match readU64 v with
    | .error e => .error e
    | .ok n => .ok ((n + 1) % 2 ^ 64, putK kv k (le64 ((n + 1) % 2 ^ 64)))

/-- `check_insert_constraints`, index.rs 7-19: is one of the keys present? -/
def clashInsert (keys : List (Option Key)) (kv : Kv) : Bool :=
  keys.any fun | none => false | some k => (getK kv k).isSome

/-- `insert_index`, index.rs 21-30. -/
def insertIndex : List (Option Key) → Nat → Kv → Kv
  | [], _, kv => kv
  | none :: ks, id, kv => insertIndex ks id kv
  | some k :: ks, id, kv => insertIndex ks id (putK kv k (le64 id))

/-- `check_update_constraints`, index.rs 32-48, over the zipped lists. -/
def clashUpdate (pairs : List (Option Key × Option Key)) (kv : Kv) : Bool :=
  pairs.any fun
    | (none, _) => false
    | (some k, prev) => decide (some k ≠ prev) && (getK kv k).isSome

/-- `update_index`, index.rs 50-69, over the zipped lists. -/
def updateIndex : List (Option Key × Option Key) → Nat → Kv → Kv
  | [], _, kv => kv
  | (key, prev) :: ps, id, kv =>
    let kv := if key ≠ prev then (match prev with | none => kv | some p => delK kv p) else kv
    let kv := match key with | none => kv | some k => putK kv k (le64 id)
    updateIndex ps id kv

/-- `delete_index`, index.rs 71-76. -/
def deleteIndex : List (Option Key) → Kv → Kv
  | [], kv => kv
  | none :: ks, kv => deleteIndex ks kv
  | some k :: ks, kv => deleteIndex ks (delK kv k)

/-- `get_index`, index.rs 78-90. -/
def getIndex (k : Key) (kv : Kv) : Except Err Nat :=
  match getK kv k with
  | none => .error .notFound
  | some v => readU64 v

/-- Running a call: an error rolls back. -/
def runCall {α : Type} (c : Call α) (kv : Kv) : Except Err α × Kv :=
  match c kv with
  | .ok (a, kv') => (.ok a, kv')
  | .error e => (.error e, kv)

theorem insertIndex_eq (keys : List (Option Key)) (id : Nat) (kv : Kv) :
    insertIndex keys id kv = updateIndex (keys.map fun k => (k, none)) id kv := by
  induction keys generalizing kv with
  | nil => rfl
  | cons k ks ih => cases k <;> simp [insertIndex, updateIndex, ih]

theorem deleteIndex_eq (keys : List (Option Key)) (id : Nat) (kv : Kv) :
    deleteIndex keys kv = updateIndex (keys.map fun k => (none, k)) id kv := by
  induction keys generalizing kv with
  | nil => rfl
  | cons k ks ih => cases k <;> simp [deleteIndex, updateIndex, ih]

end OptiPrism.Meta
