/-!
# Bytes, little-endian integers and a bincode-style codec

Model of the byte encodings used by the storage crate.

* `toLE` / `fromLE`: `uN::to_le_bytes` / `uN::from_le_bytes`
  (/repo/src/storage/src/db.rs 255-257, 309-312, 360-365).
* the `enc*` / `dec*` pairs: bincode 1.3.3 with its default `serialize` / `deserialize`
  configuration (fixed-width little-endian integers, `u32` enum tags, `u64` lengths, one-byte
  option tags, trailing bytes allowed), used in /repo/src/storage/src/db.rs 252 and 377.
  bincode itself is not in /repo; this is its documented format.

Simplification: a Rust `String` is modelled by its byte content; UTF-8 validation on decode is
not modelled.
-/

namespace OptiPrism.Storage

abbrev Bytes := List UInt8

/-- `k` little-endian bytes of `n` (truncating like an `as uN` cast). -/
def toLE : Nat → Nat → Bytes
  | 0, _ => []
  | k + 1, n => UInt8.ofNat (n % 256) :: toLE k (n / 256)

/-- Little-endian value of a byte string. -/
def fromLE : Bytes → Nat
  | [] => 0
  | b :: bs => b.toNat + 256 * fromLE bs

@[simp] theorem toLE_length (k n : Nat) : (toLE k n).length = k := by
  induction k generalizing n with
  | zero => rfl
  | succ k ih => simp [toLE, ih]

theorem fromLE_toLE (k n : Nat) (h : n < 256 ^ k) : fromLE (toLE k n) = n := by
  induction k generalizing n with
  | zero => simp at h; simp [toLE, fromLE, h]
  | succ k ih =>
    have h1 : n / 256 < 256 ^ k := by
      apply Nat.div_lt_of_lt_mul
      rw [Nat.pow_succ] at h
      omega
    have h2 : (UInt8.ofNat (n % 256)).toNat = n % 256 := by
      simp
    simp only [toLE, fromLE, ih _ h1, h2]
    omega

theorem fromLE_lt (bs : Bytes) : fromLE bs < 256 ^ bs.length := by
  induction bs with
  | nil => simp [fromLE]
  | cons b bs ih =>
    have hb : b.toNat < 256 := b.toNat_lt
    simp only [fromLE, List.length_cons, Nat.pow_succ]
    omega

theorem toLE_fromLE (bs : Bytes) : toLE bs.length (fromLE bs) = bs := by
  induction bs with
  | nil => rfl
  | cons b bs ih =>
    have hb : b.toNat < 256 := b.toNat_lt
    have h1 : (b.toNat + 256 * fromLE bs) % 256 = b.toNat := by omega
    have h2 : (b.toNat + 256 * fromLE bs) / 256 = fromLE bs := by omega
    simp [toLE, fromLE, h1, h2, ih]

/-- A decoder consumes a prefix of the input and returns the rest. -/
abbrev Dec (α : Type) := Bytes → Option (α × Bytes)

/-- Decoder `d` inverts encoder `e` on `a`, whatever follows. -/
def Inverts {α : Type} (e : α → Bytes) (d : Dec α) (a : α) : Prop :=
  ∀ rest, d (e a ++ rest) = some (a, rest)

/-- Exactly `n` bytes, or failure. -/
def decBytes (n : Nat) : Dec Bytes := fun bs =>
  if n ≤ bs.length then some (bs.take n, bs.drop n) else none

theorem decBytes_append (a rest : Bytes) : decBytes a.length (a ++ rest) = some (a, rest) := by
  simp [decBytes]

/-- Unsigned little-endian integer of `k` bytes. -/
def decNat (k : Nat) : Dec Nat := fun bs =>
  match decBytes k bs with
  | none => none
  | some (b, r) => some (fromLE b, r)

theorem decNat_toLE (k n : Nat) (h : n < 256 ^ k) : Inverts (toLE k) (decNat k) n := by
  intro rest
  have := decBytes_append (toLE k n) rest
  rw [toLE_length] at this
  simp [decNat, this, fromLE_toLE k n h]

/-- Fixed-width integers are bit vectors; `8 * k` bits are `k` bytes. -/
def encBV (k : Nat) (v : BitVec (8 * k)) : Bytes := toLE k v.toNat

def decBV (k : Nat) : Dec (BitVec (8 * k)) := fun bs =>
  match decNat k bs with
  | none => none
  | some (n, r) => some (BitVec.ofNat _ n, r)

theorem decBV_encBV (k : Nat) (v : BitVec (8 * k)) : Inverts (encBV k) (decBV k) v := by
  intro rest
  have hv : v.toNat < 256 ^ k := by
    have := v.isLt
    rw [Nat.pow_mul] at this
    simpa using this
  have := decNat_toLE k v.toNat hv rest
  simp [encBV, decBV, this]

/-- `bool` is one byte; anything but 0/1 is rejected. -/
def encBool (b : Bool) : Bytes := [if b then 1 else 0]

def decBool : Dec Bool
  | [] => none
  | b :: r => if b = 0 then some (false, r) else if b = 1 then some (true, r) else none

theorem decBool_encBool (b : Bool) : Inverts encBool decBool b := by
  intro rest; cases b <;> simp [encBool, decBool]

/-- `Option`: tag byte then payload. -/
def encOpt {α : Type} (e : α → Bytes) : Option α → Bytes
  | none => [0]
  | some a => 1 :: e a

def decOpt {α : Type} (d : Dec α) : Dec (Option α)
  | [] => none
  | b :: r =>
    if b = 0 then some (none, r)
    else if b = 1 then
      match d r with
      | none => none
      | some (a, r') => some (some a, r')
    else none

theorem decOpt_encOpt {α : Type} {e : α → Bytes} {d : Dec α} (o : Option α)
    (h : ∀ a, o = some a → Inverts e d a) : Inverts (encOpt e) (decOpt d) o := by
  intro rest
  cases o with
  | none => simp [encOpt, decOpt]
  | some a =>
    have := h a rfl rest
    simp [encOpt, decOpt, this]

/-- `n` items in sequence. -/
def decMany {α : Type} (d : Dec α) : Nat → Dec (List α)
  | 0, bs => some ([], bs)
  | n + 1, bs =>
    match d bs with
    | none => none
    | some (a, r) =>
      match decMany d n r with
      | none => none
      | some (as, r') => some (a :: as, r')

theorem decMany_enc {α : Type} {e : α → Bytes} {d : Dec α} (l : List α)
    (h : ∀ a ∈ l, Inverts e d a) (rest : Bytes) :
    decMany d l.length (l.flatMap e ++ rest) = some (l, rest) := by
  induction l with
  | nil => simp [decMany]
  | cons a l ih =>
    have h1 := h a (by simp)
    have h2 := ih (fun x hx => h x (by simp [hx]))
    simp only [List.length_cons, List.flatMap_cons, decMany, List.append_assoc]
    rw [h1 _]
    simp [h2]

/-- `Vec<T>`: `u64` length then the items. -/
def encVec {α : Type} (e : α → Bytes) (l : List α) : Bytes :=
  toLE 8 l.length ++ l.flatMap e

def decVec {α : Type} (d : Dec α) : Dec (List α) := fun bs =>
  match decNat 8 bs with
  | none => none
  | some (n, r) => decMany d n r

theorem decVec_encVec {α : Type} {e : α → Bytes} {d : Dec α} (l : List α)
    (hl : l.length < 256 ^ 8) (h : ∀ a ∈ l, Inverts e d a) :
    Inverts (encVec e) (decVec d) l := by
  intro rest
  have h1 := decNat_toLE 8 l.length hl (l.flatMap e ++ rest)
  simp [encVec, decVec, h1, decMany_enc l h rest]

/-- `String`: `u64` length then the bytes. -/
def encStr (s : Bytes) : Bytes := toLE 8 s.length ++ s

def decStr : Dec Bytes := fun bs =>
  match decNat 8 bs with
  | none => none
  | some (n, r) => decBytes n r

theorem decStr_encStr (s : Bytes) (h : s.length < 256 ^ 8) : Inverts encStr decStr s := by
  intro rest
  have h1 := decNat_toLE 8 s.length h (s ++ rest)
  simp [encStr, decStr, h1, decBytes_append]

end OptiPrism.Storage
