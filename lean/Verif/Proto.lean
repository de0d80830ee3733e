import Verif.Storage.Bytes

/-!
# The protobuf (proto3) wire format

The storage manifest (/repo/src/storage/src/pb/metadata.proto) and every record of the metadata
crate (/repo/src/metadata/src/pb/*.proto) are written by `prost` (`encode_to_vec`) and read by
`decode`. `prost` is not in /repo; this is the documented wire format, restricted to the two wire
types those schemas use: varint (0) and length-delimited (2). Other wire types are a decode error
here (`prost` would skip unknown fields of type 1 and 5).

A message is a list of fields `(number, value)`. Proto3 rules: a plain scalar equal to its default
is not written and reads as the default when absent; for repeated occurrences of a scalar the last
one wins; `optional` keeps presence; occurrences of a sub-message are merged, which is decoding the
concatenation of their bytes.

Strings are byte lists; UTF-8 validation is not modelled.
-/

namespace OptiPrism.Proto

open OptiPrism.Storage (Bytes)

/-- Base-128 varint, at most 10 bytes. -/
def encVarintF : Nat → Nat → Bytes
  | 0, _ => []
  | f + 1, n => if n < 128 then [UInt8.ofNat n] else UInt8.ofNat (n % 128 + 128) :: encVarintF f (n / 128)

def encVarint (n : Nat) : Bytes := encVarintF 10 n

def decVarintF : Nat → Bytes → Option (Nat × Bytes)
  | 0, _ => none
  | _ + 1, [] => none
  | f + 1, b :: r =>
    if b.toNat < 128 then some (b.toNat, r)
    else match decVarintF f r with
      | none => none
      | some (v, r') => some (b.toNat - 128 + 128 * v, r')

/-- Values of 2^64 and above are an error. -/
def decVarint (bs : Bytes) : Option (Nat × Bytes) :=
  match decVarintF 10 bs with
  | none => none
  | some (v, r) => if v < 2 ^ 64 then some (v, r) else none

/-- The length prefix of a length-delimited field. `prost` writes it as a varint too; no buffer reaches 2^64
bytes, so that the model has no bound here keeps size hypotheses out of every statement and changes nothing
for buffers that exist: a prefix of 2^64 or more is an error either way, because fewer bytes follow. -/
def encLen (n : Nat) : Bytes := encVarintF (n + 10) n

def decLen (bs : Bytes) : Option (Nat × Bytes) :=
  match decVarintF (bs.length + 10) bs with
  | none => none
  | some (v, r) => if v < 2 ^ 64 ∧ r.length + 10 < bs.length then none else some (v, r)

inductive WireVal where
  | varint (n : Nat)
  | len (b : Bytes)
  deriving DecidableEq, Repr

abbrev Fields := List (Nat × WireVal)

def encField (f : Nat × WireVal) : Bytes :=
  match f.2 with
  | .varint n => encVarint (f.1 * 8) ++ encVarint n
  | .len b => encVarint (f.1 * 8 + 2) ++ (encLen b.length ++ b)

def encFields (fs : Fields) : Bytes := fs.flatMap encField

def decFieldsF : Nat → Bytes → Option Fields
  | _, [] => some []
  | 0, _ :: _ => none
  | f + 1, bs@(_ :: _) =>
    match decVarint bs with
    | none => none
    | some (tag, r) =>
      if tag / 8 = 0 ∨ 2 ^ 32 ≤ tag then none
      else if tag % 8 = 0 then
        match decVarint r with
        | none => none
        | some (v, r') => (decFieldsF f r').map ((tag / 8, .varint v) :: ·)
      else if tag % 8 = 2 then
        match decLen r with
        | none => none
        | some (l, r') =>
          if l ≤ r'.length then (decFieldsF f (r'.drop l)).map ((tag / 8, .len (r'.take l)) :: ·)
          else none
      else none

def decFields (bs : Bytes) : Option Fields := decFieldsF bs.length bs

/-! ### round trip of fields -/

theorem decVarintF_enc (f n : Nat) (h : n < 128 ^ (f + 1)) (rest : Bytes) :
    decVarintF (f + 1) (encVarintF (f + 1) n ++ rest) = some (n, rest) := by
  induction f generalizing n with
  | zero =>
    have h : n < 128 := by simpa using h
    have : (UInt8.ofNat n).toNat = n := by simp; omega
    simp [decVarintF, encVarintF, h, this]
  | succ f ih =>
    unfold encVarintF
    split
    · rename_i hlt
      have : (UInt8.ofNat n).toNat = n := by simp; omega
      simp [decVarintF, this, hlt]
    · rename_i hge
      have e : (UInt8.ofNat (n % 128 + 128)).toNat = n % 128 + 128 := by simp; omega
      have hd : n / 128 < 128 ^ (f + 1) := by
        apply Nat.div_lt_of_lt_mul
        rw [Nat.pow_succ] at h
        omega
      rw [List.cons_append]
      unfold decVarintF
      rw [e, ih _ hd]
      have : ¬ (n % 128 + 128 < 128) := by omega
      simp only [this, if_false, Option.some.injEq, Prod.mk.injEq, and_true]
      omega

theorem decVarint_enc (n : Nat) (h : n < 2 ^ 64) (rest : Bytes) :
    decVarint (encVarint n ++ rest) = some (n, rest) := by
  unfold decVarint encVarint
  rw [decVarintF_enc 9 n (by omega) rest]
  simp [h]

theorem encVarintF_len (f n : Nat) : (encVarintF f n).length ≤ f := by
  induction f generalizing n with
  | zero => simp [encVarintF]
  | succ f ih =>
    unfold encVarintF
    split
    · simp
    · simp only [List.length_cons]; have := ih (n / 128); omega

/-- More fuel than needed changes nothing. -/
theorem encVarintF_fuel (f g n : Nat) (h : n < 128 ^ (f + 1)) (hg : f ≤ g) :
    encVarintF (g + 1) n = encVarintF (f + 1) n := by
  induction f generalizing g n with
  | zero =>
    have h : n < 128 := by simpa using h
    simp [encVarintF, h]
  | succ f ih =>
    obtain ⟨g, rfl⟩ : ∃ k, g = k + 1 := ⟨g - 1, by omega⟩
    unfold encVarintF
    split
    · rfl
    · rw [ih g _ (by apply Nat.div_lt_of_lt_mul; rw [Nat.pow_succ] at h; omega) (by omega)]

theorem decVarintF_enc_len (f n k : Nat) (h : n < 128 ^ (f + 1)) (rest : Bytes) :
    decVarintF ((encVarintF (f + 1) n).length + k) (encVarintF (f + 1) n ++ rest) = some (n, rest) := by
  induction f generalizing n with
  | zero =>
    have h : n < 128 := by simpa using h
    have : (UInt8.ofNat n).toNat = n := by simp; omega
    have e : encVarintF 1 n = [UInt8.ofNat n] := by simp [encVarintF, h]
    rw [e, List.length_singleton, Nat.add_comm 1 k]
    simp [decVarintF, h, this]
  | succ f ih =>
    unfold encVarintF
    split
    · rename_i hlt
      have : (UInt8.ofNat n).toNat = n := by simp; omega
      rw [List.length_singleton, Nat.add_comm 1 k]
      simp [decVarintF, this, hlt]
    · rename_i hge
      have e : (UInt8.ofNat (n % 128 + 128)).toNat = n % 128 + 128 := by simp; omega
      have hd : n / 128 < 128 ^ (f + 1) := by
        apply Nat.div_lt_of_lt_mul
        rw [Nat.pow_succ] at h
        omega
      rw [List.cons_append, List.length_cons,
        show (encVarintF (f + 1) (n / 128)).length + 1 + k = ((encVarintF (f + 1) (n / 128)).length + k) + 1 by omega]
      unfold decVarintF
      rw [e, ih _ hd]
      have : ¬ (n % 128 + 128 < 128) := by omega
      simp only [this, if_false, Option.some.injEq, Prod.mk.injEq, and_true]
      omega

theorem lt_pow128 (n : Nat) : n < 128 ^ (n + 1) := by
  induction n with
  | zero => decide
  | succ n ih => rw [Nat.pow_succ]; omega

theorem encLen_len (n : Nat) (h : n < 2 ^ 64) : (encLen n).length ≤ 10 := by
  unfold encLen
  rw [encVarintF_fuel 9 (n + 9) n (by omega) (by omega)]
  exact encVarintF_len 10 n

theorem decLen_enc (n : Nat) (rest : Bytes) : decLen (encLen n ++ rest) = some (n, rest) := by
  have hn := lt_pow128 n
  have key : decVarintF ((encLen n ++ rest).length + 10) (encLen n ++ rest) = some (n, rest) := by
    rw [List.length_append, Nat.add_assoc]
    exact decVarintF_enc_len (n + 9) n _ (Nat.lt_of_lt_of_le hn (Nat.pow_le_pow_right (by omega) (by omega))) rest
  unfold decLen
  rw [key]
  have : ¬ (n < 2 ^ 64 ∧ rest.length + 10 < (encLen n ++ rest).length) := by
    rintro ⟨h1, h2⟩
    have := encLen_len n h1
    simp only [List.length_append] at h2
    omega
  simp only [if_neg this]

theorem encVarintF_ne (f n : Nat) : encVarintF (f + 1) n ≠ [] := by
  unfold encVarintF; split <;> simp

theorem encVarint_ne (n : Nat) : encVarint n ≠ [] := encVarintF_ne 9 n

/-- Field numbers and varints in range. Lengths are bounded by the size of the message. -/
def WF (fs : Fields) : Prop :=
  ∀ f ∈ fs, 1 ≤ f.1 ∧ f.1 < 2 ^ 29 ∧ ∀ n, f.2 = .varint n → n < 2 ^ 64

theorem WF.append {a b : Fields} (ha : WF a) (hb : WF b) : WF (a ++ b) := by
  intro f hf
  rcases List.mem_append.mp hf with h | h
  · exact ha f h
  · exact hb f h

theorem encField_length_pos (f : Nat × WireVal) : 1 ≤ (encField f).length := by
  obtain ⟨n, v⟩ := f
  have := encVarint_ne (n * 8)
  have h2 := encVarint_ne (n * 8 + 2)
  have l1 : 1 ≤ (encVarint (n * 8)).length := List.length_pos_iff.mpr this
  have l2 : 1 ≤ (encVarint (n * 8 + 2)).length := List.length_pos_iff.mpr h2
  cases v <;> simp only [encField, List.length_append] <;> omega

theorem decFieldsF_enc (fs : Fields) (hw : WF fs) (fuel : Nat)
    (hf : (encFields fs).length ≤ fuel) : decFieldsF fuel (encFields fs) = some fs := by
  induction fs generalizing fuel with
  | nil => cases fuel <;> rfl
  | cons f fs ih =>
    have hcons : encFields (f :: fs) = encField f ++ encFields fs := by simp [encFields]
    rw [hcons] at hf ⊢
    simp only [List.length_append] at hf
    have hpos := encField_length_pos f
    obtain ⟨fuel, rfl⟩ : ∃ k, fuel = k + 1 := ⟨fuel - 1, by omega⟩
    have ih' := ih (fun x hx => hw x (by simp [hx])) fuel (by omega)
    obtain ⟨h1, h2, h3⟩ := hw f (by simp)
    obtain ⟨n, v⟩ := f
    simp only at h1 h2 h3
    have hne : encField (n, v) ++ encFields fs ≠ [] := by
      intro e
      have := congrArg List.length e
      simp only [List.length_append, List.length_nil] at this
      omega
    obtain ⟨b, bs, hb⟩ := List.exists_cons_of_ne_nil hne
    rw [hb]
    unfold decFieldsF
    rw [← hb]
    cases v with
    | varint v =>
      have hv := h3 v rfl
      simp only [encField, List.append_assoc]
      rw [decVarint_enc (n * 8) (by omega)]
      have e1 : n * 8 / 8 = n := by omega
      have e2 : n * 8 % 8 = 0 := by omega
      have e3 : ¬ (n = 0 ∨ 2 ^ 32 ≤ n * 8) := by omega
      simp only [e1, e2, e3, if_false, if_true]
      rw [decVarint_enc v hv]
      simp [ih']
    | len p =>
      simp only [encField, List.append_assoc]
      rw [decVarint_enc (n * 8 + 2) (by omega)]
      have e1 : (n * 8 + 2) / 8 = n := by omega
      have e2 : (n * 8 + 2) % 8 = 2 := by omega
      have e3 : ¬ (n = 0 ∨ 2 ^ 32 ≤ n * 8 + 2) := by omega
      simp only [e1, e2, e3, if_false, if_true]
      rw [decLen_enc p.length]
      simp [ih']

/-- Reading back what was written. -/
theorem decFields_enc (fs : Fields) (hw : WF fs) :
    decFields (encFields fs) = some fs := decFieldsF_enc fs hw _ (Nat.le_refl _)

theorem len_le_encFields {fs : Fields} {n : Nat} {b : Bytes} (h : (n, WireVal.len b) ∈ fs) :
    b.length ≤ (encFields fs).length := by
  induction fs with
  | nil => cases h
  | cons f fs ih =>
    have hcons : encFields (f :: fs) = encField f ++ encFields fs := by simp [encFields]
    rw [hcons, List.length_append]
    rcases List.mem_cons.mp h with rfl | h
    · simp only [encField, List.length_append]; omega
    · have := ih h; omega

/-! ### typed access -/

/-- All occurrences of field `n`, in order. -/
def vals (n : Nat) (fs : Fields) : List WireVal := (fs.filter fun f => f.1 == n).map Prod.snd

def WireVal.asVarint : WireVal → Option Nat
  | .varint n => some n
  | .len _ => none

def WireVal.asLen : WireVal → Option Bytes
  | .varint _ => none
  | .len b => some b

/-- `uint64` / `uint32` / `int64` / `bool` / enum without presence. -/
def getU64 (n : Nat) (fs : Fields) : Option Nat :=
  ((vals n fs).mapM WireVal.asVarint).map fun l => l.getLast?.getD 0

def getBool (n : Nat) (fs : Fields) : Option Bool := (getU64 n fs).map fun v => v != 0

def getOptU64 (n : Nat) (fs : Fields) : Option (Option Nat) :=
  ((vals n fs).mapM WireVal.asVarint).map fun l => l.getLast?

/-- `string` / `bytes` without presence. -/
def getStr (n : Nat) (fs : Fields) : Option Bytes :=
  ((vals n fs).mapM WireVal.asLen).map fun l => l.getLast?.getD []

def getOptStr (n : Nat) (fs : Fields) : Option (Option Bytes) :=
  ((vals n fs).mapM WireVal.asLen).map fun l => l.getLast?

/-- `repeated` strings or messages. -/
def getRep (n : Nat) (fs : Fields) : Option (List Bytes) := (vals n fs).mapM WireVal.asLen

/-- A sub-message: occurrences are merged, i.e. their bytes are concatenated. -/
def getMsg (n : Nat) (fs : Fields) : Option (Option Bytes) :=
  ((vals n fs).mapM WireVal.asLen).map fun l => if l.isEmpty then none else some l.flatten

def putU64 (n v : Nat) : Fields := if v = 0 then [] else [(n, .varint v)]
def putBool (n : Nat) (b : Bool) : Fields := if b then [(n, .varint 1)] else []
def putOptU64 (n : Nat) (v : Option Nat) : Fields := v.toList.map fun v => (n, .varint v)
def putStr (n : Nat) (s : Bytes) : Fields := if s = [] then [] else [(n, .len s)]
def putOptStr (n : Nat) (s : Option Bytes) : Fields := s.toList.map fun s => (n, .len s)
def putRep (n : Nat) (l : List Bytes) : Fields := l.map fun b => (n, .len b)
def putMsg (n : Nat) (b : Bytes) : Fields := [(n, .len b)]
def putOptMsg (n : Nat) (b : Option Bytes) : Fields := b.toList.map fun b => (n, .len b)

@[simp] theorem vals_nil (n : Nat) : vals n [] = [] := rfl

@[simp] theorem vals_append (n : Nat) (a b : Fields) : vals n (a ++ b) = vals n a ++ vals n b := by
  simp [vals]

theorem vals_of_forall {n m : Nat} {fs : Fields} (h : ∀ f ∈ fs, f.1 = m) (hne : n ≠ m) :
    vals n fs = [] := by
  unfold vals
  rw [List.map_eq_nil_iff, List.filter_eq_nil_iff]
  intro f hf
  have := h f hf
  simp only [beq_iff_eq]
  omega

theorem vals_of_forall_same {n : Nat} {fs : Fields} (h : ∀ f ∈ fs, f.1 = n) :
    vals n fs = fs.map Prod.snd := by
  unfold vals
  rw [List.filter_eq_self.mpr]
  intro f hf
  simp [h f hf]

section nums
theorem num_putU64 {n v : Nat} : ∀ f ∈ putU64 n v, f.1 = n := by
  unfold putU64; split <;> simp
theorem num_putBool {n : Nat} {b : Bool} : ∀ f ∈ putBool n b, f.1 = n := by
  unfold putBool; split <;> simp
theorem num_putOptU64 {n : Nat} {v : Option Nat} : ∀ f ∈ putOptU64 n v, f.1 = n := by
  cases v <;> simp [putOptU64]
theorem num_putStr {n : Nat} {s : Bytes} : ∀ f ∈ putStr n s, f.1 = n := by
  unfold putStr; split <;> simp
theorem num_putOptStr {n : Nat} {s : Option Bytes} : ∀ f ∈ putOptStr n s, f.1 = n := by
  cases s <;> simp [putOptStr]
theorem num_putRep {n : Nat} {l : List Bytes} : ∀ f ∈ putRep n l, f.1 = n := by
  simp [putRep]
theorem num_putMsg {n : Nat} {b : Bytes} : ∀ f ∈ putMsg n b, f.1 = n := by simp [putMsg]
theorem num_putOptMsg {n : Nat} {s : Option Bytes} : ∀ f ∈ putOptMsg n s, f.1 = n := by
  cases s <;> simp [putOptMsg]
end nums

@[simp] theorem vals_putU64_ne {n m v : Nat} (h : n ≠ m) : vals n (putU64 m v) = [] :=
  vals_of_forall num_putU64 h
@[simp] theorem vals_putBool_ne {n m : Nat} {v : Bool} (h : n ≠ m) : vals n (putBool m v) = [] :=
  vals_of_forall num_putBool h
@[simp] theorem vals_putOptU64_ne {n m : Nat} {v : Option Nat} (h : n ≠ m) :
    vals n (putOptU64 m v) = [] := vals_of_forall num_putOptU64 h
@[simp] theorem vals_putStr_ne {n m : Nat} {v : Bytes} (h : n ≠ m) : vals n (putStr m v) = [] :=
  vals_of_forall num_putStr h
@[simp] theorem vals_putOptStr_ne {n m : Nat} {v : Option Bytes} (h : n ≠ m) :
    vals n (putOptStr m v) = [] := vals_of_forall num_putOptStr h
@[simp] theorem vals_putRep_ne {n m : Nat} {v : List Bytes} (h : n ≠ m) :
    vals n (putRep m v) = [] := vals_of_forall num_putRep h
@[simp] theorem vals_putMsg_ne {n m : Nat} {v : Bytes} (h : n ≠ m) : vals n (putMsg m v) = [] :=
  vals_of_forall num_putMsg h
@[simp] theorem vals_putOptMsg_ne {n m : Nat} {v : Option Bytes} (h : n ≠ m) :
    vals n (putOptMsg m v) = [] := vals_of_forall num_putOptMsg h

theorem getU64_of {n v : Nat} {fs : Fields} (h : vals n fs = vals n (putU64 n v)) :
    getU64 n fs = some v := by
  unfold getU64
  rw [h, vals_of_forall_same num_putU64]
  unfold putU64
  split <;> simp_all [WireVal.asVarint]

theorem getBool_of {n : Nat} {b : Bool} {fs : Fields} (h : vals n fs = vals n (putBool n b)) :
    getBool n fs = some b := by
  unfold getBool getU64
  rw [h, vals_of_forall_same num_putBool]
  cases b <;> simp [putBool, WireVal.asVarint]

theorem getOptU64_of {n : Nat} {v : Option Nat} {fs : Fields}
    (h : vals n fs = vals n (putOptU64 n v)) : getOptU64 n fs = some v := by
  unfold getOptU64
  rw [h, vals_of_forall_same num_putOptU64]
  cases v <;> simp [putOptU64, WireVal.asVarint]

theorem getStr_of {n : Nat} {s : Bytes} {fs : Fields} (h : vals n fs = vals n (putStr n s)) :
    getStr n fs = some s := by
  unfold getStr
  rw [h, vals_of_forall_same num_putStr]
  unfold putStr
  split <;> simp_all [WireVal.asLen]

theorem getOptStr_of {n : Nat} {s : Option Bytes} {fs : Fields}
    (h : vals n fs = vals n (putOptStr n s)) : getOptStr n fs = some s := by
  unfold getOptStr
  rw [h, vals_of_forall_same num_putOptStr]
  cases s <;> simp [putOptStr, WireVal.asLen]

theorem mapM_asLen (l : List Bytes) : (l.map WireVal.len).mapM WireVal.asLen = some l := by
  induction l with
  | nil => rfl
  | cons a l ih => simp [List.mapM_cons, ih, WireVal.asLen]

theorem getRep_of {n : Nat} {l : List Bytes} {fs : Fields}
    (h : vals n fs = vals n (putRep n l)) : getRep n fs = some l := by
  unfold getRep
  rw [h, vals_of_forall_same num_putRep]
  simp only [putRep, List.map_map, Function.comp_def]
  exact mapM_asLen l

theorem getMsg_of {n : Nat} {b : Bytes} {fs : Fields}
    (h : vals n fs = vals n (putMsg n b)) : getMsg n fs = some (some b) := by
  unfold getMsg
  rw [h, vals_of_forall_same num_putMsg]
  simp [putMsg, WireVal.asLen]

theorem getOptMsg_of {n : Nat} {b : Option Bytes} {fs : Fields}
    (h : vals n fs = vals n (putOptMsg n b)) : getMsg n fs = some b := by
  unfold getMsg
  rw [h, vals_of_forall_same num_putOptMsg]
  cases b <;> simp [putOptMsg, WireVal.asLen]

section wf
theorem WF_nil : WF [] := by intro f hf; cases hf
theorem WF_putU64 {n v : Nat} (h1 : 1 ≤ n ∧ n < 2 ^ 29) (h : v < 2 ^ 64) : WF (putU64 n v) := by
  unfold putU64; split
  · exact WF_nil
  · intro f hf
    simp at hf; subst hf
    exact ⟨h1.1, h1.2, by intro m e; injection e with e; omega⟩
theorem WF_putBool {n : Nat} {b : Bool} (h1 : 1 ≤ n ∧ n < 2 ^ 29) : WF (putBool n b) := by
  unfold putBool; split
  · intro f hf
    simp at hf; subst hf
    exact ⟨h1.1, h1.2, by intro m e; injection e with e; omega⟩
  · exact WF_nil
theorem WF_putOptU64 {n : Nat} {v : Option Nat} (h1 : 1 ≤ n ∧ n < 2 ^ 29)
    (h : ∀ x, v = some x → x < 2 ^ 64) : WF (putOptU64 n v) := by
  cases v with
  | none => exact WF_nil
  | some x =>
    intro f hf
    simp [putOptU64] at hf; subst hf
    exact ⟨h1.1, h1.2, by intro m e; injection e with e; have := h x rfl; omega⟩
theorem WF_putStr {n : Nat} {s : Bytes} (h1 : 1 ≤ n ∧ n < 2 ^ 29) : WF (putStr n s) := by
  unfold putStr; split
  · exact WF_nil
  · intro f hf
    simp at hf; subst hf
    exact ⟨h1.1, h1.2, by intro m e; cases e⟩
theorem WF_putOptStr {n : Nat} {s : Option Bytes} (h1 : 1 ≤ n ∧ n < 2 ^ 29) :
    WF (putOptStr n s) := by
  cases s with
  | none => exact WF_nil
  | some x =>
    intro f hf
    simp [putOptStr] at hf; subst hf
    exact ⟨h1.1, h1.2, by intro m e; cases e⟩
theorem WF_putRep {n : Nat} {l : List Bytes} (h1 : 1 ≤ n ∧ n < 2 ^ 29) : WF (putRep n l) := by
  intro f hf
  obtain ⟨b, _, rfl⟩ := List.mem_map.mp hf
  exact ⟨h1.1, h1.2, by intro m e; cases e⟩
theorem WF_putMsg {n : Nat} {b : Bytes} (h1 : 1 ≤ n ∧ n < 2 ^ 29) : WF (putMsg n b) := by
  intro f hf
  simp [putMsg] at hf; subst hf
  exact ⟨h1.1, h1.2, by intro m e; cases e⟩
theorem WF_putOptMsg {n : Nat} {b : Option Bytes} (h1 : 1 ≤ n ∧ n < 2 ^ 29) :
    WF (putOptMsg n b) := by
  cases b with
  | none => exact WF_nil
  | some x =>
    intro f hf
    simp [putOptMsg] at hf; subst hf
    exact ⟨h1.1, h1.2, by intro m e; cases e⟩
end wf

/-- Decoding all occurrences of a repeated message. -/
theorem mapM_inverse {α β : Type} (enc : α → β) (dec : β → Option α) (l : List α)
    (h : ∀ a ∈ l, dec (enc a) = some a) : (l.map enc).mapM dec = some l := by
  induction l with
  | nil => rfl
  | cons a l ih =>
    simp [List.mapM_cons, h a (by simp), ih (fun x hx => h x (by simp [hx]))]

end OptiPrism.Proto
