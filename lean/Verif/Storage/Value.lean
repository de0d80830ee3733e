import Verif.Storage.Bytes

/-!
# Cell values, key values and their log encoding

Model of /repo/src/storage/src/lib.rs 37-117 (`KeyValue`, `Value`, the two `From` impls) and of
`LogOp` in /repo/src/storage/src/db.rs 223-226 with its derived bincode encoding.
-/

namespace OptiPrism.Storage

/-- /repo/src/storage/src/lib.rs 37-45. Integers are bit vectors (two's complement). -/
inductive KeyValue where
  | int8 (v : BitVec (8 * 1))
  | int16 (v : BitVec (8 * 2))
  | int32 (v : BitVec (8 * 4))
  | int64 (v : BitVec (8 * 8))
  | string (s : Bytes)
  | timestamp (v : BitVec (8 * 8))
  deriving DecidableEq, Repr

/-- /repo/src/storage/src/lib.rs 71-90. -/
inductive Value where
  | null
  | int8 (v : Option (BitVec (8 * 1)))
  | int16 (v : Option (BitVec (8 * 2)))
  | int32 (v : Option (BitVec (8 * 4)))
  | int64 (v : Option (BitVec (8 * 8)))
  | boolean (v : Option Bool)
  | timestamp (v : Option (BitVec (8 * 8)))
  | decimal (v : Option (BitVec (8 * 16)))
  | string (v : Option Bytes)
  | listInt8 (v : Option (List (Option (BitVec (8 * 1)))))
  | listInt16 (v : Option (List (Option (BitVec (8 * 2)))))
  | listInt32 (v : Option (List (Option (BitVec (8 * 4)))))
  | listInt64 (v : Option (List (Option (BitVec (8 * 8)))))
  | listBoolean (v : Option (List (Option Bool)))
  | listTimestamp (v : Option (List (Option (BitVec (8 * 8)))))
  | listDecimal (v : Option (List (Option (BitVec (8 * 16)))))
  | listString (v : Option (List (Option Bytes)))
  deriving DecidableEq, Repr

/-- `impl From<&KeyValue> for Value`, /repo/src/storage/src/lib.rs 92-103. -/
def KeyValue.toValue : KeyValue → Value
  | .int8 v => .int8 (some v)
  | .int16 v => .int16 (some v)
  | .int64 v => .int64 (some v)
  | .string s => .string (some s)
  | .int32 v => .int32 (some v)
  | .timestamp v => .timestamp (some v)

/-- `impl From<&Value> for KeyValue`, /repo/src/storage/src/lib.rs 105-117.
`none` is the `unreachable!` panic. -/
def Value.toKey : Value → Option KeyValue
  | .int8 (some v) => some (.int8 v)
  | .int16 (some v) => some (.int16 v)
  | .int64 (some v) => some (.int64 v)
  | .string (some s) => some (.string s)
  | .int32 (some v) => some (.int32 v)
  | .timestamp (some v) => some (.timestamp v)
  | _ => none

theorem KeyValue.toKey_toValue (k : KeyValue) : k.toValue.toKey = some k := by
  cases k <;> rfl

theorem Value.toValue_of_toKey {v : Value} {k : KeyValue} (h : v.toKey = some k) :
    k.toValue = v := by
  unfold Value.toKey at h
  split at h <;> simp at h <;> subst h <;> rfl

theorem KeyValue.toValue_injective {a b : KeyValue} (h : a.toValue = b.toValue) : a = b := by
  have := congrArg Value.toKey h
  simpa [KeyValue.toKey_toValue] using this

/-- /repo/src/storage/src/db.rs 223-226. -/
inductive LogOp where
  | insert (key : List KeyValue) (vals : List Value)
  deriving DecidableEq, Repr

/-! ### bincode encoding (derived `Serialize`) -/

/-- Enum tag: `u32` little endian. -/
def encTag (t : Nat) : Bytes := toLE 4 t

def KeyValue.enc : KeyValue → Bytes
  | .int8 v => encTag 0 ++ encBV 1 v
  | .int16 v => encTag 1 ++ encBV 2 v
  | .int32 v => encTag 2 ++ encBV 4 v
  | .int64 v => encTag 3 ++ encBV 8 v
  | .string s => encTag 4 ++ encStr s
  | .timestamp v => encTag 5 ++ encBV 8 v

/-- Apply a constructor to a decoded payload. -/
def Dec.map {α β : Type} (f : α → β) (d : Dec α) : Dec β := fun bs =>
  match d bs with
  | none => none
  | some (a, r) => some (f a, r)

def KeyValue.dec : Dec KeyValue := fun bs =>
  match decNat 4 bs with
  | none => none
  | some (t, r) =>
    match t with
    | 0 => Dec.map .int8 (decBV 1) r
    | 1 => Dec.map .int16 (decBV 2) r
    | 2 => Dec.map .int32 (decBV 4) r
    | 3 => Dec.map .int64 (decBV 8) r
    | 4 => Dec.map .string decStr r
    | 5 => Dec.map .timestamp (decBV 8) r
    | _ => none

def Value.enc : Value → Bytes
  | .null => encTag 0
  | .int8 v => encTag 1 ++ encOpt (encBV 1) v
  | .int16 v => encTag 2 ++ encOpt (encBV 2) v
  | .int32 v => encTag 3 ++ encOpt (encBV 4) v
  | .int64 v => encTag 4 ++ encOpt (encBV 8) v
  | .boolean v => encTag 5 ++ encOpt encBool v
  | .timestamp v => encTag 6 ++ encOpt (encBV 8) v
  | .decimal v => encTag 7 ++ encOpt (encBV 16) v
  | .string v => encTag 8 ++ encOpt encStr v
  | .listInt8 v => encTag 9 ++ encOpt (encVec (encOpt (encBV 1))) v
  | .listInt16 v => encTag 10 ++ encOpt (encVec (encOpt (encBV 2))) v
  | .listInt32 v => encTag 11 ++ encOpt (encVec (encOpt (encBV 4))) v
  | .listInt64 v => encTag 12 ++ encOpt (encVec (encOpt (encBV 8))) v
  | .listBoolean v => encTag 13 ++ encOpt (encVec (encOpt encBool)) v
  | .listTimestamp v => encTag 14 ++ encOpt (encVec (encOpt (encBV 8))) v
  | .listDecimal v => encTag 15 ++ encOpt (encVec (encOpt (encBV 16))) v
  | .listString v => encTag 16 ++ encOpt (encVec (encOpt encStr)) v

def Value.dec : Dec Value := fun bs =>
  match decNat 4 bs with
  | none => none
  | some (t, r) =>
    match t with
    | 0 => some (.null, r)
    | 1 => Dec.map .int8 (decOpt (decBV 1)) r
    | 2 => Dec.map .int16 (decOpt (decBV 2)) r
    | 3 => Dec.map .int32 (decOpt (decBV 4)) r
    | 4 => Dec.map .int64 (decOpt (decBV 8)) r
    | 5 => Dec.map .boolean (decOpt decBool) r
    | 6 => Dec.map .timestamp (decOpt (decBV 8)) r
    | 7 => Dec.map .decimal (decOpt (decBV 16)) r
    | 8 => Dec.map .string (decOpt decStr) r
    | 9 => Dec.map .listInt8 (decOpt (decVec (decOpt (decBV 1)))) r
    | 10 => Dec.map .listInt16 (decOpt (decVec (decOpt (decBV 2)))) r
    | 11 => Dec.map .listInt32 (decOpt (decVec (decOpt (decBV 4)))) r
    | 12 => Dec.map .listInt64 (decOpt (decVec (decOpt (decBV 8)))) r
    | 13 => Dec.map .listBoolean (decOpt (decVec (decOpt decBool))) r
    | 14 => Dec.map .listTimestamp (decOpt (decVec (decOpt (decBV 8)))) r
    | 15 => Dec.map .listDecimal (decOpt (decVec (decOpt (decBV 16)))) r
    | 16 => Dec.map .listString (decOpt (decVec (decOpt decStr))) r
    | _ => none

def LogOp.enc : LogOp → Bytes
  | .insert k v => encTag 0 ++ (encVec KeyValue.enc k ++ encVec Value.enc v)

def LogOp.dec : Dec LogOp := fun bs =>
  match decNat 4 bs with
  | none => none
  | some (0, r) =>
    match decVec KeyValue.dec r with
    | none => none
    | some (k, r') =>
      match decVec Value.dec r' with
      | none => none
      | some (v, r'') => some (.insert k v, r'')
  | some (_, _) => none

/-! ### sizes that fit the 64-bit length fields -/

/-- A length that fits the `u64` prefix. -/
def FitsLen (n : Nat) : Prop := n < 256 ^ 8

instance (n : Nat) : Decidable (FitsLen n) := inferInstanceAs (Decidable (n < 256 ^ 8))

def KeyValue.Fits : KeyValue → Prop
  | .string s => FitsLen s.length
  | _ => True

/-- Every length inside the value fits its `u64` prefix (always true on a 64-bit machine). -/
def Value.Fits : Value → Prop
  | .string (some s) => FitsLen s.length
  | .listInt8 (some l) => FitsLen l.length
  | .listInt16 (some l) => FitsLen l.length
  | .listInt32 (some l) => FitsLen l.length
  | .listInt64 (some l) => FitsLen l.length
  | .listBoolean (some l) => FitsLen l.length
  | .listTimestamp (some l) => FitsLen l.length
  | .listDecimal (some l) => FitsLen l.length
  | .listString (some l) => FitsLen l.length ∧ ∀ s, some s ∈ l → FitsLen s.length
  | _ => True

def LogOp.Fits : LogOp → Prop
  | .insert k v => FitsLen k.length ∧ FitsLen v.length ∧ (∀ x ∈ k, x.Fits) ∧ (∀ x ∈ v, x.Fits) ∧
      (LogOp.insert k v).enc.length < 2 ^ 63

/-! ### the encodings are inverted by the decoders -/

theorem decNat_encTag (t : Nat) (h : t < 256 ^ 4) (rest : Bytes) :
    decNat 4 (encTag t ++ rest) = some (t, rest) := decNat_toLE 4 t h rest

theorem Dec.map_inverts {α β : Type} (f : α → β) {e : α → Bytes} {d : Dec α} {a : α}
    (h : Inverts e d a) (rest : Bytes) : Dec.map f d (e a ++ rest) = some (f a, rest) := by
  simp [Dec.map, h rest]

theorem KeyValue.dec_enc (k : KeyValue) (h : k.Fits) : Inverts KeyValue.enc KeyValue.dec k := by
  intro rest
  cases k <;> simp only [KeyValue.enc, KeyValue.dec, List.append_assoc] <;>
    rw [decNat_encTag _ (by decide)] <;> simp only
  · exact Dec.map_inverts _ (decBV_encBV _ _) rest
  · exact Dec.map_inverts _ (decBV_encBV _ _) rest
  · exact Dec.map_inverts _ (decBV_encBV _ _) rest
  · exact Dec.map_inverts _ (decBV_encBV _ _) rest
  · exact Dec.map_inverts _ (decStr_encStr _ h) rest
  · exact Dec.map_inverts _ (decBV_encBV _ _) rest

theorem optVec_inverts {α : Type} {e : α → Bytes} {d : Dec α} (o : Option (List (Option α)))
    (hl : ∀ l, o = some l → FitsLen l.length)
    (h : ∀ l, o = some l → ∀ a, some a ∈ l → Inverts e d a) :
    Inverts (encOpt (encVec (encOpt e))) (decOpt (decVec (decOpt d))) o := by
  apply decOpt_encOpt
  intro l hl'
  apply decVec_encVec _ (hl l hl')
  intro a ha
  apply decOpt_encOpt
  intro x hx
  exact h l hl' x (hx ▸ ha)

theorem Value.dec_enc (v : Value) (h : v.Fits) : Inverts Value.enc Value.dec v := by
  intro rest
  cases v with
  | null => simp only [Value.enc, Value.dec]; rw [decNat_encTag _ (by decide)]; rfl
  | int8 v =>
    simp only [Value.enc, Value.dec, List.append_assoc]; rw [decNat_encTag _ (by decide)]
    exact Dec.map_inverts _ (decOpt_encOpt v fun a _ => decBV_encBV _ _) rest
  | int16 v =>
    simp only [Value.enc, Value.dec, List.append_assoc]; rw [decNat_encTag _ (by decide)]
    exact Dec.map_inverts _ (decOpt_encOpt v fun a _ => decBV_encBV _ _) rest
  | int32 v =>
    simp only [Value.enc, Value.dec, List.append_assoc]; rw [decNat_encTag _ (by decide)]
    exact Dec.map_inverts _ (decOpt_encOpt v fun a _ => decBV_encBV _ _) rest
  | int64 v =>
    simp only [Value.enc, Value.dec, List.append_assoc]; rw [decNat_encTag _ (by decide)]
    exact Dec.map_inverts _ (decOpt_encOpt v fun a _ => decBV_encBV _ _) rest
  | boolean v =>
    simp only [Value.enc, Value.dec, List.append_assoc]; rw [decNat_encTag _ (by decide)]
    exact Dec.map_inverts _ (decOpt_encOpt v fun a _ => decBool_encBool _) rest
  | timestamp v =>
    simp only [Value.enc, Value.dec, List.append_assoc]; rw [decNat_encTag _ (by decide)]
    exact Dec.map_inverts _ (decOpt_encOpt v fun a _ => decBV_encBV _ _) rest
  | decimal v =>
    simp only [Value.enc, Value.dec, List.append_assoc]; rw [decNat_encTag _ (by decide)]
    exact Dec.map_inverts _ (decOpt_encOpt v fun a _ => decBV_encBV _ _) rest
  | string v =>
    simp only [Value.enc, Value.dec, List.append_assoc]; rw [decNat_encTag _ (by decide)]
    refine Dec.map_inverts _ (decOpt_encOpt v fun a ha => decStr_encStr _ ?_) rest
    subst ha; exact h
  | listInt8 v =>
    simp only [Value.enc, Value.dec, List.append_assoc]; rw [decNat_encTag _ (by decide)]
    refine Dec.map_inverts _ (optVec_inverts v ?_ fun _ _ _ _ => decBV_encBV _ _) rest
    rintro l rfl; exact h
  | listInt16 v =>
    simp only [Value.enc, Value.dec, List.append_assoc]; rw [decNat_encTag _ (by decide)]
    refine Dec.map_inverts _ (optVec_inverts v ?_ fun _ _ _ _ => decBV_encBV _ _) rest
    rintro l rfl; exact h
  | listInt32 v =>
    simp only [Value.enc, Value.dec, List.append_assoc]; rw [decNat_encTag _ (by decide)]
    refine Dec.map_inverts _ (optVec_inverts v ?_ fun _ _ _ _ => decBV_encBV _ _) rest
    rintro l rfl; exact h
  | listInt64 v =>
    simp only [Value.enc, Value.dec, List.append_assoc]; rw [decNat_encTag _ (by decide)]
    refine Dec.map_inverts _ (optVec_inverts v ?_ fun _ _ _ _ => decBV_encBV _ _) rest
    rintro l rfl; exact h
  | listBoolean v =>
    simp only [Value.enc, Value.dec, List.append_assoc]; rw [decNat_encTag _ (by decide)]
    refine Dec.map_inverts _ (optVec_inverts v ?_ fun _ _ _ _ => decBool_encBool _) rest
    rintro l rfl; exact h
  | listTimestamp v =>
    simp only [Value.enc, Value.dec, List.append_assoc]; rw [decNat_encTag _ (by decide)]
    refine Dec.map_inverts _ (optVec_inverts v ?_ fun _ _ _ _ => decBV_encBV _ _) rest
    rintro l rfl; exact h
  | listDecimal v =>
    simp only [Value.enc, Value.dec, List.append_assoc]; rw [decNat_encTag _ (by decide)]
    refine Dec.map_inverts _ (optVec_inverts v ?_ fun _ _ _ _ => decBV_encBV _ _) rest
    rintro l rfl; exact h
  | listString v =>
    simp only [Value.enc, Value.dec, List.append_assoc]; rw [decNat_encTag _ (by decide)]
    refine Dec.map_inverts _ (optVec_inverts v ?_ ?_) rest
    · rintro l rfl; exact h.1
    · rintro l rfl a ha; exact decStr_encStr _ (h.2 a ha)

theorem LogOp.dec_enc (op : LogOp) (h : op.Fits) : Inverts LogOp.enc LogOp.dec op := by
  intro rest
  cases op with
  | insert k v =>
    obtain ⟨hk, hv, hks, hvs, _⟩ := h
    have h1 := decVec_encVec (e := KeyValue.enc) (d := KeyValue.dec) k hk
      (fun a ha => KeyValue.dec_enc a (hks a ha)) (encVec Value.enc v ++ rest)
    have h2 := decVec_encVec (e := Value.enc) (d := Value.dec) v hv
      (fun a ha => Value.dec_enc a (hvs a ha)) rest
    simp only [LogOp.enc, LogOp.dec, List.append_assoc]
    rw [decNat_encTag _ (by decide)]
    simp [h1, h2]

end OptiPrism.Storage
