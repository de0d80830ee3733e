import Verif.Storage.Memtable

/-!
# The write-ahead log: framing, appending and replay

Model of `hash_crc32`, `log_op`, `recover_op` and the replay loop of `try_recover_table`,
/repo/src/storage/src/db.rs 228-279 and 340-381.

The checksum is a parameter `crc : Bytes → Nat` wherever a theorem holds for every checksum
function; `crc32` below is the real one (crc32fast, IEEE polynomial, then `^ 0xFF`).
-/

namespace OptiPrism.Storage

/-- One bit of the reflected CRC-32 (polynomial 0xEDB88320). -/
def crcBit (c : Nat) : Nat := if c % 2 = 1 then (c / 2) ^^^ 0xEDB88320 else c / 2

def crcByte (c : Nat) (b : UInt8) : Nat :=
  let c := c ^^^ b.toNat
  crcBit (crcBit (crcBit (crcBit (crcBit (crcBit (crcBit (crcBit c)))))))

/-- `hash_crc32`, /repo/src/storage/src/db.rs 228-235. -/
def crc32 (bs : Bytes) : Nat := ((bs.foldl crcByte 0xFFFFFFFF) ^^^ 0xFFFFFFFF) ^^^ 0xFF

/-- `log_op`, /repo/src/storage/src/db.rs 251-265: checksum (u32 LE), length (u64 LE), payload.
Also the frame of `write_metadata`, 281-296. -/
def frame (crc : Bytes → Nat) (payload : Bytes) : Bytes :=
  toLE 4 (crc payload) ++ (toLE 8 payload.length ++ payload)

def logOp (crc : Bytes → Nat) (op : LogOp) : Bytes := frame crc op.enc

/-- `File::read` into a zero-initialised buffer of `n` bytes: at the end of the file the buffer
keeps zeros (db.rs 353-370: the byte counts of the second and third read are ignored). -/
def readUpTo (n : Nat) (bs : Bytes) : Bytes × Bytes :=
  (bs.take n ++ List.replicate (n - bs.length) 0, bs.drop n)

inductive OpenErr where
  | emptyMetadata | corrupted | decode | alloc | noLogs | badColumn | missingPart
  deriving DecidableEq, Repr

theorem readUpTo_rest_length (n : Nat) (bs : Bytes) : (readUpTo n bs).2.length ≤ bs.length := by
  simp [readUpTo]

/-- The replay loop of `try_recover_table`, /repo/src/storage/src/db.rs 351-381, collecting the
operations (their effect on the memtable is `recoverOps`). `vec![0u8; len]` panics for
`len ≥ 2^63` (`alloc`); smaller buffers are assumed to be available. -/
def replay (crc : Bytes → Nat) (bs : Bytes) : Except OpenErr (List LogOp) :=
  if _h : bs = [] then .ok []
  else
    let r0 := readUpTo 4 bs
    let r1 := readUpTo 8 r0.2
    let len := fromLE r1.1
    if 2 ^ 63 ≤ len then .error .alloc
    else
      let r2 := readUpTo len r1.2
      if fromLE r0.1 ≠ crc r2.1 then .error .corrupted
      else
        match LogOp.dec r2.1 with
        | none => .error .decode
        | some (op, _) =>
          match replay crc r2.2 with
          | .error e => .error e
          | .ok ops => .ok (op :: ops)
termination_by bs.length
decreasing_by
  simp only [readUpTo, List.length_drop]
  have : bs.length ≠ 0 := by simpa using _h
  omega

/-- The row a log record stands for: `[kv, v].concat()`, db.rs 270-271. -/
def LogOp.row : LogOp → Row
  | .insert k v => k.map KeyValue.toValue ++ v

/-- `recover_op`, /repo/src/storage/src/db.rs 267-279; `none` = index panic. -/
def recoverOp (m : Memtable) (op : LogOp) : Option Memtable := m.pushFrom 0 op.row

def recoverOps (m : Memtable) : List LogOp → Option Memtable
  | [] => some m
  | op :: ops =>
    match recoverOp m op with
    | none => none
    | some m' => recoverOps m' ops

/-- The fresh memtable built from the schema, db.rs 346-350. -/
def freshMemtable (schema : List ColType) : Memtable :=
  schema.foldl (fun m dt => m.addColumn dt) Memtable.new

/-- Replay of one log file into a fresh memtable, db.rs 344-381. -/
def openLog (crc : Bytes → Nat) (schema : List ColType) (bs : Bytes) : Except OpenErr Memtable :=
  match replay crc bs with
  | .error e => .error e
  | .ok ops =>
    match recoverOps (freshMemtable schema) ops with
    | none => .error .badColumn
    | some m => .ok m

/-! ### lemmas -/

theorem readUpTo_append {n : Nat} (a b : Bytes) (h : a.length = n) :
    readUpTo n (a ++ b) = (a, b) := by
  subst h
  simp [readUpTo]

theorem replay_nil (crc : Bytes → Nat) : replay crc [] = .ok [] := by
  unfold replay; simp

/-- One complete frame with header `c` (4 bytes) in front of anything. -/
theorem replay_frame (crc : Bytes → Nat) (c d rest : Bytes) (hc : c.length = 4)
    (hd : d.length < 2 ^ 63) :
    replay crc (c ++ (toLE 8 d.length ++ d) ++ rest) =
      (if fromLE c ≠ crc d then .error .corrupted
       else match LogOp.dec d with
        | none => .error .decode
        | some (op, _) =>
          match replay crc rest with
          | .error e => .error e
          | .ok ops => .ok (op :: ops)) := by
  rw [replay]
  have hne : c ++ (toLE 8 d.length ++ d) ++ rest ≠ [] := by
    intro h
    have := congrArg List.length h
    simp at this
  have e0 : readUpTo 4 (c ++ (toLE 8 d.length ++ d) ++ rest) = (c, toLE 8 d.length ++ (d ++ rest)) := by
    rw [List.append_assoc, List.append_assoc]
    exact readUpTo_append c _ hc
  have e1 : readUpTo 8 (toLE 8 d.length ++ (d ++ rest)) = (toLE 8 d.length, d ++ rest) :=
    readUpTo_append _ _ (by simp)
  have e2 : fromLE (toLE 8 d.length) = d.length := fromLE_toLE 8 _ (by
    have : (2:Nat) ^ 63 < 256 ^ 8 := by decide
    omega)
  have e3 : readUpTo d.length (d ++ rest) = (d, rest) := readUpTo_append _ _ rfl
  rw [dif_neg hne]
  simp only [e0, e1, e2, e3]
  rw [if_neg (by omega)]

theorem replay_logOp (crc : Bytes → Nat) (hcrc : ∀ b, crc b < 2 ^ 32) (op : LogOp) (hf : op.Fits)
    (rest : Bytes) :
    replay crc (logOp crc op ++ rest) =
      (match replay crc rest with
      | .error e => .error e
      | .ok ops => .ok (op :: ops)) := by
  have hlen : op.enc.length < 2 ^ 63 := by
    cases op with
    | insert k v => exact hf.2.2.2.2
  have h := replay_frame crc (toLE 4 (crc op.enc)) op.enc rest (by simp) hlen
  have hdec := LogOp.dec_enc op hf []
  simp only [List.append_nil] at hdec
  have hc : fromLE (toLE 4 (crc op.enc)) = crc op.enc := fromLE_toLE 4 _ (by
    have := hcrc op.enc
    have e : (256:Nat) ^ 4 = 2 ^ 32 := by decide
    omega)
  unfold logOp frame
  rw [h, hc]
  simp [hdec]

theorem replay_log (crc : Bytes → Nat) (hcrc : ∀ b, crc b < 2 ^ 32) (ops : List LogOp)
    (hf : ∀ op ∈ ops, op.Fits) (rest : Bytes) :
    replay crc (ops.flatMap (logOp crc) ++ rest) =
      (match replay crc rest with
      | .error e => .error e
      | .ok more => .ok (ops ++ more)) := by
  induction ops with
  | nil =>
    simp only [List.flatMap_nil, List.nil_append]
    cases replay crc rest <;> rfl
  | cons op ops ih =>
    simp only [List.flatMap_cons, List.append_assoc]
    rw [replay_logOp crc hcrc op (hf op (by simp)), ih (fun x hx => hf x (by simp [hx]))]
    cases replay crc rest <;> rfl

theorem Memtable.addColumn_cols (m : Memtable) (dt : ColType) :
    (m.addColumn dt).cols.map Column.dt = m.cols.map Column.dt ++ [dt] := by
  simp [Memtable.addColumn, Memtable.nullColumn]

theorem freshMemtable_spec (schema : List ColType) :
    Memtable.Rep (freshMemtable schema) [] ∧
      (freshMemtable schema).cols.map Column.dt = schema := by
  have key : ∀ (s : List ColType) (m : Memtable), Memtable.Rep m [] →
      Memtable.Rep (s.foldl (fun m dt => m.addColumn dt) m) [] ∧
      (s.foldl (fun m dt => m.addColumn dt) m).cols.map Column.dt = m.cols.map Column.dt ++ s := by
    intro s
    induction s with
    | nil => intro m h; simp [h]
    | cons dt s ih =>
      intro m h
      have := ih (m.addColumn dt) (by simpa using h.addColumn dt)
      simp only [List.foldl_cons]
      refine ⟨this.1, ?_⟩
      rw [this.2, Memtable.addColumn_cols]
      simp
  have := key schema Memtable.new Memtable.rep_new
  simpa [freshMemtable, Memtable.new] using this

theorem recoverOps_rep (ops : List LogOp) (m : Memtable) (rs : List Row) (h : Memtable.Rep m rs)
    (hne : m.cols ≠ []) (hw : ∀ op ∈ ops, op.row.length = m.cols.length) :
    ∃ m', recoverOps m ops = some m' ∧ Memtable.Rep m' (rs ++ ops.map LogOp.row) ∧
      m'.cols.map Column.dt = m.cols.map Column.dt := by
  induction ops generalizing m rs with
  | nil => exact ⟨m, rfl, by simpa using h, rfl⟩
  | cons op ops ih =>
    obtain ⟨m1, h1, h2, h3, h4⟩ := h.push op.row (hw op (by simp)) hne
    have hne1 : m1.cols ≠ [] := by
      intro e; rw [e] at h2; exact hne (List.eq_nil_of_length_eq_zero h2.symm)
    obtain ⟨m', g1, g2, g3⟩ := ih m1 (rs ++ [op.row]) h3 hne1 (fun x hx => by
      rw [h2]; exact hw x (by simp [hx]))
    refine ⟨m', by simp [recoverOps, recoverOp, h1, g1], by simpa using g2, by rw [g3, h4]⟩

end OptiPrism.Storage
