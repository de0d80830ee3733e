import Verif.Storage.Log

/-!
# Properties of the write-ahead log and of unflushed point reads

C01, C02, C03, C05. The specifications only use lists of rows and byte strings.
-/

namespace OptiPrism.Storage

/-- An insert that was logged for a table of `n` columns: the record has one cell per column. -/
def FullRow (n : Nat) (op : LogOp) : Prop := op.row.length = n

/-! ## C01 -/

/-- C01: for every checksum function with 32-bit values and every list of inserts with
machine-representable sizes, opening the log they wrote gives a memtable whose rows are exactly
the inserted rows in insertion order (and one column per schema field). -/
theorem C01_log_round_trip (crc : Bytes → Nat) (hcrc : ∀ b, crc b < 2 ^ 32)
    (schema : List ColType) (hs : schema ≠ []) (ops : List LogOp)
    (hf : ∀ op ∈ ops, op.Fits) (hw : ∀ op ∈ ops, FullRow schema.length op) :
    ∃ m, openLog crc schema (ops.flatMap (logOp crc)) = .ok m ∧
      m.rows = some (ops.map LogOp.row) ∧ m.cols.map Column.dt = schema := by
  have h := replay_log crc hcrc ops hf []
  simp only [List.append_nil, replay_nil] at h
  obtain ⟨hrep, hdt⟩ := freshMemtable_spec schema
  have hlen : (freshMemtable schema).cols.length = schema.length := by
    have := congrArg List.length hdt; simpa using this
  have hne : (freshMemtable schema).cols ≠ [] := by
    intro e; rw [e] at hdt; exact hs (by simpa using hdt.symm)
  obtain ⟨m, h1, h2, h3⟩ := recoverOps_rep ops _ _ hrep hne
    (fun op ho => by rw [hlen]; exact hw op ho)
  refine ⟨m, by simp [openLog, h, h1], by simpa using h2.rows, by rw [h3, hdt]⟩

/-- Replay recovers the records themselves (keys and values), not only the rows. -/
theorem C01_replay_round_trip (crc : Bytes → Nat) (hcrc : ∀ b, crc b < 2 ^ 32)
    (ops : List LogOp) (hf : ∀ op ∈ ops, op.Fits) :
    replay crc (ops.flatMap (logOp crc)) = .ok ops := by
  have h := replay_log crc hcrc ops hf []
  simpa [replay_nil] using h

/-- A two-row log with a string, a null and a list: used as the non-trivial instance below. -/
def sampleOps : List LogOp :=
  [.insert [.int64 1, .int64 (-7)] [.string (some [104, 105]), .null],
   .insert [.int64 1, .int64 9] [.string none, .listInt8 (some [some 3, none])]]

theorem sampleOps_fits : ∀ op ∈ sampleOps, op.Fits := by
  intro op h
  simp only [sampleOps, List.mem_cons, List.not_mem_nil, or_false] at h
  rcases h with rfl | rfl
  · refine ⟨by decide, by decide, ?_, ?_, by decide⟩
    · intro x hx; simp at hx; rcases hx with rfl | rfl <;> trivial
    · intro x hx; simp at hx; rcases hx with rfl | rfl <;> simp [Value.Fits, FitsLen]
  · refine ⟨by decide, by decide, ?_, ?_, by decide⟩
    · intro x hx; simp at hx; rcases hx with rfl | rfl <;> trivial
    · intro x hx; simp at hx; rcases hx with rfl | rfl <;> simp [Value.Fits, FitsLen]

theorem crcBit_lt (c : Nat) (h : c < 2 ^ 32) : crcBit c < 2 ^ 32 := by
  unfold crcBit
  split
  · exact Nat.xor_lt_two_pow (by omega) (by decide)
  · omega

theorem crcByte_lt (c : Nat) (b : UInt8) (h : c < 2 ^ 32) : crcByte c b < 2 ^ 32 := by
  have hb : b.toNat < 2 ^ 32 := by have := b.toNat_lt; omega
  have := Nat.xor_lt_two_pow h hb
  unfold crcByte
  exact crcBit_lt _ (crcBit_lt _ (crcBit_lt _ (crcBit_lt _ (crcBit_lt _ (crcBit_lt _
    (crcBit_lt _ (crcBit_lt _ this)))))))

/-- The real checksum is a 32-bit value, so C01 applies to it. -/
theorem crc32_lt (bs : Bytes) : crc32 bs < 2 ^ 32 := by
  have key : ∀ (bs : Bytes) (c : Nat), c < 2 ^ 32 → bs.foldl crcByte c < 2 ^ 32 := by
    intro bs
    induction bs with
    | nil => intro c h; exact h
    | cons b bs ih => intro c h; exact ih _ (crcByte_lt c b h)
  exact Nat.xor_lt_two_pow (Nat.xor_lt_two_pow (key bs _ (by decide)) (by decide)) (by decide)

example : ∃ m, openLog crc32 [.int64, .int64, .string, .int8] (sampleOps.flatMap (logOp crc32)) = .ok m
    ∧ m.rows = some (sampleOps.map LogOp.row) ∧
      m.cols.map Column.dt = [.int64, .int64, .string, .int8] :=
  C01_log_round_trip crc32 crc32_lt _ (by decide) sampleOps sampleOps_fits
    (by intro op h; simp [sampleOps] at h; rcases h with rfl | rfl <;> rfl)

/-! ## C02 -/

/-- Spec of a log file's content: `bs` (zero-extended by `pad` bytes if the last frame is cut
short) is a sequence of frames, each with a 4-byte stored checksum, the payload length and the
payload. -/
def ParsesAs (bs : Bytes) (frames : List (Bytes × Bytes)) : Prop :=
  ∃ pad, bs ++ List.replicate pad 0 =
    frames.flatMap fun f => f.1 ++ (toLE 8 f.2.length ++ f.2)

theorem readUpTo_split (n : Nat) (bs : Bytes) :
    ∃ pad, bs ++ List.replicate pad 0 = (readUpTo n bs).1 ++ (readUpTo n bs).2 ∧
      (pad ≠ 0 → (readUpTo n bs).2 = []) ∧ (readUpTo n bs).1.length = n := by
  refine ⟨n - bs.length, ?_, ?_, ?_⟩
  · simp only [readUpTo]
    by_cases h : n ≤ bs.length
    · have : n - bs.length = 0 := by omega
      simp [this]
    · have h1 : bs.drop n = [] := List.drop_eq_nil_of_le (by omega)
      have h2 : bs.take n = bs := List.take_of_length_le (by omega)
      simp [h1, h2]
  · intro hp
    exact List.drop_eq_nil_of_le (by omega)
  · simp [readUpTo]; omega

/-- C02: if replaying an arbitrary byte string succeeds, the bytes are a sequence of frames whose
stored checksums match their payloads, and the records are exactly what those payloads decode to,
in order; nothing else is produced. -/
theorem C02_only_checked_frames (crc : Bytes → Nat) (bs : Bytes) (ops : List LogOp)
    (h : replay crc bs = .ok ops) :
    ∃ frames : List (Bytes × Bytes), ParsesAs bs frames ∧
      (∀ f ∈ frames, f.1.length = 4 ∧ fromLE f.1 = crc f.2) ∧
      frames.map (fun f => (LogOp.dec f.2).map Prod.fst) = ops.map some := by
  fun_induction replay crc bs generalizing ops with
  | case1 => simp at h; subst h; exact ⟨[], ⟨0, by simp⟩, by simp, by simp⟩
  | case2 => simp at h
  | case3 => simp at h
  | case4 => simp at h
  | case5 => simp at h
  | case6 bs hne r0 r1 len hlen r2 hcrc op x hdec ops' hrep ih =>
    simp at h; subst h
    obtain ⟨frames, ⟨pad, hp⟩, hfs, hm⟩ := ih ops' hrep
    obtain ⟨p0, e0, z0, l0⟩ := readUpTo_split 4 bs
    obtain ⟨p1, e1, z1, l1⟩ := readUpTo_split 8 r0.2
    obtain ⟨p2, e2, z2, l2⟩ := readUpTo_split len r1.2
    have hlenr : toLE 8 r2.1.length = r1.1 := by
      have : r2.1.length = len := l2
      rw [this]
      have := toLE_fromLE r1.1
      have l1' : r1.1.length = 8 := l1
      rw [l1'] at this
      exact this
    have hrep2 : ∀ a b : Nat, List.replicate a (0 : UInt8) ++ List.replicate b 0 =
        List.replicate (a + b) 0 := fun a b => List.replicate_append_replicate
    refine ⟨(r0.1, r2.1) :: frames, ?_, ?_, ?_⟩
    · -- at most one of the paddings is needed, and then everything after it is empty
      have key : ∃ q, bs ++ List.replicate q 0 = r0.1 ++ (r1.1 ++ (r2.1 ++ (r2.2 ++ List.replicate pad 0))) := by
        change bs ++ List.replicate p0 0 = r0.1 ++ r0.2 at e0
        change r0.2 ++ List.replicate p1 0 = r1.1 ++ r1.2 at e1
        change r1.2 ++ List.replicate p2 0 = r2.1 ++ r2.2 at e2
        refine ⟨p0 + (p1 + (p2 + pad)), ?_⟩
        rw [← hrep2, ← hrep2, ← hrep2, ← List.append_assoc, e0, ← List.append_assoc r2.1, ← e2]
        simp only [← List.append_assoc]
        rw [List.append_assoc r0.1 r0.2, e1]
        simp
      obtain ⟨q, hq⟩ := key
      refine ⟨q, ?_⟩
      rw [hq, hp]
      simp [hlenr]
    · intro f hf
      rcases List.mem_cons.mp hf with rfl | hf
      · exact ⟨l0, by simpa using hcrc⟩
      · exact hfs f hf
    · simp [hdec, hm]

/-- C02, second half: a complete frame with a wrong checksum, after any valid log and before
anything, makes the open fail. -/
theorem C02_wrong_checksum_fails (crc : Bytes → Nat) (hcrc : ∀ b, crc b < 2 ^ 32)
    (ops : List LogOp) (hf : ∀ op ∈ ops, op.Fits) (c d rest : Bytes) (hc : c.length = 4)
    (hd : d.length < 2 ^ 63) (hbad : fromLE c ≠ crc d) (schema : List ColType) :
    openLog crc schema (ops.flatMap (logOp crc) ++ (c ++ (toLE 8 d.length ++ d) ++ rest)) =
      .error .corrupted := by
  have h := replay_log crc hcrc ops hf (c ++ (toLE 8 d.length ++ d) ++ rest)
  rw [replay_frame crc c d rest hc hd, if_pos hbad] at h
  simp only [openLog, h]

example : ∃ ops, replay crc32 (sampleOps.flatMap (logOp crc32)) = .ok ops :=
  ⟨_, C01_replay_round_trip crc32 crc32_lt sampleOps sampleOps_fits⟩

example : fromLE [0, 0, 0, 0] ≠ crc32 [1, 2, 3] := by decide

/-! ## C03 -/

/-- Full statement of C03, for reference: whatever prefix of the last frame reached the disk, the
next open succeeds and returns all completed rows (and possibly the torn one). -/
def C03_full (crc : Bytes → Nat) : Prop :=
  ∀ (ops : List LogOp) (op : LogOp), (∀ o ∈ ops, o.Fits) → op.Fits → ∀ n ≤ (logOp crc op).length,
    ∃ more, replay crc (ops.flatMap (logOp crc) ++ (logOp crc op).take n) = .ok (ops ++ more) ∧
      more <+: [op]

/-- The frame of `sampleOp` cut after its checksum: replay reads length 0 and fails. -/
def sampleOp : LogOp := .insert [.int64 5] [.null]

theorem sampleOp_fits : sampleOp.Fits :=
  ⟨by decide, by decide, by intro x hx; simp at hx; subst hx; trivial,
   by intro x hx; simp at hx; subst hx; trivial, by decide⟩

/-- Cutting any frame right after the checksum makes the next open fail, unless the checksum of
the payload happens to be that of the empty string. -/
theorem C03_cut_after_checksum_fails (crc : Bytes → Nat) (hcrc : ∀ b, crc b < 2 ^ 32)
    (ops : List LogOp) (hf : ∀ o ∈ ops, o.Fits) (op : LogOp) (hne : crc op.enc ≠ crc []) :
    replay crc (ops.flatMap (logOp crc) ++ (logOp crc op).take 4) = .error .corrupted := by
  have h := replay_log crc hcrc ops hf ((logOp crc op).take 4)
  have ht : (logOp crc op).take 4 = toLE 4 (crc op.enc) := by
    unfold logOp frame
    exact List.take_left' (by simp)
  have hc : fromLE (toLE 4 (crc op.enc)) = crc op.enc := fromLE_toLE 4 _ (by
    have := hcrc op.enc
    have e : (256:Nat) ^ 4 = 2 ^ 32 := by decide
    omega)
  have h2 : replay crc (toLE 4 (crc op.enc)) = .error .corrupted := by
    rw [replay]
    have hl : (toLE 4 (crc op.enc)).length = 4 := by simp
    rw [dif_neg (by intro e; rw [e] at hl; simp at hl)]
    have e0 : readUpTo 4 (toLE 4 (crc op.enc)) = (toLE 4 (crc op.enc), []) := by
      have := readUpTo_append (toLE 4 (crc op.enc)) [] hl
      simpa using this
    have e1 : readUpTo 8 [] = (List.replicate 8 0, []) := rfl
    have e2 : fromLE (List.replicate 8 0) = 0 := by decide
    have e3 : readUpTo 0 [] = ([], []) := rfl
    simp only [e0, e1, e2, e3, hc]
    rw [if_neg (by decide), if_pos hne]
  rw [ht, h2] at h
  rw [ht, h]

/-- C03 is violated: with the real checksum, a crash after the checksum bytes of one append makes
the table unreadable. -/
theorem C03_violated : ¬ C03_full crc32 := by
  intro h
  obtain ⟨more, h1, _⟩ := h [] sampleOp (by simp) sampleOp_fits 4 (by simp [logOp, frame])
  have := C03_cut_after_checksum_fails crc32 crc32_lt [] (by simp) sampleOp (by decide +kernel)
  rw [this] at h1
  cases h1

/-- C03 (partial): the crash can make the open fail, but it never makes it return wrong completed
rows: a successful open returns all completed records, in order, followed by at most one more;
and at a frame boundary the open succeeds with exactly the completed records.
Missing: that the open succeeds (false for the code), and that the one extra record can only be
the torn one (true only up to checksum collisions). -/
theorem C03_partial (crc : Bytes → Nat) (hcrc : ∀ b, crc b < 2 ^ 32) (ops : List LogOp)
    (op : LogOp) (hf : ∀ o ∈ ops, o.Fits) (hop : op.Fits) (n : Nat) :
    (∀ res, replay crc (ops.flatMap (logOp crc) ++ (logOp crc op).take n) = .ok res →
      ∃ more, res = ops ++ more ∧ more.length ≤ 1) ∧
    replay crc (ops.flatMap (logOp crc) ++ (logOp crc op).take 0) = .ok ops ∧
    replay crc (ops.flatMap (logOp crc) ++ (logOp crc op).take (logOp crc op).length) =
      .ok (ops ++ [op]) := by
  have hoplen : op.enc.length < 2 ^ 63 := by
    cases op with
    | insert k v => exact hop.2.2.2.2
  refine ⟨?_, ?_, ?_⟩
  · intro res hres
    by_cases hfull : (logOp crc op).length ≤ n
    · rw [List.take_of_length_le hfull] at hres
      have h := replay_log crc hcrc ops hf (logOp crc op)
      have h' := replay_logOp crc hcrc op hop []
      simp only [List.append_nil, replay_nil] at h'
      rw [h'] at h
      rw [h] at hres
      exact ⟨[op], by simpa using hres.symm, by simp⟩
    · have h := replay_log crc hcrc ops hf ((logOp crc op).take n)
      rw [hres] at h
      -- the torn tail is consumed by at most one iteration
      have tail : ∀ more, replay crc ((logOp crc op).take n) = .ok more → more.length ≤ 1 := by
        intro more hm
        rw [replay] at hm
        by_cases hnil : (logOp crc op).take n = []
        · rw [dif_pos hnil] at hm; cases hm; simp
        · rw [dif_neg hnil] at hm
          -- whatever length was read, the remaining bytes are empty
          have hrest : (readUpTo (fromLE (readUpTo 8 (readUpTo 4 ((logOp crc op).take n)).2).1)
              (readUpTo 8 (readUpTo 4 ((logOp crc op).take n)).2).2).2 = [] := by
            have hlen : (logOp crc op).length = 12 + op.enc.length := by
              simp [logOp, frame]; omega
            by_cases hn : n < 12
            · simp only [readUpTo]
              apply List.drop_eq_nil_of_le
              simp only [List.length_drop, List.length_take]
              omega
            · have h0 : (logOp crc op).take n =
                  toLE 4 (crc op.enc) ++ (toLE 8 op.enc.length ++ op.enc.take (n - 12)) := by
                have h12 : n = 4 + (8 + (n - 12)) := by omega
                unfold logOp frame
                rw [h12, List.take_append, List.take_append]
                simp only [toLE_length]
                rw [List.take_of_length_le (by simp), List.take_of_length_le (by simp)]
                congr 3
              have e0 : readUpTo 4 ((logOp crc op).take n) =
                  (toLE 4 (crc op.enc), toLE 8 op.enc.length ++ op.enc.take (n - 12)) := by
                rw [h0]; exact readUpTo_append _ _ (by simp)
              have e1 : readUpTo 8 (toLE 8 op.enc.length ++ op.enc.take (n - 12)) =
                  (toLE 8 op.enc.length, op.enc.take (n - 12)) := readUpTo_append _ _ (by simp)
              have e2 : fromLE (toLE 8 op.enc.length) = op.enc.length := fromLE_toLE 8 _ (by
                have : (2:Nat) ^ 63 < 256 ^ 8 := by decide
                omega)
              simp only [e0, e1, e2]
              simp only [readUpTo]
              apply List.drop_eq_nil_of_le
              simp; omega
          simp only [hrest, replay_nil] at hm
          split at hm
          · cases hm
          · split at hm
            · cases hm
            · split at hm
              · cases hm
              · simp at hm; simp [← hm]
      cases hr : replay crc ((logOp crc op).take n) with
      | error e => rw [hr] at h; cases h
      | ok more =>
        rw [hr] at h
        exact ⟨more, by simpa using h, tail more hr⟩
  · simpa using C01_replay_round_trip crc hcrc ops hf
  · rw [List.take_length]
    have := C01_replay_round_trip crc hcrc (ops ++ [op]) (by
      intro o ho; simp at ho; rcases ho with ho | rfl
      · exact hf o ho
      · exact hop)
    simpa using this

example : ∀ res, replay crc32 (sampleOps.flatMap (logOp crc32) ++ (logOp crc32 sampleOp).take 20) =
    .ok res → ∃ more, res = sampleOps ++ more ∧ more.length ≤ 1 :=
  (C03_partial crc32 crc32_lt sampleOps sampleOp sampleOps_fits sampleOp_fits 20).1

/-! ## C05 -/

/-- Spec: `r` is the last row of `rs` whose leading cells equal the key. -/
def IsLastMatch (key : List KeyValue) (rs : List Row) (r : Row) : Prop :=
  ∃ before after, rs = before ++ r :: after ∧ key.map KeyValue.toValue <+: r ∧
    ∀ r' ∈ after, ¬ key.map KeyValue.toValue <+: r'

/-- The memtable reached from a fresh table by inserting `rs`. -/
def insertAll (m : Memtable) : List Row → Option Memtable
  | [] => some m
  | r :: rs =>
    match m.pushFrom 0 r with
    | none => none
    | some m' => insertAll m' rs

theorem insertAll_rep (rs : List Row) (m : Memtable) (rs0 : List Row) (h : Memtable.Rep m rs0)
    (hne : m.cols ≠ []) (hw : ∀ r ∈ rs, r.length = m.cols.length) :
    ∃ m', insertAll m rs = some m' ∧ Memtable.Rep m' (rs0 ++ rs) ∧
      m'.cols.length = m.cols.length := by
  induction rs generalizing m rs0 with
  | nil => exact ⟨m, rfl, by simpa using h, rfl⟩
  | cons r rs ih =>
    obtain ⟨m1, h1, h2, h3, h4⟩ := h.push r (hw r (by simp)) hne
    have hne1 : m1.cols ≠ [] := by
      intro e; rw [e] at h2; exact hne (List.eq_nil_of_length_eq_zero h2.symm)
    obtain ⟨m', g1, g2, g3⟩ := ih m1 (rs0 ++ [r]) h3 hne1 (fun x hx => by
      rw [h2]; exact hw x (by simp [hx]))
    exact ⟨m', by simp [insertAll, h1, g1], by simpa using g2, by omega⟩

theorem Memtable.Rep.get {m : Memtable} {rs : List Row} (h : Memtable.Rep m rs)
    (key : List KeyValue) (hk : key.length ≤ m.cols.length) :
    ∃ res, m.get key = some res ∧
      (∀ r, res = some r ↔ IsLastMatch key rs r) ∧
      (res = none ↔ ∀ r ∈ rs, ¬ key.map KeyValue.toValue <+: r) := by
  obtain ⟨res, h1, h2⟩ := h.findLast key hk 0 m.len none (by rw [h.len]; simp)
  rcases h2 with ⟨i, r, _, hr, hp, hres, hlast⟩ | ⟨hnone, hres⟩
  · subst hres
    have hsplit : rs = rs.take i ++ r :: rs.drop (i + 1) := by
      have hi := (List.getElem?_eq_some_iff.mp hr)
      rw [← hi.2, List.getElem_cons_drop]
      simp
    have hafter : ∀ r' ∈ rs.drop (i + 1), ¬ key.map KeyValue.toValue <+: r' := by
      intro r' hr'
      obtain ⟨j, hj⟩ := List.getElem?_of_mem hr'
      rw [List.getElem?_drop] at hj
      exact hlast _ r' (by omega) hj
    refine ⟨some r, by simp [Memtable.get, h1, h.rowAt hr], ?_, ?_⟩
    · intro r'
      constructor
      · intro e; cases e; exact ⟨_, _, hsplit, hp, hafter⟩
      · rintro ⟨b, a, hsp, hp', ha⟩
        have hb : rs[b.length]? = some r' := by rw [hsp]; simp
        by_cases hlt : b.length < i
        · -- then `r` is in `a`
          have hra : r ∈ a := by
            rw [hsp] at hr
            rw [List.getElem?_append_right (by omega)] at hr
            have : i - b.length = (i - b.length - 1) + 1 := by omega
            rw [this] at hr
            simp only [List.getElem?_cons_succ] at hr
            exact List.mem_of_getElem? hr
          exact absurd hp (ha r hra)
        · by_cases heq : b.length = i
          · rw [heq, hr] at hb; exact hb
          · exact absurd hp' (hlast b.length r' (by omega) hb)
    · constructor
      · intro e; cases e
      · intro hall; exact absurd hp (hall r (List.mem_of_getElem? hr))
  · subst hres
    have hall : ∀ r ∈ rs, ¬ key.map KeyValue.toValue <+: r := by
      intro r hr
      obtain ⟨j, hj⟩ := List.getElem?_of_mem hr
      exact hnone j r (by omega) hj
    refine ⟨none, by simp [Memtable.get, h1], ?_, by simp; exact hall⟩
    intro r
    constructor
    · intro e; cases e
    · rintro ⟨b, a, hsp, hp', _⟩
      exact absurd hp' (hall r (by rw [hsp]; simp))

/-- C05: after any sequence of inserts into a fresh table, a point read with any key (full or
prefix) does not panic, returns the last inserted row whose leading cells equal the key, and
returns nothing exactly when there is none. -/
theorem C05_memtable_get_last_write (schema : List ColType) (hs : schema ≠ []) (rs : List Row)
    (hw : ∀ r ∈ rs, r.length = schema.length) (key : List KeyValue)
    (hk : key.length ≤ schema.length) :
    ∃ m res, insertAll (freshMemtable schema) rs = some m ∧ m.get key = some res ∧
      (∀ r, res = some r ↔ IsLastMatch key rs r) ∧
      (res = none ↔ ∀ r ∈ rs, ¬ key.map KeyValue.toValue <+: r) := by
  obtain ⟨hrep, hdt⟩ := freshMemtable_spec schema
  have hlen : (freshMemtable schema).cols.length = schema.length := by
    have := congrArg List.length hdt; simpa using this
  have hne : (freshMemtable schema).cols ≠ [] := by
    intro e; rw [e] at hdt; exact hs (by simpa using hdt.symm)
  obtain ⟨m, h1, h2, h3⟩ := insertAll_rep rs _ _ hrep hne (fun r hr => by rw [hlen]; exact hw r hr)
  obtain ⟨res, g1, g2, g3⟩ := Memtable.Rep.get h2 key (by omega)
  exact ⟨m, res, h1, g1, by simpa using g2, by simpa using g3⟩

example : ∃ m, insertAll (freshMemtable [.int64, .string])
      [[.int64 (some 1), .string (some [97])], [.int64 (some 1), .string (some [98])],
       [.int64 (some 2), .string none]] = some m ∧
    m.get [.int64 1] = some (some [.int64 (some 1), .string (some [98])]) ∧
    m.get [.int64 3] = some none := ⟨_, rfl, by decide, by decide⟩

end OptiPrism.Storage
