import Verif.Storage.Backup

/-!
# C24: backup and restore
-/

namespace OptiPrism.Storage

/-- A table at rest: every recorded part has its file, as long as recorded; the log's length fits its
field; the manifest can be written. -/
structure BTable.AtRest (t : BTable) : Prop where
  parts : ∀ q ∈ t.md.partList, ∃ b, t.files q.1 q.2.id = some b ∧ b.length = q.2.sizeBytes.toNat
  log : t.log.length < 2 ^ 64
  types : ∀ f ∈ t.md.fields, f.dt.Usable
  fits : ({ t.md with logId := 0, version := 1 } : Manifest).FitsFile

/-- The restored table has the same name, schema, options, statistics and levels (its log is number
0, its version that of the program), the same log contents and the same contents of every part. -/
structure SameTable (crc : Bytes → Nat) (t : BTable) (r : RTable) : Prop where
  name : r.name = t.name
  md : readManifest crc r.mdFile = .ok { t.md with logId := 0, version := 1 }
  log : r.log0 = t.log
  parts : ∀ q ∈ t.md.partList, r.file q.1 q.2.id = t.files q.1 q.2.id ∧ r.file q.1 q.2.id ≠ none

inductive AllSame (crc : Bytes → Nat) : List BTable → List RTable → Prop
  | nil : AllSame crc [] []
  | cons {t r ts rs} : SameTable crc t r → AllSame crc ts rs → AllSame crc (t :: ts) (r :: rs)

theorem readExact_append {n : Nat} (a b : Bytes) (h : a.length = n) : readExact n (a ++ b) = .ok (a, b) := by
  subst h
  simp [readExact]

theorem copyTake_append {n : Nat} (a b : Bytes) (h : a.length = n) : copyTake n (a ++ b) = (a, b) := by
  subst h
  simp [copyTake]

theorem backup_restore_parts (files : Nat → U64 → Option Bytes) (ps : List (Nat × MPart)) (rest : Bytes)
    (h : ∀ q ∈ ps, ∃ b, files q.1 q.2.id = some b ∧ b.length = q.2.sizeBytes.toNat) :
    ∃ s out, backupParts files ps = some s ∧ restoreParts ps (s ++ rest) = (out, rest) ∧
      (∀ e ∈ out, files e.1.1 e.1.2 = some e.2) ∧ ∀ q ∈ ps, ∃ e ∈ out, e.1 = (q.1, q.2.id) := by
  induction ps with
  | nil => exact ⟨[], [], rfl, rfl, by simp, by simp⟩
  | cons q ps ih =>
    obtain ⟨l, p⟩ := q
    obtain ⟨s, out, h1, h2, h3, h4⟩ := ih fun q hq => h q (List.mem_cons_of_mem _ hq)
    obtain ⟨b, hb, hl⟩ := h (l, p) (by simp)
    refine ⟨b ++ s, ((l, p.id), b) :: out, by simp [backupParts, hb, h1], ?_, ?_, ?_⟩
    · rw [restoreParts, List.append_assoc, copyTake_append _ _ hl]
      dsimp only
      rw [h2]
    · intro e he
      rcases List.mem_cons.mp he with rfl | he
      · exact hb
      · exact h3 e he
    · intro q hq
      rcases List.mem_cons.mp hq with rfl | hq
      · exact ⟨((l, p.id), b), by simp, rfl⟩
      · obtain ⟨e, he, h⟩ := h4 q hq
        exact ⟨e, by simp [he], h⟩

theorem restore_file {files : Nat → U64 → Option Bytes} {t : RTable} (h3 : ∀ e ∈ t.parts, files e.1.1 e.1.2 = some e.2)
    {l : Nat} {id : U64} (h4 : ∃ e ∈ t.parts, e.1 = (l, id)) : t.file l id = files l id ∧ t.file l id ≠ none := by
  obtain ⟨e, he, hk⟩ := h4
  have hs : (t.parts.find? fun e => e.1 == (l, id)).isSome = true := by
    rw [List.find?_isSome]
    exact ⟨e, he, by simp [hk]⟩
  obtain ⟨x, hx⟩ := Option.isSome_iff_exists.mp hs
  have hm := h3 x (List.mem_of_find?_eq_some hx)
  have hk := List.find?_some hx
  simp only [beq_iff_eq] at hk
  rw [hk] at hm
  have hf : t.file l id = files l id := by
    rw [RTable.file, hx, Option.map_some, hm]
  exact ⟨hf, by rw [hf, hm]; simp⟩

theorem backup_restore_table (crc : Bytes → Nat) (hcrc : ∀ b, crc b < 2 ^ 32) (t : BTable) (ht : t.AtRest) (rest : Bytes) :
    ∃ s r, backupTable t = some s ∧ restoreTable crc 1 t.name t.md (s ++ rest) = .ok (r, rest) ∧ SameTable crc t r := by
  obtain ⟨s, out, h1, h2, h3, h4⟩ := backup_restore_parts t.files t.md.partList rest ht.parts
  obtain ⟨file, hw, hr⟩ := (C04_partial crc hcrc { t.md with logId := 0, version := 1 } [] ht.fits).mpr
    ⟨ht.types, show (1 : U64).toNat < 2 ^ 32 by decide⟩
  refine ⟨toLE 8 t.log.length ++ (t.log ++ s), ⟨t.name, file, t.log, out⟩, by simp [backupTable, h1], ?_,
    ⟨rfl, hr, rfl, fun q hq => restore_file h3 (h4 q hq)⟩⟩
  unfold restoreTable
  have hv : (BitVec.ofNat (8 * 8) 1 : U64) = 1 := rfl
  rw [hv, hw]
  dsimp only
  rw [List.append_assoc, readExact_append _ _ (toLE_length _ _)]
  dsimp only
  rw [fromLE_toLE _ _ (by have := ht.log; omega), List.append_assoc, copyTake_append _ _ rfl]
  dsimp only
  rw [h2]

theorem backup_restore_tables (crc : Bytes → Nat) (hcrc : ∀ b, crc b < 2 ^ 32) (ts : List BTable)
    (ht : ∀ t ∈ ts, t.AtRest) (rest : Bytes) :
    ∃ s rs, backupTables ts = some s ∧
      restoreTables crc 1 (ts.map fun t => (t.name, t.md)) (s ++ rest) = .ok (rs, rest) ∧ AllSame crc ts rs := by
  induction ts with
  | nil => exact ⟨[], [], rfl, rfl, .nil⟩
  | cons t ts ih =>
    obtain ⟨s, rs, h1, h2, h3⟩ := ih fun t h => ht t (List.mem_cons_of_mem _ h)
    obtain ⟨a, r, g1, g2, g3⟩ := backup_restore_table crc hcrc t (ht t (by simp)) (s ++ rest)
    refine ⟨a ++ s, r :: rs, by simp [backupTables, g1, h1], ?_, .cons g3 h3⟩
    simp only [List.map_cons, restoreTables]
    rw [List.append_assoc, g2]
    dsimp only
    rw [h2]

/-- C24: for every list of tables at rest the backup succeeds, and restoring what it wrote gives the
same tables, whatever follows in the stream. -/
theorem C24_backup_restore (crc : Bytes → Nat) (hcrc : ∀ b, crc b < 2 ^ 32)
    (ser : List (Bytes × Manifest) → Bytes) (de : Bytes → Option (List (Bytes × Manifest)))
    (hde : ∀ x, de (ser x) = some x) (ts : List BTable) (ht : ∀ t ∈ ts, t.AtRest)
    (hlen : (ser (ts.map fun t => (t.name, t.md))).length < 2 ^ 64) (rest : Bytes) :
    ∃ s rs, fullBackup ser ts = some s ∧ restoreFiles de crc (s ++ rest) = .ok rs ∧ AllSame crc ts rs := by
  obtain ⟨s, rs, h1, h2, h3⟩ := backup_restore_tables crc hcrc ts ht (backupMagic ++ rest)
  refine ⟨_, rs, by simp only [fullBackup, h1, Option.map_some]; rfl, ?_, h3⟩
  unfold restoreFiles
  simp only [List.append_assoc]
  rw [readExact_append _ _ (toLE_length _ _)]
  dsimp only
  rw [readExact_append _ _ (toLE_length _ _)]
  dsimp only
  rw [fromLE_toLE _ _ (by omega), readExact_append _ _ rfl]
  dsimp only
  rw [hde]
  dsimp only
  rw [fromLE_toLE _ _ (by decide)]
  rw [show backupVersion = 1 from rfl, h2]
  dsimp only
  rw [readExact_append (n := 8) backupMagic rest rfl]
  simp

/-- The rows of a table are those of its log and of its parts; both are byte for byte the same, so
replaying the log gives the same memory table. -/
theorem C24_same_memory {crc : Bytes → Nat} {t : BTable} {r : RTable} (h : SameTable crc t r) (cols : List MField → List ColType) :
    (readManifest crc r.mdFile).bind (fun m => openLog crc (cols m.fields) r.log0) =
      openLog crc (cols t.md.fields) t.log := by
  rw [h.md, h.log]
  rfl

/-! ### cut streams -/

/-- What reading a prefix can do: give up, run dry, or go on in step. -/
def InStep {α : Type} (x : Bytes) (full : Except RErr (α × Bytes)) (cut : Except RErr (α × Bytes)) : Prop :=
  (∃ e, cut = .error e) ∨ (∃ a, cut = .ok (a, [])) ∨
    ∃ a rest rest', full = .ok (a, rest) ∧ cut = .ok (a, rest') ∧ rest = rest' ++ x

theorem readExact_cut (n : Nat) (q x : Bytes) : (∃ e, readExact n q = .error e) ∨
    ∃ a rest, readExact n (q ++ x) = .ok (a, rest ++ x) ∧ readExact n q = .ok (a, rest) := by
  unfold readExact
  by_cases h : q.length < n
  · exact .inl ⟨_, by rw [if_pos h]⟩
  · right
    refine ⟨q.take n, q.drop n, ?_, by rw [if_neg h]⟩
    have : ¬ (q ++ x).length < n := by simp; omega
    rw [if_neg this, List.take_append_of_le_length (by omega), List.drop_append_of_le_length (by omega)]

theorem copyTake_cut (n : Nat) (q x : Bytes) : (copyTake n q).2 = [] ∨
    ∃ a rest, copyTake n (q ++ x) = (a, rest ++ x) ∧ copyTake n q = (a, rest) := by
  unfold copyTake
  by_cases h : q.length < n
  · left
    exact List.drop_eq_nil_of_le (by omega)
  · right
    exact ⟨q.take n, q.drop n, by rw [List.take_append_of_le_length (by omega), List.drop_append_of_le_length (by omega)], rfl⟩

theorem restoreParts_nil (ps : List (Nat × MPart)) : (restoreParts ps []).2 = [] := by
  induction ps with
  | nil => rfl
  | cons q ps ih =>
    obtain ⟨l, p⟩ := q
    simp only [restoreParts, copyTake, List.drop_nil]
    exact ih

theorem restoreParts_cut (ps : List (Nat × MPart)) (q x : Bytes) : (restoreParts ps q).2 = [] ∨
    ∃ a rest, restoreParts ps (q ++ x) = (a, rest ++ x) ∧ restoreParts ps q = (a, rest) := by
  induction ps generalizing q with
  | nil => exact .inr ⟨[], q, rfl, rfl⟩
  | cons c ps ih =>
    obtain ⟨l, p⟩ := c
    rcases copyTake_cut p.sizeBytes.toNat q x with h | ⟨a, rest, h1, h2⟩
    · left
      simp only [restoreParts, h]
      exact restoreParts_nil ps
    · rcases ih rest with h | ⟨b, rest2, g1, g2⟩
      · left
        simp only [restoreParts, h2]
        exact h
      · right
        exact ⟨((l, p.id), a) :: b, rest2, by simp only [restoreParts, h1, g1], by simp only [restoreParts, h2, g2]⟩

theorem restoreTable_cut (crc : Bytes → Nat) (v : Nat) (n : Bytes) (md : Manifest) (q x : Bytes) :
    InStep x (restoreTable crc v n md (q ++ x)) (restoreTable crc v n md q) := by
  unfold restoreTable
  cases writeManifest crc [] { md with logId := 0, version := BitVec.ofNat _ v } with
  | none => exact .inl ⟨_, rfl⟩
  | some file =>
    dsimp only
    rcases readExact_cut 8 q x with ⟨e, h⟩ | ⟨a, rest, h1, h2⟩
    · exact .inl ⟨e, by rw [h]⟩
    · rw [h1, h2]
      dsimp only
      rcases copyTake_cut (fromLE a) rest x with h | ⟨c, rest2, g1, g2⟩
      · exact .inr (.inl ⟨_, by rw [h, restoreParts_nil]⟩)
      · rw [g1, g2]
        dsimp only
        rcases restoreParts_cut md.partList rest2 x with h | ⟨d, rest3, f1, f2⟩
        · exact .inr (.inl ⟨_, by rw [h]⟩)
        · rw [f1, f2]
          exact .inr (.inr ⟨_, _, _, rfl, rfl, rfl⟩)

theorem restoreTables_nil (crc : Bytes → Nat) (v : Nat) (ts : List (Bytes × Manifest)) :
    (∃ e, restoreTables crc v ts [] = .error e) ∨ ∃ a, restoreTables crc v ts [] = .ok (a, []) := by
  cases ts with
  | nil => exact .inr ⟨_, rfl⟩
  | cons t ts =>
    left
    obtain ⟨n, md⟩ := t
    unfold restoreTables restoreTable
    cases writeManifest crc [] { md with logId := 0, version := BitVec.ofNat _ v } with
    | none => exact ⟨_, rfl⟩
    | some file => exact ⟨.eof, rfl⟩

theorem restoreTables_cut (crc : Bytes → Nat) (v : Nat) (ts : List (Bytes × Manifest)) (q x : Bytes) :
    InStep x (restoreTables crc v ts (q ++ x)) (restoreTables crc v ts q) := by
  induction ts generalizing q with
  | nil => exact .inr (.inr ⟨[], q ++ x, q, rfl, rfl, rfl⟩)
  | cons t ts ih =>
    obtain ⟨n, md⟩ := t
    simp only [restoreTables]
    rcases restoreTable_cut crc v n md q x with ⟨e, h⟩ | ⟨a, h⟩ | ⟨a, rest, rest', h1, h2, rfl⟩
    · exact .inl ⟨e, by rw [h]⟩
    · rw [h]
      dsimp only
      rcases restoreTables_nil crc v ts with ⟨e, g⟩ | ⟨b, g⟩
      · exact .inl ⟨e, by rw [g]⟩
      · exact .inr (.inl ⟨_, by rw [g]⟩)
    · rw [h1, h2]
      dsimp only
      rcases ih rest' with ⟨e, g⟩ | ⟨b, g⟩ | ⟨b, r2, r2', g1, g2, rfl⟩
      · exact .inl ⟨e, by rw [g]⟩
      · exact .inr (.inl ⟨_, by rw [g]⟩)
      · rw [g1, g2]
        exact .inr (.inr ⟨_, _, _, rfl, rfl, rfl⟩)

/-- A backup stream cut short anywhere is refused: no silent partial restore. -/
theorem C24_cut_refused (crc : Bytes → Nat) (hcrc : ∀ b, crc b < 2 ^ 32)
    (ser : List (Bytes × Manifest) → Bytes) (de : Bytes → Option (List (Bytes × Manifest)))
    (hde : ∀ x, de (ser x) = some x) (ts : List BTable) (ht : ∀ t ∈ ts, t.AtRest)
    (hlen : (ser (ts.map fun t => (t.name, t.md))).length < 2 ^ 64) (s q x : Bytes) (hs : fullBackup ser ts = some s)
    (hq : s = q ++ x) (hx : x ≠ []) : ∃ e, restoreFiles de crc q = .error e := by
  obtain ⟨b, rs, h1, h2, -⟩ := backup_restore_tables crc hcrc ts ht backupMagic
  simp only [fullBackup, h1, Option.map_some, Option.some.injEq] at hs
  rw [hq] at hs
  have hxl : 0 < x.length := List.length_pos_iff.mpr hx
  unfold restoreFiles
  rcases readExact_cut 8 q x with ⟨e, h⟩ | ⟨a1, q1, g1, g2⟩
  · exact ⟨e, by rw [h]⟩
  rw [← hs, readExact_append _ _ (toLE_length _ _)] at g1
  injection g1 with g1
  injection g1 with ga1 gq1
  subst ga1
  rw [g2]
  dsimp only
  rcases readExact_cut 8 q1 x with ⟨e, h⟩ | ⟨a2, q2, g3, g4⟩
  · exact ⟨e, by rw [h]⟩
  rw [← gq1, readExact_append _ _ (toLE_length _ _)] at g3
  injection g3 with g3
  injection g3 with ga2 gq2
  subst ga2
  rw [g4]
  dsimp only
  rw [fromLE_toLE _ _ (by omega)]
  rcases readExact_cut (ser (ts.map fun t => (t.name, t.md))).length q2 x with ⟨e, h⟩ | ⟨a3, q3, g5, g6⟩
  · exact ⟨e, by rw [h]⟩
  rw [← gq2, readExact_append _ _ rfl] at g5
  injection g5 with g5
  injection g5 with ga3 gq3
  subst ga3
  rw [g6]
  dsimp only
  rw [hde, fromLE_toLE _ _ (by decide)]
  dsimp only
  rw [show backupVersion = 1 from rfl]
  rcases restoreTables_cut crc 1 (ts.map fun t => (t.name, t.md)) q3 x with ⟨e, h⟩ | ⟨r, h⟩ | ⟨r, rest, rest', h3, h4, h5⟩
  · exact ⟨e, by rw [h]⟩
  · rw [h]
    exact ⟨.eof, rfl⟩
  · rw [h4]
    dsimp only
    rw [← gq3, h2] at h3
    injection h3 with h3
    injection h3 with _ h3
    have hl := congrArg List.length (h3.trans h5)
    simp [backupMagic] at hl
    have : rest'.length < 8 := by omega
    exact ⟨.eof, by simp [readExact, this]⟩

/-- A failed restore has already removed the tables that were there. -/
theorem C24_failed_restore_empties (e : RErr) : servedAfter (.error e) = [] := rfl

/-! ### an instance -/

def demoMd : Manifest :=
  { sampleManifest with levels := [⟨4, [⟨2, 3, 7, [], []⟩, ⟨3, 2, 7, [], []⟩]⟩, ⟨1, [⟨1, 1, 7, [], []⟩]⟩] }

def demoTable : BTable :=
  ⟨[101, 118], demoMd, [9, 9, 9, 9], fun l i => if l = 0 then (if i = 2 then some [1, 2, 3] else some [4, 5]) else some [6]⟩

theorem demo_atRest : demoTable.AtRest := by
  refine ⟨?_, by decide, by decide, fits_of (by decide +kernel)⟩
  intro q hq
  have : q ∈ [(0, (⟨2, 3, 7, [], []⟩ : MPart)), (0, ⟨3, 2, 7, [], []⟩), (1, ⟨1, 1, 7, [], []⟩)] := hq
  simp only [List.mem_cons, List.not_mem_nil, or_false] at this
  rcases this with rfl | rfl | rfl
  · exact ⟨[1, 2, 3], by decide, by decide⟩
  · exact ⟨[4, 5], by decide, by decide⟩
  · exact ⟨[6], by decide, by decide⟩

example (ser : List (Bytes × Manifest) → Bytes) (de : Bytes → Option (List (Bytes × Manifest)))
    (hde : ∀ x, de (ser x) = some x) (hlen : (ser [(demoTable.name, demoTable.md)]).length < 2 ^ 64) :
    ∃ s rs, fullBackup ser [demoTable] = some s ∧ restoreFiles de crc32 (s ++ []) = .ok rs ∧ AllSame crc32 [demoTable] rs :=
  C24_backup_restore crc32 crc32_lt ser de hde [demoTable] (by simpa using demo_atRest) hlen []

end OptiPrism.Storage
