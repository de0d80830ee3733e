import Verif.Storage.Insert
import Verif.Util

/-!
# Properties of insert and of schema changes: C06, C07, C08, C09
-/

namespace OptiPrism.Storage

/-- Spec: the value a caller supplied under a column name (`NULL` if none). -/
def supplied (values : List NamedValue) (name : String) : Value :=
  match values.find? (fun v => v.name == name) with
  | some v => v.value
  | none => .null

/-- Spec: the caller supplies the key columns first and in schema order. -/
structure KeyFirst (t : Tbl) (values : List NamedValue) : Prop where
  names : (values.take t.indexCols).map NamedValue.name = (t.schema.take t.indexCols).map Field.name

/-! ## C06 -/

/-- Full statement of C06 (any order of the supplied values): after a successful insert into a
table showing rows `rs`, the table shows `rs` and one new row which has in every column the value
supplied under that column's name. -/
def C06_full : Prop :=
  ∀ (t t' : Tbl) (rs : List Row) (values : List NamedValue), t.mem.rows = some rs → t.Good rs →
    t.schema ≠ [] → (values.map NamedValue.name).Nodup → (t.schema.map Field.name).Nodup →
    t.insert values = .ok t' →
    t'.mem.rows = some (rs ++ [t.schema.map fun f => supplied values f.name])

/-- Two integer columns, one key column, no rows. -/
def twoColTbl : Tbl :=
  ((Tbl.create 1).addField ⟨"id", .int64, false⟩).bind (·.addField ⟨"n", .int64, true⟩) |>.getD (.create 0)

theorem twoColTbl_good : twoColTbl.Good [] :=
  ⟨⟨by simp, by decide, by
      intro j c h
      have : twoColTbl.mem.cols = [⟨[], .int64⟩, ⟨[], .int64⟩] := by decide
      rw [this] at h
      match j with
      | 0 => simp at h; subst h; rfl
      | 1 => simp at h; subst h; rfl
      | j + 2 => simp at h⟩, by decide⟩

/-- C06 is violated: key values are taken by position, so supplying `n` before `id` stores the
value of `n` in column `id` and `NULL` in `n`; the supplied `id` is lost. -/
theorem C06_violated : ¬ C06_full := by
  intro h
  have := h twoColTbl
    { twoColTbl with
      mem := ⟨[⟨[.int64 (some 7)], .int64⟩, ⟨[.null], .int64⟩]⟩
      log := [.insert [.int64 7] [.null]] } []
    [⟨"n", .int64 (some 7)⟩, ⟨"id", .int64 (some 1)⟩]
    (by decide) twoColTbl_good (by decide) (by decide) (by decide) (by rfl)
  exact absurd this (by decide)

theorem find?_name {values : List NamedValue} {n : String} :
    values.find? (fun v => n == v.name) = values.find? (fun v => v.name == n) := by
  congr 1; funext v
  exact Bool.beq_comm

/-- C06 (partial): if the caller supplies the key columns first, in schema order (what the ingester
does), then a successful insert appends exactly one row which has in every schema column the value
(the first one, if there are several) supplied under its name and `NULL` where none was supplied; rows
already stored are unchanged, and the log grows by the record of the same row.
Missing: other orders of the supplied values (false for the code). -/
theorem C06_partial (t t' : Tbl) (rs : List Row) (values : List NamedValue) (hg : t.Good rs)
    (hne : t.schema ≠ []) (hs : (t.schema.map Field.name).Nodup) (hk : KeyFirst t values)
    (h : t.insert values = .ok t') :
    t.mem.rows = some rs ∧
    t'.mem.rows = some (rs ++ [t.schema.map fun f => supplied values f.name]) ∧
    t'.schema = t.schema ∧
    ∃ op, t'.log = t.log ++ [op] ∧ op.row = t.schema.map fun f => supplied values f.name := by
  obtain ⟨pk, hpk, hpl, hg', hs', hi', hl'⟩ := insert_good hg hne h
  have hkey := insert_ok_key hg h
  obtain ⟨_, _, _, _, hlen, _, _⟩ := insert_ok_row h
  have hrow : pk.map KeyValue.toValue ++
      finalValues (t.schema.drop t.indexCols) (values.drop t.indexCols) =
      t.schema.map fun f => supplied values f.name := by
    rw [← List.take_append_drop t.indexCols t.schema]
    rw [List.map_append]
    congr 1
    · -- key part
      apply List.ext_getElem?
      intro i
      by_cases hi : i < t.indexCols
      · have hvi : i < values.length := by omega
        have hfi : i < t.schema.length := by omega
        have hv : (values.take t.indexCols)[i]? = some values[i] := by
          rw [List.getElem?_take_of_lt hi, List.getElem?_eq_getElem hvi]
        obtain ⟨b, hb1, hb2⟩ := mapM_option_getElem _ _ _ hpk i _ hv
        have hname : values[i].name = t.schema[i].name := by
          have := congrArg (fun l => l[i]?) hk.names
          simp only [List.getElem?_map, List.getElem?_take_of_lt hi,
            List.getElem?_eq_getElem hvi, List.getElem?_eq_getElem hfi] at this
          simpa using this
        have hfind : values.find? (fun v => v.name == t.schema[i].name) = some values[i] := by
          rw [← hname]
          have hnd : ((values.take t.indexCols).map NamedValue.name).Nodup := by
            rw [hk.names]
            exact (hs.sublist ((List.take_sublist _ _).map _))
          have hm : values[i] ∈ values.take t.indexCols := List.mem_of_getElem? hv
          have hf := find?_of_nodup hnd hm
          generalize values[i] = x at hf ⊢
          conv => lhs; rw [← List.take_append_drop t.indexCols values]
          rw [List.find?_append, hf]; rfl
        rw [List.getElem?_map, hb1, List.getElem?_map]
        rw [List.getElem?_take_of_lt hi, List.getElem?_eq_getElem hfi]
        simp [supplied, hfind, Value.toValue_of_toKey hb2]
      · rw [List.getElem?_eq_none (by simp [hpl]; omega), List.getElem?_eq_none (by simp; omega)]
    · unfold finalValues
      rw [List.take_append_drop]
      apply List.map_congr_left
      intro f hf
      have hnot : ∀ v ∈ values.take t.indexCols, v.name ≠ f.name := by
        intro v hv e
        have h1 : v.name ∈ (t.schema.take t.indexCols).map Field.name := by
          rw [← hk.names]; exact List.mem_map_of_mem hv
        have hnd := hs
        rw [← List.take_append_drop t.indexCols t.schema, List.map_append, List.nodup_append] at hnd
        exact hnd.2.2 _ h1 _ (List.mem_map_of_mem hf) e
      have : values.find? (fun v => v.name == f.name) =
          (values.drop t.indexCols).find? (fun v => v.name == f.name) := by
        conv => lhs; rw [← List.take_append_drop t.indexCols values]
        rw [List.find?_append]
        have hn : (values.take t.indexCols).find? (fun v => v.name == f.name) = none := by
          rw [List.find?_eq_none]
          intro v hv; simpa using hnot v hv
        rw [hn]; rfl
      rw [find?_name]
      simp only [supplied, this]
      rfl
  refine ⟨hg.rep.rows, ?_, hs', _, hl', ?_⟩
  · rw [← hrow]; exact hg'.rep.rows
  · simpa [LogOp.row] using hrow

/-- A rejected insert has no effect: the result carries no new state (the only outcomes are an
error without a table, or the table of `C06_partial`). Here: the same inputs are accepted or
rejected independently of the rows stored. -/
theorem C06_rejection_independent_of_rows (t1 t2 : Tbl) (rs1 rs2 : List Row)
    (values : List NamedValue) (h1 : t1.Good rs1) (h2 : t2.Good rs2) (hsch : t1.schema = t2.schema)
    (hidx : t1.indexCols = t2.indexCols) :
    (∃ t', t1.insert values = .ok t') ↔ (∃ t', t2.insert values = .ok t') := by
  have key : ∀ (a b : Tbl) (ra rb : List Row), a.Good ra → b.Good rb → a.schema = b.schema →
      a.indexCols = b.indexCols → (∃ t', a.insert values = .ok t') → ∃ t', b.insert values = .ok t' := by
    intro a b ra rb ha hb hs hi ⟨t', h⟩
    obtain ⟨pk, fin, hpk, _, hlen, hv, _⟩ := insert_ok_row h
    have hk := insert_ok_key ha h
    exact insert_succeeds hb (by rw [← hs, ← hi]; exact hk) (by rw [← hs]; exact hv) (by omega) (by rw [← hi]; exact hpk)
  exact ⟨key t1 t2 rs1 rs2 h1 h2 hsch hidx, key t2 t1 rs2 rs1 h2 h1 hsch.symm hidx.symm⟩

example : ∃ t', twoColTbl.insert [⟨"id", .int64 (some 1)⟩, ⟨"n", .int64 (some 7)⟩] = .ok t' ∧
    t'.mem.rows = some [[.int64 (some 1), .int64 (some 7)]] := ⟨_, rfl, by decide⟩
example : KeyFirst twoColTbl [⟨"id", .int64 (some 1)⟩, ⟨"n", .int64 (some 7)⟩] :=
  ⟨by decide⟩

/-! ## C07 -/

/-- Spec: which column types accept a value. -/
inductive HasType : Value → ColType → Prop
  | int8 v : HasType (.int8 v) .int8
  | int16 v : HasType (.int16 v) .int16
  | int32 v : HasType (.int32 v) .int32
  | int64 v : HasType (.int64 v) .int64
  | boolean v : HasType (.boolean v) .boolean
  | decimal v : HasType (.decimal v) .decimal
  | string v : HasType (.string v) .string
  | timestamp v : HasType (.timestamp v) .timestamp

/-- Spec: every supplied name is a column and the value has that column's type. -/
def WellTyped (schema : List Field) (values : List NamedValue) : Prop :=
  ∀ v ∈ values, ∃ f ∈ schema, f.name = v.name ∧ HasType v.value f.dt

theorem typeOk_iff (v : Value) (dt : ColType) : typeOk v dt = true ↔ HasType v dt := by
  constructor
  · intro h
    unfold typeOk at h
    split at h <;> first | constructor | cases h
  · intro h; cases h <;> rfl

theorem validate_none_iff (schema : List Field) (hs : (schema.map Field.name).Nodup)
    (values : List NamedValue) : validate schema values = none ↔ WellTyped schema values := by
  induction values with
  | nil => simp [validate, WellTyped]
  | cons v vs ih =>
    unfold validate
    have hcons : WellTyped schema (v :: vs) ↔
        (∃ f ∈ schema, f.name = v.name ∧ HasType v.value f.dt) ∧ WellTyped schema vs := by
      simp [WellTyped]
    rw [hcons]
    cases hf : schema.find? (fun f => f.name == v.name) with
    | none =>
      rw [List.find?_eq_none] at hf
      simp only [reduceCtorEq, false_iff]
      rintro ⟨⟨f, hfm, hfn, _⟩, _⟩
      exact hf f hfm (by simp [hfn])
    | some f =>
      have hfm := List.mem_of_find?_eq_some hf
      have hfn : f.name = v.name := by simpa using List.find?_some hf
      have huniq : ∀ g ∈ schema, g.name = v.name → g = f := by
        intro g hg hgn
        exact nodup_map_inj hs hg hfm (hgn.trans hfn.symm)
      by_cases ht : typeOk v.value f.dt
      · simp only [ht, if_true, ih]
        constructor
        · intro h; exact ⟨⟨f, hfm, hfn, (typeOk_iff _ _).mp ht⟩, h⟩
        · intro h; exact h.2
      · simp only [ht]
        simp only [Bool.false_eq_true, if_false, reduceCtorEq, false_iff]
        rintro ⟨⟨g, hg, hgn, hgt⟩, _⟩
        rw [huniq g hg hgn] at hgt
        exact ht ((typeOk_iff _ _).mpr hgt)

/-- C07: a successful insert was well typed (every name a column, every value of that column's
type), and an insert that is not well typed is rejected with an error that is not a panic and
without any new table state. -/
theorem C07_insert_validates (t : Tbl) (hs : (t.schema.map Field.name).Nodup)
    (values : List NamedValue) :
    (∀ t', t.insert values = .ok t' → WellTyped t.schema values) ∧
    (¬ WellTyped t.schema values →
      t.insert values = .error .unknownColumn ∨ t.insert values = .error .typeMismatch) := by
  constructor
  · intro t' h
    obtain ⟨_, _, _, _, _, hv, _⟩ := insert_ok_row h
    exact (validate_none_iff _ hs _).mp hv
  · intro hw
    have hv : validate t.schema values ≠ none := fun h => hw ((validate_none_iff _ hs _).mp h)
    have hvals : ∀ vs e, validate t.schema vs = some e → e = .unknownColumn ∨ e = .typeMismatch := by
      intro vs
      induction vs with
      | nil => intro e h; simp [validate] at h
      | cons v vs ih =>
        intro e h
        unfold validate at h
        split at h
        · cases h; exact Or.inl rfl
        · split at h
          · exact ih e h
          · cases h; exact Or.inr rfl
    cases hval : validate t.schema values with
    | none => exact absurd hval hv
    | some e =>
      unfold Tbl.insert
      simp only [hval]
      rcases hvals _ _ hval with rfl | rfl
      · exact Or.inl rfl
      · exact Or.inr rfl

/-- C07, completeness: a well-typed insert that supplies enough non-null key-typed leading values
is accepted. -/
theorem C07_well_typed_accepted (t : Tbl) (rs : List Row) (hg : t.Good rs)
    (hs : (t.schema.map Field.name).Nodup) (values : List NamedValue)
    (hkey : t.indexCols ≤ t.schema.length) (hw : WellTyped t.schema values)
    (hlen : t.indexCols ≤ values.length)
    (hk : ∀ v ∈ values.take t.indexCols, ∃ k : KeyValue, k.toValue = v.value) :
    ∃ t', t.insert values = .ok t' := by
  have hmap : ∀ l : List NamedValue, (∀ v ∈ l, ∃ k : KeyValue, k.toValue = v.value) →
      ∃ pk, l.mapM (fun v => v.value.toKey) = some pk := by
    intro l
    induction l with
    | nil => intro _; exact ⟨[], rfl⟩
    | cons v l ih =>
      intro h
      obtain ⟨k, hk⟩ := h v (by simp)
      obtain ⟨pk, hpk⟩ := ih (fun x hx => h x (by simp [hx]))
      exact ⟨k :: pk, by simp [List.mapM_cons, ← hk, KeyValue.toKey_toValue, hpk]⟩
  obtain ⟨pk, hpk⟩ := hmap _ hk
  exact insert_succeeds hg hkey ((validate_none_iff _ hs _).mpr hw) hlen hpk

example : ¬ WellTyped twoColTbl.schema [⟨"id", .string (some [])⟩] := by
  rw [← validate_none_iff _ (by decide)]; decide
example : WellTyped twoColTbl.schema [⟨"id", .int64 (some 1)⟩, ⟨"n", .int64 none⟩] := by
  rw [← validate_none_iff _ (by decide)]; decide

/-! ## C08 -/

/-- A table with flushed blocks. A block keeps the rows at the width they had when flushed. -/
structure FTbl where
  tbl : Tbl
  blocks : List (List Row)

/-- `add_null_cols_to_chunk`, /repo/src/storage/src/parquet/arrow_merger.rs 405-418, on one row. -/
def padRow (n : Nat) (r : Row) : Row := r ++ List.replicate (n - r.length) .null

inductive TOp where
  | insert (values : List NamedValue)
  | addField (f : Field)
  | flush

/-- One operation; failed operations leave the table as it is. `sort` stands for the row order of
a flushed block (any permutation, see `Verif.Storage.Chunk`). -/
def FTbl.step (sort : List Row → List Row) (s : FTbl) : TOp → FTbl
  | .insert values =>
    match s.tbl.insert values with
    | .ok t => { s with tbl := t }
    | .error _ => s
  | .addField f =>
    match s.tbl.addField f with
    | some t => { s with tbl := t }
    | none => s
  | .flush =>
    match s.tbl.mem.rows with
    | none => s
    | some [] => s
    | some rs => { tbl := { s.tbl with mem := s.tbl.mem.createEmpty, log := [] },
                   blocks := s.blocks ++ [sort rs] }

/-- What a reader sees: flushed rows padded to the current width, then unflushed rows. -/
def FTbl.visible (s : FTbl) : Option (List Row) :=
  match s.tbl.mem.rows with
  | none => none
  | some rs => some (s.blocks.flatten.map (padRow s.tbl.schema.length) ++ rs)

/-- Spec: a table as a schema and a list of rows. -/
structure Abs where
  fields : List Field
  rows : List Row

/-- Spec: adding a column appends one `NULL` cell to every row; flushing does nothing. -/
def Abs.addField (a : Abs) (f : Field) : Abs :=
  if f.name ∈ a.fields.map Field.name then a
  else ⟨a.fields ++ [f], a.rows.map fun r => r ++ [.null]⟩

structure FTbl.Inv (s : FTbl) : Prop where
  good : ∃ rs, s.tbl.Good rs
  keyed : 1 ≤ s.tbl.indexCols
  narrow : ∀ b ∈ s.blocks, ∀ r ∈ b, r.length ≤ s.tbl.schema.length

theorem FTbl.Inv.visible {s : FTbl} (h : s.Inv) : ∃ rs, s.tbl.Good rs ∧ s.visible =
    some (s.blocks.flatten.map (padRow s.tbl.schema.length) ++ rs) := by
  obtain ⟨rs, hg⟩ := h.good
  exact ⟨rs, hg, by simp [FTbl.visible, hg.rep.rows]⟩

theorem padRow_succ (n : Nat) (r : Row) (h : r.length ≤ n) :
    padRow (n + 1) r = padRow n r ++ [.null] := by
  unfold padRow
  have : n + 1 - r.length = (n - r.length) + 1 := by omega
  rw [this, List.replicate_succ', List.append_assoc]

theorem padRow_full (n : Nat) (r : Row) (h : r.length = n) : padRow n r = r := by
  simp [padRow, h]

theorem addField_some_iff (t : Tbl) (f : Field) :
    (∃ t', t.addField f = some t') ↔ f.name ∉ t.schema.map Field.name := by
  unfold Tbl.addField
  by_cases h : t.schema.any (fun g => g.name == f.name)
  · simp only [h, if_true]
    simp only [List.any_eq_true, beq_iff_eq] at h
    simpa using h
  · simp only [h]
    simp only [List.any_eq_true, beq_iff_eq] at h
    simpa using h

theorem FTbl.Inv.step {s : FTbl} (h : s.Inv) (sort : List Row → List Row)
    (hsort : ∀ l, (sort l).Perm l) (op : TOp) :
    (s.step sort op).Inv := by
  obtain ⟨rs, hg⟩ := h.good
  cases op with
  | insert values =>
    unfold FTbl.step
    simp only
    cases hi : s.tbl.insert values with
    | error e => exact h
    | ok t =>
      have hne' : s.tbl.schema ≠ [] := fun e => by
        have h1 := insert_ok_key hg hi
        have h2 := h.keyed
        rw [e] at h1; simp at h1; omega
      obtain ⟨pk, _, _, hg', hs', hi', _⟩ := insert_good hg hne' hi
      exact ⟨⟨_, hg'⟩, by simpa [hi'] using h.keyed, fun b hb r hr => by simp only; rw [hs']; exact h.narrow b hb r hr⟩
  | addField f =>
    unfold FTbl.step
    simp only
    cases hi : s.tbl.addField f with
    | none => exact h
    | some t =>
      obtain ⟨hg', hs', _, hi'⟩ := addField_good hg hi
      refine ⟨⟨_, hg'⟩, by simpa [hi'] using h.keyed, fun b hb r hr => ?_⟩
      have := h.narrow b hb r hr
      simp only [hs', List.length_append, List.length_singleton]; omega
  | flush =>
    unfold FTbl.step
    simp only [hg.rep.rows]
    cases rs with
    | nil => exact h
    | cons r0 rs0 =>
      simp only
      refine ⟨⟨[], ⟨Memtable.rep_createEmpty _, ?_⟩⟩, h.keyed, ?_⟩
      · simp only [Memtable.createEmpty, List.map_map]
        rw [← hg.dts]
        apply List.map_congr_left
        intro c _; rfl
      · intro b hb r hr
        simp only [List.mem_append, List.mem_singleton] at hb
        rcases hb with hb | rfl
        · exact h.narrow b hb r hr
        · have hr' := (hsort _).mem_iff.mp hr
          rw [hg.rep.width r hr', hg.colsLen]
          exact Nat.le_refl _

/-- Tables reachable by any history of operations. -/
inductive Reach (sort : List Row → List Row) (indexCols : Nat) : FTbl → Prop
  | create : Reach sort indexCols ⟨.create indexCols, []⟩
  | step {s : FTbl} (op : TOp) : Reach sort indexCols s →
      Reach sort indexCols (s.step sort op)

theorem Reach.inv {sort : List Row → List Row} (hsort : ∀ l, (sort l).Perm l) {k : Nat} (hk : 1 ≤ k)
    {s : FTbl} (h : Reach sort k s) : s.Inv := by
  induction h with
  | create => exact ⟨⟨[], ⟨Memtable.rep_new, rfl⟩⟩, hk, by simp⟩
  | step op _ ih => exact ih.step sort hsort op

/-- C08: in every state reached by any history of inserts, flushes and column additions, adding a
column with a new name succeeds, keeps the order of columns, keeps every visible row's cells and
gives it `NULL` in the new last column (rows in memory and flushed rows alike); adding an existing
name changes nothing. Every visible row has exactly one cell per column. -/
theorem C08_add_column (sort : List Row → List Row) (hsort : ∀ l, (sort l).Perm l) (k : Nat)
    (hk : 1 ≤ k) (s : FTbl) (hr : Reach sort k s) (f : Field) :
    ∃ rows, s.visible = some rows ∧ (∀ r ∈ rows, r.length = s.tbl.schema.length) ∧
      (s.step sort (.addField f)).visible = some (Abs.addField ⟨s.tbl.schema, rows⟩ f).rows ∧
      (s.step sort (.addField f)).tbl.schema = (Abs.addField ⟨s.tbl.schema, rows⟩ f).fields := by
  have hinv := hr.inv hsort hk
  obtain ⟨rs, hg, hv⟩ := hinv.visible
  refine ⟨_, hv, ?_, ?_⟩
  · intro r hrm
    simp only [List.mem_append, List.mem_map, List.mem_flatten] at hrm
    rcases hrm with ⟨r', ⟨b, hb, hr'⟩, rfl⟩ | hrm
    · have := hinv.narrow b hb r' hr'
      simp [padRow]; omega
    · rw [hg.rep.width r hrm, hg.colsLen]
  · by_cases hex : f.name ∈ s.tbl.schema.map Field.name
    · have hn : s.tbl.addField f = none := by
        cases hc : s.tbl.addField f with
        | none => rfl
        | some t => exact absurd hex ((addField_some_iff _ _).mp ⟨t, hc⟩)
      simp only [FTbl.step, hn, Abs.addField]
      rw [if_pos hex]
      exact ⟨hv, rfl⟩
    · obtain ⟨t', ht'⟩ := (addField_some_iff s.tbl f).mpr hex
      obtain ⟨hg', hs', _, _⟩ := addField_good hg ht'
      simp only [FTbl.step, ht', Abs.addField]
      rw [if_neg hex]
      refine ⟨?_, hs'⟩
      simp only [FTbl.visible, hg'.rep.rows, hs', List.length_append, List.length_singleton]
      congr 1
      rw [List.map_append, List.map_map]
      congr 1
      apply List.map_congr_left
      intro r hrm
      simp only [List.mem_flatten] at hrm
      obtain ⟨b, hb, hrb⟩ := hrm
      simpa using padRow_succ _ r (hinv.narrow b hb r hrb)

/-- C08, flush: flushing never changes the visible rows except for their order. -/
theorem C08_flush_keeps_rows (sort : List Row → List Row) (hsort : ∀ l, (sort l).Perm l) (k : Nat)
    (hk : 1 ≤ k) (s : FTbl) (hr : Reach sort k s) :
    ∃ rows rows', s.visible = some rows ∧ (s.step sort .flush).visible = some rows' ∧
      rows'.Perm rows := by
  have hinv := hr.inv hsort hk
  obtain ⟨rs, hg, hv⟩ := hinv.visible
  cases rs with
  | nil => exact ⟨_, _, hv, by simp [FTbl.step, hg.rep.rows, hv], List.Perm.refl _⟩
  | cons r0 rs0 =>
    refine ⟨_, s.blocks.flatten.map (padRow s.tbl.schema.length) ++ sort (r0 :: rs0), hv, ?_, ?_⟩
    · simp only [FTbl.step, hg.rep.rows, FTbl.visible]
      rw [(Memtable.rep_createEmpty s.tbl.mem).rows]
      simp only [List.flatten_append, List.map_append, List.append_nil, List.flatten_singleton,
        Option.some.injEq]
      congr 1
      conv => rhs; rw [← List.map_id (sort (r0 :: rs0))]
      apply List.map_congr_left
      intro r hrm
      have hr' := (hsort _).mem_iff.mp hrm
      exact padRow_full _ _ (by rw [hg.rep.width r hr', hg.colsLen])
    · exact (hsort _).append_left _

example : ∃ s : FTbl, Reach id 1 s ∧ s.blocks.length = 1 ∧ s.tbl.schema.length = 2 ∧
    s.visible = some [[.int64 (some 1), .null], [.int64 (some 2), .null]] :=
  ⟨_, .step (.addField ⟨"b", .string, true⟩) (.step (.insert [⟨"a", .int64 (some 2)⟩])
      (.step .flush (.step (.insert [⟨"a", .int64 (some 1)⟩])
        (.step (.addField ⟨"a", .int64, false⟩) .create)))), by decide, by decide, by decide⟩

/-! ## C09 -/

/-- Full statement of C09: reopening a table with unflushed rows gives back what readers saw. -/
def C09_full : Prop :=
  ∀ (s : FTbl) (k : Nat), Reach id k s → s.blocks = [] →
    ∃ t', s.tbl.reopen = some t' ∧ t'.mem.rows = s.tbl.mem.rows

/-- Insert, add a column, insert again: the history used as a witness. -/
def raggedTbl : FTbl :=
  [.addField ⟨"a", .int64, false⟩, .insert [⟨"a", .int64 (some 1)⟩],
   .addField ⟨"b", .int64, true⟩, .insert [⟨"a", .int64 (some 2)⟩, ⟨"b", .int64 (some 9)⟩]].foldl
    (fun s op => s.step id op) ⟨.create 1, []⟩

theorem raggedTbl_reach : Reach id 1 raggedTbl :=
  .step (sort := id) (.insert [⟨"a", .int64 (some 2)⟩, ⟨"b", .int64 (some 9)⟩])
    (.step (.addField ⟨"b", .int64, true⟩) (.step (.insert [⟨"a", .int64 (some 1)⟩])
      (.step (.addField ⟨"a", .int64, false⟩) .create)))

/-- C09 is violated: log records carry no column count, so after a restart the value 9 that was
inserted into column `b` of the second row is stored at position 0 of that column, i.e. in the
first row, and the columns have different lengths. -/
theorem C09_violated : ¬ C09_full := by
  intro h
  obtain ⟨t', h1, h2⟩ := h raggedTbl 1 raggedTbl_reach rfl
  have e : raggedTbl.tbl.reopen = some { raggedTbl.tbl with
      mem := ⟨[⟨[.int64 (some 1), .int64 (some 2)], .int64⟩, ⟨[.int64 (some 9)], .int64⟩]⟩ } := by
    decide
  rw [e] at h1
  cases h1
  exact absurd h2 (by decide)

/-- Replay stores `row[j]` at the end of column `j` for every record that has a cell `j`. -/
theorem recoverOps_columns (ops : List LogOp) (m : Memtable)
    (hw : ∀ op ∈ ops, op.row.length ≤ m.cols.length) :
    ∃ m', recoverOps m ops = some m' ∧ m'.cols.length = m.cols.length ∧
      ∀ (j : Nat) (c : Column), m.cols[j]? = some c →
        m'.cols[j]? = some { c with values := c.values ++ ops.filterMap (fun op => op.row[j]?) } := by
  induction ops generalizing m with
  | nil => exact ⟨m, rfl, rfl, fun j c hc => by simpa using hc⟩
  | cons op ops ih =>
    obtain ⟨m1, h1, h2, h3⟩ := Memtable.pushFrom_spec m 0 op.row (by
      have := hw op (by simp); omega)
    obtain ⟨m', g1, g2, g3⟩ := ih m1 (fun x hx => by rw [h2]; exact hw x (by simp [hx]))
    refine ⟨m', by simp [recoverOps, recoverOp, h1, g1], by omega, ?_⟩
    intro j c hc
    rw [g3 j _ (h3 j c hc)]
    by_cases hj : j < op.row.length
    · rw [dif_pos (by omega)]
      simp [hj]
    · rw [dif_neg (by omega)]
      have : op.row[j]? = none := List.getElem?_eq_none (by omega)
      simp [this]

theorem filterMap_length_lt {α β : Type} (f : α → Option β) (l : List α) (a : α) (ha : a ∈ l)
    (hf : f a = none) : (l.filterMap f).length < l.length := by
  induction l with
  | nil => cases ha
  | cons x l ih =>
    rcases List.mem_cons.mp ha with rfl | h
    · simp only [List.filterMap_cons, hf, List.length_cons]
      have := List.length_filterMap_le f l
      omega
    · have := ih h
      simp only [List.filterMap_cons, List.length_cons]
      cases f x with
      | none => exact Nat.lt_succ_of_lt this
      | some b => simpa using this

/-- C09 (partial, exact): reopening never panics in replay, and the unflushed rows are readable
after the restart if and only if every logged record already has as many cells as the schema has
columns; in that case the rows are exactly the logged ones, in order.
Missing: tables where a column was added while rows were unflushed (false for the code). -/
theorem C09_partial (t : Tbl) (hne : t.schema ≠ [])
    (hw : ∀ op ∈ t.log, op.row.length ≤ t.schema.length) (hpos : ∀ op ∈ t.log, op.row ≠ []) :
    ∃ t', t.reopen = some t' ∧ t'.schema = t.schema ∧
      ((∀ op ∈ t.log, op.row.length = t.schema.length) →
        t'.mem.rows = some (t.log.map LogOp.row)) ∧
      ((∃ rows, t'.mem.rows = some rows) → ∀ op ∈ t.log, op.row.length = t.schema.length) := by
  obtain ⟨hrep, hdt⟩ := freshMemtable_spec (t.schema.map Field.dt)
  have hlen : (freshMemtable (t.schema.map Field.dt)).cols.length = t.schema.length := by
    have := congrArg List.length hdt; simpa using this
  have hcne : (freshMemtable (t.schema.map Field.dt)).cols ≠ [] := by
    intro e; rw [e] at hlen; exact hne (List.eq_nil_of_length_eq_zero hlen.symm)
  obtain ⟨m', h1, h2, h3⟩ := recoverOps_columns t.log (freshMemtable (t.schema.map Field.dt))
    (fun op ho => by rw [hlen]; exact hw op ho)
  refine ⟨{ t with mem := m' }, by simp [Tbl.reopen, h1], rfl, ?_, ?_⟩
  · intro hfull
    obtain ⟨m2, g1, g2, _⟩ := recoverOps_rep t.log _ _ hrep hcne
      (fun op ho => by rw [hlen]; exact hfull op ho)
    rw [h1] at g1; cases g1
    simpa using g2.rows
  · rintro ⟨rows, hrows⟩ op hop
    apply Decidable.byContradiction
    intro hshort
    have hlt : op.row.length < t.schema.length := by have := hw op hop; omega
    have hpos' : 0 < t.schema.length := by omega
    -- column 0 has one cell per record
    have hcol : ∀ j (hj : j < t.schema.length), ∃ c, m'.cols[j]? = some c ∧
        c.values = t.log.filterMap (fun op => op.row[j]?) := by
      intro j hj
      have hj' : j < (freshMemtable (t.schema.map Field.dt)).cols.length := by omega
      have hc := List.getElem?_eq_getElem hj'
      have hv := hrep.cells j _ hc
      refine ⟨_, h3 j _ hc, ?_⟩
      simp [hv]
    obtain ⟨c0, hc0, hv0⟩ := hcol 0 hpos'
    obtain ⟨cl, hcl, hvl⟩ := hcol (t.schema.length - 1) (by omega)
    have hl0 : c0.values.length = t.log.length := by
      rw [hv0]
      have : ∀ l : List LogOp, (∀ op ∈ l, op.row ≠ []) →
          (l.filterMap (fun op => op.row[0]?)).length = l.length := by
        intro l
        induction l with
        | nil => intro _; rfl
        | cons x l ih =>
          intro hx
          have hx0 := hx x (by simp)
          cases hxr : x.row with
          | nil => exact absurd hxr hx0
          | cons v vs =>
            simp [hxr, ih (fun y hy => hx y (by simp [hy]))]
      exact this _ hpos
    have hll : cl.values.length < t.log.length := by
      rw [hvl]
      exact filterMap_length_lt _ _ op hop (List.getElem?_eq_none (by omega))
    have hmlen : m'.len = t.log.length := by
      unfold Memtable.len
      cases hcs : m'.cols with
      | nil => rw [hcs] at hc0; simp at hc0
      | cons c cs => rw [hcs] at hc0; simp at hc0; subst hc0; exact hl0
    simp only [Memtable.rows] at hrows
    split at hrows
    · rename_i hall
      simp only [List.all_eq_true, beq_iff_eq] at hall
      have := hall cl (List.mem_of_getElem? hcl)
      omega
    · cases hrows

example : ∃ t', (twoColTbl.insert [⟨"id", .int64 (some 1)⟩, ⟨"n", .int64 (some 7)⟩]) = .ok t' ∧
    (∀ op ∈ t'.log, op.row.length = t'.schema.length) ∧ t'.log ≠ [] :=
  ⟨_, rfl, by decide, by decide⟩

end OptiPrism.Storage
