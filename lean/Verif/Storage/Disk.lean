import Verif.Storage.ScanProps
import Verif.Storage.Log

/-!
# A table on disk: manifest, logs, part files; flush, crash, reopen, garbage collection

Model of `flush_log_` and `write_level0` (/repo/src/storage/src/db.rs 444-559), the durable side of
`insert` (771-782), `try_recover_table` (298-398) and `gc` (163-221), over abstract rows. The byte
formats of logs and manifest are C01-C04; here a log is the list of rows it holds, a manifest is
either readable or partly overwritten (`none`), a part file is complete or `torn`.

A flush is a list of file operations; a crash keeps a prefix of them. The in-place overwrite of the
manifest is two operations: `tearManifest` (started) and `putManifest` (finished).
-/

namespace OptiPrism.Storage

/-- `Part`, /repo/src/storage/src/table.rs 76-83. -/
structure PartRef (K : Type) where
  id : Nat
  size : Nat
  values : Nat
  min : K
  max : K
  deriving DecidableEq, Repr

/-- `Level`, 85-89. -/
structure DLevel (K : Type) where
  partId : Nat
  parts : List (PartRef K)
  deriving DecidableEq, Repr

/-- The part of `Metadata` (118-127) that changes after creation. -/
structure Md (K : Type) where
  logId : Nat
  levels : List (DLevel K)
  deriving DecidableEq, Repr

/-- A part file. -/
inductive PFile (R : Type) where
  | torn
  | full (rows : List R)
  deriving DecidableEq, Repr

/-- The directory of one table. `parts l i` is `levels/{l}/{i}.parquet`. -/
structure Disk (R K : Type) where
  manifest : Option (Md K)
  logs : List (Nat × List R)
  parts : Nat → Nat → Option (PFile R)

/-- The running process: `metadata`, `memtable`, and the id of the log file that is open. -/
structure Proc (R K : Type) where
  md : Md K
  mem : List R
  log : Nat

variable {R K : Type}

inductive FOp (R K : Type) where
  | createPart (l i : Nat)
  | fillPart (l i : Nat) (rows : List R)
  | tearManifest
  | putManifest (md : Md K)
  | removeLog (i : Nat)
  | createLog (i : Nat)

def setPart (f : Nat → Nat → Option (PFile R)) (l i : Nat) (v : Option (PFile R)) :
    Nat → Nat → Option (PFile R) :=
  fun l' i' => if l' = l ∧ i' = i then v else f l' i'

/-- Effect of one file operation; `none` = it fails (`create_new` on an existing file,
`remove_file` on a missing one). -/
def Disk.apply (d : Disk R K) : FOp R K → Option (Disk R K)
  | .createPart l i =>
    match d.parts l i with
    | some _ => none
    | none => some { d with parts := setPart d.parts l i (some .torn) }
  | .fillPart l i rows => some { d with parts := setPart d.parts l i (some (.full rows)) }
  | .tearManifest => some { d with manifest := none }
  | .putManifest md => some { d with manifest := some md }
  | .removeLog i =>
    if d.logs.any (fun p => p.1 == i) then
      some { d with logs := d.logs.filter (fun p => p.1 != i) }
    else none
  | .createLog i =>
    if d.logs.any (fun p => p.1 == i) then none else some { d with logs := d.logs ++ [(i, [])] }

def Disk.applyAll (d : Disk R K) : List (FOp R K) → Option (Disk R K)
  | [] => some d
  | op :: ops =>
    match d.apply op with
    | none => none
    | some d' => d'.applyAll ops

/-- `metadata.levels[0].parts.push(part)`, `part_id += 1`, `log_id += 1`, 521-528. `none` when the
table has no levels (index panic). -/
def Md.flushed (md : Md K) (p : PartRef K) : Option (Md K) :=
  match md.levels with
  | [] => none
  | l0 :: ls => some ⟨md.logId + 1, ⟨l0.partId + 1, l0.parts ++ [p]⟩ :: ls⟩

/-- The part record made by `write_level0`, 483-492; the key range is that of the first and the
last row (`chunk_min_max`). `none` = panic on an empty block. -/
def mkPart (key : R → K) (size : List R → Nat) (id : Nat) (rows : List R) : Option (PartRef K) :=
  match rows.head?, rows.getLast? with
  | some a, some b => some ⟨id, size rows, rows.length, key a, key b⟩
  | _, _ => none

/-- What a flush does: the file operations in order and the process state afterwards.
`mk` = `Memtable::chunk` with the table's options; `size` the size of the written file. -/
def flushPlan (key : R → K) (mk : List R → Option (Option (List R))) (size : List R → Nat)
    (p : Proc R K) : Option (List (FOp R K) × Proc R K) :=
  match p.md.levels.head?, mk p.mem with
  | some l0, some (some rows) =>
    match mkPart key size l0.partId rows with
    | none => none
    | some part =>
      match p.md.flushed part with
      | none => none
      | some md' =>
        some ([.createPart 0 l0.partId, .fillPart 0 l0.partId rows, .tearManifest, .putManifest md',
          .removeLog (md'.logId - 1), .createLog md'.logId], ⟨md', [], md'.logId⟩)
  | _, _ => none

/-- `flush`, 1188-1207: nothing to do for an empty memtable. `none` = error or panic. -/
def flush (key : R → K) (mk : List R → Option (Option (List R))) (size : List R → Nat)
    (d : Disk R K) (p : Proc R K) : Option (Disk R K × Proc R K) :=
  if p.mem.length = 0 then some (d, p)
  else
    match flushPlan key mk size p with
    | none => none
    | some (ops, p') =>
      match d.applyAll ops with
      | none => none
      | some d' => some (d', p')

/-- The durable and in-memory effect of an acknowledged `insert`, 771-782 (no automatic flush). The
write goes to the open file: if its name was removed meanwhile, it is in no file any more. -/
def insertRow (d : Disk R K) (p : Proc R K) (r : R) : Disk R K × Proc R K :=
  ({ d with logs := d.logs.map fun q => if q.1 = p.log then (q.1, q.2 ++ [r]) else q },
   { p with mem := p.mem ++ [r] })

/-- The log with the greatest name, 327-347 (names are zero-padded to 16 digits: numeric order). -/
def maxLog : List (Nat × List R) → Option (Nat × List R)
  | [] => none
  | q :: qs =>
    match maxLog qs with
    | none => some q
    | some m => if m.1 < q.1 then some q else some m

/-- `try_recover_table`, 298-398. -/
def reopen (d : Disk R K) : Except OpenErr (Proc R K) :=
  match d.manifest with
  | none => .error .corrupted
  | some md =>
    match maxLog d.logs with
    | none => .error .noLogs
    | some (i, rows) => .ok ⟨md, rows, i⟩

/-- The part files a scan reads, 664-683: all levels, all parts. `none` = a file is missing or
unreadable. -/
def partsOf (f : Nat → Nat → Option (PFile R)) : Nat → List (DLevel K) → Option (List (List R))
  | _, [] => some []
  | l, lv :: ls =>
    match lv.parts.mapM (fun p => match f l p.id with
        | some (.full rows) => some rows
        | _ => none), partsOf f (l + 1) ls with
    | some a, some b => some (a ++ b)
    | _, _ => none

/-- The table as a scan sees it. -/
def viewOf (d : Disk R K) (p : Proc R K) : Option (ATbl R) :=
  (partsOf d.parts 0 p.md.levels).map fun parts => ⟨p.mem, parts⟩

/-- `create_table`, 1275-1325. -/
def createDisk (levels : Nat) : Disk R K :=
  ⟨some ⟨0, List.replicate levels ⟨0, []⟩⟩, [(0, [])], fun _ _ => none⟩

def createProc (levels : Nat) : Proc R K := ⟨⟨0, List.replicate levels ⟨0, []⟩⟩, [], 0⟩

/-- One pass of the garbage collector, 163-221; `busy l i` = `Fs::is_opened`. Only a backup
registers logs as open; none is running. -/
def gcPass (busy : Nat → Nat → Bool) (d : Disk R K) (md : Md K) : Disk R K :=
  { d with
    logs := d.logs.filter fun q => !decide (q.1 < md.logId)
    parts := fun l i =>
      match md.levels[l]? with
      | none => d.parts l i
      | some lv => if lv.parts.any (fun p => p.id == i) || busy l i then d.parts l i else none }

/-! ### the clean state -/

/-- State of a table between operations of a history without crashes: the manifest on disk is the
one in memory, the only log is the current one and holds exactly the rows in memory, every
recorded part has its file, and no file exists at the ids to be used next. -/
structure Clean (le : K → K → Prop) (key : R → K) (d : Disk R K) (p : Proc R K) : Prop where
  manifest : d.manifest = some p.md
  log : p.log = p.md.logId
  logs : d.logs = [(p.md.logId, p.mem)]
  parts : ∀ (l : Nat) (lv : DLevel K), p.md.levels[l]? = some lv → ∀ q ∈ lv.parts, ∃ rows, d.parts l q.id = some (.full rows) ∧
    rows ≠ [] ∧ q.values = rows.length ∧ SortedBy le key rows ∧
    ∀ r ∈ rows, le q.min (key r) ∧ le (key r) q.max
  ids0 : ∀ (lv : DLevel K), p.md.levels[0]? = some lv → ∀ q ∈ lv.parts, q.id < lv.partId
  idsN : ∀ (l : Nat) (lv : DLevel K), p.md.levels[l + 1]? = some lv → ∀ q ∈ lv.parts, q.id ≤ lv.partId
  nodup : ∀ (l : Nat) (lv : DLevel K), p.md.levels[l]? = some lv → (lv.parts.map PartRef.id).Nodup
  fresh0 : ∀ (lv : DLevel K), p.md.levels[0]? = some lv → ∀ i, lv.partId ≤ i → d.parts 0 i = none
  freshN : ∀ (l : Nat) (lv : DLevel K), p.md.levels[l + 1]? = some lv → ∀ i, lv.partId < i → d.parts (l + 1) i = none

/-! ### lemmas -/

/-- The rows of one part file. -/
def fileRows (f : Nat → Nat → Option (PFile R)) (l i : Nat) : Option (List R) :=
  match f l i with
  | some (.full rows) => some rows
  | _ => none

theorem partsOf_cons (f : Nat → Nat → Option (PFile R)) (l : Nat) (lv : DLevel K)
    (ls : List (DLevel K)) :
    partsOf f l (lv :: ls) =
      match lv.parts.mapM (fun p => fileRows f l p.id), partsOf f (l + 1) ls with
      | some a, some b => some (a ++ b)
      | _, _ => none := rfl

/-- `partsOf` succeeds when every file is there. -/
theorem partsOf_some (f : Nat → Nat → Option (PFile R)) (n : Nat) (ls : List (DLevel K))
    (h : ∀ (l : Nat) (lv : DLevel K), ls[l]? = some lv → ∀ q ∈ lv.parts, ∃ rows, f (n + l) q.id = some (.full rows)) :
    partsOf f n ls = some ((ls.mapIdx fun l lv =>
      lv.parts.map fun q => (fileRows f (n + l) q.id).getD []).flatten) := by
  induction ls generalizing n with
  | nil => rfl
  | cons lv ls ih =>
    rw [partsOf_cons]
    have h0 : lv.parts.mapM (fun p => fileRows f n p.id) =
        some (lv.parts.map fun q => (fileRows f n q.id).getD []) := by
      apply mapM_some_of
      intro q hq
      obtain ⟨rows, hr⟩ := h 0 lv rfl q hq
      simp only [Nat.add_zero] at hr
      simp [fileRows, hr]
    have h1 := ih (n + 1) (by
      intro l lv' hl q hq
      have := h (l + 1) lv' (by simpa using hl) q hq
      rwa [show n + 1 + l = n + (l + 1) by omega])
    rw [h0, h1]
    simp only [List.mapIdx_cons, List.flatten_cons, Nat.add_zero]
    have e : (fun (l : Nat) (lv : DLevel K) => lv.parts.map fun q => (fileRows f (n + 1 + l) q.id).getD []) =
        (fun (l : Nat) (lv : DLevel K) => lv.parts.map fun q => (fileRows f (n + (l + 1)) q.id).getD []) := by
      funext l lv'
      rw [show n + 1 + l = n + (l + 1) by omega]
    rw [e]

/-- `partsOf` only depends on the files of recorded parts. -/
theorem partsOf_congr (f g : Nat → Nat → Option (PFile R)) (n : Nat) (ls : List (DLevel K))
    (h : ∀ (l : Nat) (lv : DLevel K), ls[l]? = some lv → ∀ q ∈ lv.parts, f (n + l) q.id = g (n + l) q.id) :
    partsOf f n ls = partsOf g n ls := by
  induction ls generalizing n with
  | nil => rfl
  | cons lv ls ih =>
    rw [partsOf_cons, partsOf_cons]
    have h0 : lv.parts.mapM (fun p => fileRows f n p.id) = lv.parts.mapM (fun p => fileRows g n p.id) := by
      have : ∀ (l : List (PartRef K)), (∀ q ∈ l, f n q.id = g n q.id) →
          l.mapM (fun p => fileRows f n p.id) = l.mapM (fun p => fileRows g n p.id) := by
        intro l hl
        induction l with
        | nil => rfl
        | cons a l ih' =>
          rw [List.mapM_cons, List.mapM_cons, ih' (fun q hq => hl q (by simp [hq]))]
          have : fileRows f n a.id = fileRows g n a.id := by
            unfold fileRows; rw [hl a (by simp)]
          rw [this]
      exact this _ (fun q hq => by simpa using h 0 lv rfl q hq)
    have h1 := ih (n + 1) (by
      intro l lv' hl q hq
      have := h (l + 1) lv' (by simpa using hl) q hq
      rwa [show n + 1 + l = n + (l + 1) by omega])
    rw [h0, h1]

theorem mkPart_spec (key : R → K) (size : List R → Nat) (id : Nat) (rows : List R) (hne : rows ≠ []) :
    ∃ q a b, mkPart key size id rows = some q ∧ q.id = id ∧ q.values = rows.length ∧
      rows.head? = some a ∧ rows.getLast? = some b ∧ q.min = key a ∧ q.max = key b := by
  cases hh : rows.head? with
  | none => exact absurd (List.head?_eq_none_iff.mp hh) hne
  | some a =>
    cases hl : rows.getLast? with
    | none => exact absurd (List.getLast?_eq_none_iff.mp hl) hne
    | some b => exact ⟨⟨id, size rows, rows.length, key a, key b⟩, a, b, by simp [mkPart, hh, hl], rfl, rfl, rfl, rfl, rfl, rfl⟩

theorem head_le {le : K → K → Prop} (ho : TotOrd le) {key : R → K} {l : List R}
    (hs : SortedBy le key l) {x y : R} (hx : x ∈ l) (hy : l.head? = some y) :
    le (key y) (key x) := by
  cases l with
  | nil => cases hx
  | cons a l =>
    simp at hy
    subst hy
    rcases List.mem_cons.mp hx with rfl | hx
    · exact ho.refl _
    · exact (List.pairwise_cons.mp hs).1 x hx

theorem setPart_same (f : Nat → Nat → Option (PFile R)) (l i : Nat) (v : Option (PFile R)) :
    setPart f l i v l i = v := by simp [setPart]

theorem setPart_ne (f : Nat → Nat → Option (PFile R)) {l i l' i' : Nat} (v : Option (PFile R))
    (h : ¬ (l' = l ∧ i' = i)) : setPart f l i v l' i' = f l' i' := by simp [setPart, h]

/-- Everything about a flush from a clean state with rows in memory: the plan, the disk after each
of its operations, and the final clean state. -/
theorem flush_clean {le : K → K → Prop} (ho : TotOrd le) {key : R → K} {sort : List R → List R}
    (hsort : IsSort le key sort) {mk : List R → Option (Option (List R))}
    (hmk : ∀ l, l ≠ [] → mk l = some (some (sort l))) (size : List R → Nat)
    {d : Disk R K} {p : Proc R K} (hc : Clean le key d p) (hne : p.mem ≠ [])
    {l0 : DLevel K} {ls : List (DLevel K)} (hl : p.md.levels = l0 :: ls) :
    ∃ q a b,
      (sort p.mem).head? = some a ∧ (sort p.mem).getLast? = some b ∧
      q.id = l0.partId ∧ q.min = key a ∧ q.max = key b ∧ q.values = p.mem.length ∧
      let md' : Md K := ⟨p.md.logId + 1, ⟨l0.partId + 1, l0.parts ++ [q]⟩ :: ls⟩
      let d' : Disk R K := ⟨some md', [(p.md.logId + 1, [])],
        setPart (setPart d.parts 0 l0.partId (some .torn)) 0 l0.partId (some (.full (sort p.mem)))⟩
      flushPlan key mk size p = some ([.createPart 0 l0.partId, .fillPart 0 l0.partId (sort p.mem),
        .tearManifest, .putManifest md', .removeLog p.md.logId, .createLog (p.md.logId + 1)],
        ⟨md', [], p.md.logId + 1⟩) ∧
      flush key mk size d p = some (d', ⟨md', [], p.md.logId + 1⟩) ∧
      Clean le key d' ⟨md', [], p.md.logId + 1⟩ := by
  have hlen : p.mem.length ≠ 0 := fun e => hne (List.eq_nil_of_length_eq_zero e)
  have hsne : sort p.mem ≠ [] := by
    intro e
    have := (hsort.perm p.mem).length_eq
    rw [e] at this
    exact hlen this.symm
  obtain ⟨q, a, b, hq, hid, hval, ha, hb, hmin, hmax⟩ := mkPart_spec key size l0.partId (sort p.mem) hsne
  refine ⟨q, a, b, ha, hb, hid, hmin, hmax, by rw [hval, (hsort.perm p.mem).length_eq], ?_⟩
  have hplan : flushPlan key mk size p = some ([.createPart 0 l0.partId, .fillPart 0 l0.partId (sort p.mem),
        .tearManifest, .putManifest ⟨p.md.logId + 1, ⟨l0.partId + 1, l0.parts ++ [q]⟩ :: ls⟩,
        .removeLog p.md.logId, .createLog (p.md.logId + 1)],
        ⟨⟨p.md.logId + 1, ⟨l0.partId + 1, l0.parts ++ [q]⟩ :: ls⟩, [], p.md.logId + 1⟩) := by
    unfold flushPlan
    simp [hl, hmk p.mem hne, hq, Md.flushed]
  refine ⟨hplan, ?_, ?_⟩
  · unfold flush
    rw [if_neg hlen, hplan]
    have hf0 := hc.fresh0 l0 (by simp [hl]) l0.partId (Nat.le_refl _)
    simp [Disk.applyAll, Disk.apply, hf0, hc.logs]
  · have hq' : ∀ l i, ¬ (l = 0 ∧ i = l0.partId) →
        setPart (setPart d.parts 0 l0.partId (some .torn)) 0 l0.partId (some (.full (sort p.mem))) l i
          = d.parts l i := by
      intro l i h
      rw [setPart_ne _ _ h, setPart_ne _ _ h]
    refine ⟨rfl, rfl, rfl, ?_, ?_, ?_, ?_, ?_, ?_⟩
    · intro l lv hlv x hx
      cases l with
      | zero =>
        simp at hlv
        subst hlv
        rcases List.mem_append.mp hx with hx | hx
        · obtain ⟨rows, hr⟩ := hc.parts 0 l0 (by simp [hl]) x hx
          refine ⟨rows, ?_, hr.2⟩
          have := hc.ids0 l0 (by simp [hl]) x hx
          exact (hq' 0 x.id (by omega)).trans hr.1
        · simp at hx
          subst hx
          refine ⟨sort p.mem, by rw [hid]; exact setPart_same _ _ _ _, hsne, hval, hsort.sorted _, ?_⟩
          intro r hr
          rw [hmin, hmax]
          exact ⟨head_le ho (hsort.sorted _) hr ha, le_last ho (hsort.sorted _) hr hb⟩
      | succ l =>
        simp at hlv
        obtain ⟨rows, hr⟩ := hc.parts (l + 1) lv (by simpa [hl] using hlv) x hx
        exact ⟨rows, (hq' _ _ (by omega)).trans hr.1, hr.2⟩
    · intro lv hlv x hx
      simp at hlv
      subst hlv
      rcases List.mem_append.mp hx with hx | hx
      · have := hc.ids0 l0 (by simp [hl]) x hx; simp; omega
      · simp at hx; subst hx; simp; omega
    · intro l lv hlv x hx
      simp at hlv
      exact hc.idsN l lv (by simpa [hl] using hlv) x hx
    · intro l lv hlv
      cases l with
      | zero =>
        simp at hlv
        subst hlv
        have h0 := hc.nodup 0 l0 (by simp [hl])
        simp only [List.map_append, List.map_cons, List.map_nil]
        rw [List.nodup_append]
        refine ⟨h0, by simp, ?_⟩
        intro i hi j hj
        simp at hj
        subst hj
        obtain ⟨x, hx, rfl⟩ := List.mem_map.mp hi
        have := hc.ids0 l0 (by simp [hl]) x hx
        omega
      | succ l =>
        simp at hlv
        exact hc.nodup (l + 1) lv (by simpa [hl] using hlv)
    · intro lv hlv i hi
      simp at hlv
      subst hlv
      have hi' : l0.partId + 1 ≤ i := hi
      simp only
      rw [hq' 0 i (by omega)]
      exact hc.fresh0 l0 (by simp [hl]) i (by omega)
    · intro l lv hlv i hi
      simp at hlv
      simp only
      rw [hq' (l + 1) i (by omega)]
      exact hc.freshN l lv (by simpa [hl] using hlv) i hi

theorem insert_clean {le : K → K → Prop} {key : R → K} {d : Disk R K} {p : Proc R K}
    (hc : Clean le key d p) (r : R) :
    Clean le key (insertRow d p r).1 (insertRow d p r).2 := by
  refine ⟨hc.manifest, hc.log, ?_, hc.parts, hc.ids0, hc.idsN, hc.nodup, hc.fresh0, hc.freshN⟩
  simp [insertRow, hc.logs, hc.log]

theorem create_clean (le : K → K → Prop) (key : R → K) (n : Nat) :
    Clean le key (createDisk n : Disk R K) (createProc n) := by
  have h : ∀ (l : Nat) (lv : DLevel K), (List.replicate n (⟨0, []⟩ : DLevel K))[l]? = some lv → lv = ⟨0, []⟩ := by
    intro l lv hl
    have := List.mem_of_getElem? hl
    exact List.eq_of_mem_replicate this
  refine ⟨rfl, rfl, rfl, ?_, ?_, ?_, ?_, ?_, ?_⟩
  · intro l lv hl q hq; rw [h l lv hl] at hq; cases hq
  · intro lv hl q hq; rw [h 0 lv hl] at hq; cases hq
  · intro l lv hl q hq; rw [h _ lv hl] at hq; cases hq
  · intro l lv hl; rw [h _ lv hl]; simp
  · intro lv _ i _; rfl
  · intro l lv _ i _; rfl

/-- In a clean state a scan finds all its files. -/
theorem clean_view {le : K → K → Prop} {key : R → K} {d : Disk R K} {p : Proc R K}
    (hc : Clean le key d p) : ∃ t, viewOf d p = some t ∧ t.mem = p.mem ∧
      ∀ b ∈ t.parts, SortedBy le key b := by
  have h := partsOf_some d.parts 0 p.md.levels (by
    intro l lv hl q hq
    obtain ⟨rows, hr, _⟩ := hc.parts l lv hl q hq
    exact ⟨rows, by simpa using hr⟩)
  refine ⟨_, by rw [viewOf, h]; rfl, rfl, ?_⟩
  intro b hb
  simp only [List.mem_flatten, List.mem_mapIdx] at hb
  obtain ⟨x, ⟨l, hl, rfl⟩, hb⟩ := hb
  obtain ⟨q, hq, rfl⟩ := List.mem_map.mp hb
  obtain ⟨rows, hr, _, _, hs, _⟩ := hc.parts l _ (by simp) q hq
  simpa [fileRows, hr] using hs

end OptiPrism.Storage
