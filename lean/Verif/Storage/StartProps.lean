import Verif.Storage.Start

/-! Property C156: starting the storage. -/

namespace OptiPrism.Storage

variable {α : Type}

/-! ## Specification -/

/-- The options say what the configuration does. -/
structure AskedFor (c : TableConf) (o : TableOpts) : Prop where
  levels : o.levels = c.levels
  l0 : o.l0MaxParts = c.l0MaxParts
  l1 : o.l1MaxSizeBytes = c.l1MaxSizeBytes
  level : o.levelSizeMultiplier = c.levelSizeMultiplier
  log : o.maxLogLengthBytes = c.maxLogLengthBytes
  part : o.mergeMaxL1PartSizeBytes = c.mergeMaxL1PartSizeBytes
  mult : o.mergePartSizeMultiplier = c.mergePartSizeMultiplier
  page : o.mergeDataPageSizeLimitBytes = some c.mergeDataPageSizeLimitBytes
  group : o.mergeRowGroupValuesLimit = c.mergeRowGroupValuesLimit
  array : o.mergeArraySize = c.mergeArraySize
  chunk : o.mergeChunkSize = c.mergeChunkSize
  arrayPage : o.mergeArrayPageSize = c.mergeArrayPageSize
  maxPage : o.mergeMaxPageSize = c.mergeMaxPageSize

/-- The tables of the server. -/
def sixTables : List (List Char) := ["events", "group_0", "group_1", "group_2", "group_3", "group_4"].map (·.toList)

/-- A table of the directory with its options and its data. -/
def HasTable (root : Root α) (n : List Char) (o : TableOpts) (x : α) : Prop := ∃ ls, (n, (⟨ls, some x, some (some o)⟩ : TableDir α)) ∈ root

/-- Every table can be recovered. -/
def Whole (root : Root α) : Prop := ∀ q ∈ root, ∃ o x, q.2.manifest = some (some o) ∧ q.2.data = some x

/-! ## Lemmas -/

theorem recovers_iff (d : TableDir α) : d.recovers = true ↔ ∃ o x, d.manifest = some (some o) ∧ d.data = some x := by
  obtain ⟨ls, x, m⟩ := d
  unfold TableDir.recovers
  rcases m with _ | _ | o <;> rcases x with _ | x <;> simp

theorem whole_iff (root : Root α) : root.all (fun q => q.2.recovers) = true ↔ Whole root := by
  rw [List.all_eq_true]
  exact ⟨fun h q hq => (recovers_iff _).mp (h q hq), fun h q hq => (recovers_iff _).mpr (h q hq)⟩

theorem update_absent {root : Root α} {n : List Char} (f : TableDir α → TableDir α) (h : n ∉ root.map (·.1)) : root.update n f = root := by
  unfold Root.update
  conv => rhs; rw [← List.map_id root]
  apply List.map_congr_left
  intro q hq
  rw [if_neg]; rfl
  intro e
  exact h (List.mem_map.mpr ⟨q, hq, e⟩)

theorem update_append (root more : Root α) (n : List Char) (f : TableDir α → TableDir α) : (root ++ more : Root α).update n f = root.update n f ++ more.update n f := by
  unfold Root.update
  rw [List.map_append]

theorem update_last {root : Root α} {n : List Char} (d : TableDir α) (f : TableDir α → TableDir α) (h : n ∉ root.map (·.1)) :
    (root ++ [(n, d)] : Root α).update n f = root ++ [(n, f d)] := by
  rw [update_append, update_absent f h]
  simp [Root.update]

theorem find_last {root : Root α} {n : List Char} (d : TableDir α) (h : n ∉ root.map (·.1)) :
    (root ++ [(n, d)]).find? (fun q => q.1 = n) = some (n, d) := by
  rw [List.find?_append, List.find?_eq_none.mpr, Option.none_or]
  · simp
  · intro q hq e
    exact h (List.mem_map.mpr ⟨q, hq, by simpa using e⟩)

theorem runOps_append (fresh : α) (a b : List StartOp) : ∀ root, (runOps fresh root a).2 = true → runOps fresh root (a ++ b) = runOps fresh (runOps fresh root a).1 b := by
  induction a with
  | nil => intro root _; rfl
  | cons op a ih =>
    intro root h
    have hc : ∀ l, runOps fresh root (op :: l) = match op.apply fresh root with
        | none => (root, false)
        | some root => runOps fresh root l := fun l => rfl
    rw [List.cons_append, hc, hc]
    rw [hc] at h
    cases e : op.apply fresh root with
    | none => rw [e] at h; cases h
    | some r => rw [e] at h; exact ih r h

/-- The directory of a table just made. -/
def madeDir (fresh : α) (o : TableOpts) : TableDir α := ⟨List.range o.levels, some fresh, some (some o)⟩

theorem run_levels (fresh : α) {root : Root α} {n : List Char} (h : n ∉ root.map (·.1)) (d : TableDir α) (hd : d.levels = []) (k : Nat) :
    runOps fresh (root ++ [(n, d)]) ((List.range k).map (.level n)) = (root ++ [(n, { d with levels := List.range k })], true) := by
  induction k with
  | zero => cases d; cases hd; rfl
  | succ k ih =>
    rw [List.range_succ, List.map_append, runOps_append _ _ _ _ (by rw [ih]), ih]
    show runOps fresh (Root.update _ _ _) [] = _
    rw [update_last _ _ h]
    show (_, true) = _
    simp [List.mem_range]

theorem run_create (fresh : α) {root : Root α} {n : List Char} (o : TableOpts) (h : n ∉ root.map (·.1)) :
    runOps fresh root (createOps n o) = (root ++ [(n, madeDir fresh o)], true) := by
  unfold createOps
  have e0 : runOps fresh root (.dir n :: (List.range o.levels).map (.level n)) = (root ++ [(n, ⟨List.range o.levels, none, none⟩)], true) := by
    have : ¬ (root.any (fun q => q.1 = n)) = true := by
      rw [List.any_eq_true]
      rintro ⟨q, hq, e⟩
      exact h (List.mem_map.mpr ⟨q, hq, by simpa using e⟩)
    show runOps fresh (if root.any (fun q => q.1 = n) then root else _) _ = _
    rw [if_neg this, run_levels fresh h _ rfl]
  rw [runOps_append _ _ _ _ (by rw [e0]), e0]
  dsimp only
  unfold runOps
  simp only [StartOp.apply, find_last _ h]
  rw [update_last _ _ h]
  unfold runOps
  simp only [StartOp.apply, find_last _ h]
  rw [update_last _ _ h]
  unfold runOps
  simp only [StartOp.apply]
  rw [update_last _ _ h]
  rfl

theorem run_calls (fresh : α) (calls : List (List Char × TableOpts)) : ∀ root : Root α, (calls.map (·.1)).Nodup → (∀ q ∈ calls, q.1 ∉ root.map (·.1)) →
    runOps fresh root (calls.flatMap fun q => createOps q.1 q.2) = (root ++ calls.map fun q => (q.1, madeDir fresh q.2), true) := by
  induction calls with
  | nil => intro root _ _; simp [runOps]
  | cons q calls ih =>
    intro root hn hd
    rw [List.map_cons, List.nodup_cons] at hn
    have e := run_create fresh q.2 (hd q (by simp))
    rw [List.flatMap_cons, runOps_append _ _ _ _ (by rw [e]), e, ih _ hn.2]
    · simp
    · intro p hp hm
      rw [List.map_append, List.mem_append] at hm
      rcases hm with hm | hm
      · exact hd p (by simp [hp]) hm
      · simp at hm
        exact hn.1 (List.mem_map.mpr ⟨p, hp, hm⟩)

theorem initOps_eq (calls : List (List Char × TableOpts)) : ∀ have_, (calls.map (·.1)).Nodup →
    initOps have_ calls = (calls.filter fun q => q.1 ∉ have_).flatMap fun q => createOps q.1 q.2 := by
  induction calls with
  | nil => intro _ _; rfl
  | cons q calls ih =>
    intro have_ hn
    rw [List.map_cons, List.nodup_cons] at hn
    obtain ⟨n, o⟩ := q
    unfold initOps
    by_cases h : n ∈ have_
    · rw [if_pos h, ih _ hn.2, List.filter_cons_of_neg (by simpa using h)]
    · rw [if_neg h, ih _ hn.2, List.filter_cons_of_pos (by simpa using h), List.flatMap_cons]
      congr 2
      apply List.filter_congr
      intro p hp
      have : p.1 ≠ n := fun e => hn.1 (List.mem_map.mpr ⟨p, hp, e⟩)
      simp [this]

theorem calls_names (c : TablesConf) : (tableCalls c).map (·.1) = sixTables := by
  unfold tableCalls
  rw [List.map_cons, List.map_map]
  show eventsName :: (List.range 5).map groupName = sixTables
  decide +kernel

theorem calls_nodup (c : TablesConf) : ((tableCalls c).map (·.1)).Nodup := by
  rw [calls_names]
  decide +kernel

/-- The directory a change is for. -/
def StartOp.target : StartOp → List Char
  | .dir n | .level n _ | .log n | .manifest n | .write n _ => n

theorem apply_prefix (fresh : α) {root more r : Root α} {op : StartOp} (h : op.target ∉ root.map (·.1)) (e : op.apply fresh (root ++ more) = some r) :
    ∃ more', r = root ++ more' := by
  cases op with
  | dir n =>
    cases e
    split
    · exact ⟨more, rfl⟩
    · exact ⟨_, List.append_assoc ..⟩
  | level n l => cases e; rw [update_append, update_absent (n := n) _ h]; exact ⟨_, rfl⟩
  | write n o => cases e; rw [update_append, update_absent (n := n) _ h]; exact ⟨_, rfl⟩
  | log n =>
    unfold StartOp.apply at e
    dsimp only at e
    split at e
    · cases e; rw [update_append, update_absent (n := n) _ h]; exact ⟨_, rfl⟩
    · cases e
  | manifest n =>
    unfold StartOp.apply at e
    dsimp only at e
    split at e
    · cases e; rw [update_append, update_absent (n := n) _ h]; exact ⟨_, rfl⟩
    · cases e

theorem runOps_prefix (fresh : α) {root : Root α} (ops : List StartOp) : ∀ more : Root α, (∀ op ∈ ops, op.target ∉ root.map (·.1)) →
    ∃ more', (runOps fresh (root ++ more) ops).1 = root ++ more' := by
  induction ops with
  | nil => intro more _; exact ⟨more, rfl⟩
  | cons op ops ih =>
    intro more h
    unfold runOps
    cases e : op.apply fresh (root ++ more) with
    | none => exact ⟨more, rfl⟩
    | some r =>
      obtain ⟨more', rfl⟩ := apply_prefix fresh (h op (by simp)) e
      exact ih more' fun op hop => h op (by simp [hop])

theorem createOps_target {n : List Char} {o : TableOpts} {op : StartOp} (h : op ∈ createOps n o) : op.target = n := by
  unfold createOps at h
  simp at h
  rcases h with rfl | ⟨l, _, rfl⟩ | rfl | rfl | rfl <;> rfl

theorem initOps_target {have_ : List (List Char)} {c : TablesConf} {op : StartOp} (h : op ∈ initOps have_ (tableCalls c)) : op.target ∉ have_ := by
  rw [initOps_eq _ _ (calls_nodup c)] at h
  obtain ⟨q, hq, h⟩ := List.mem_flatMap.mp h
  rw [createOps_target h]
  simpa using (List.mem_filter.mp hq).2

/-- A start, whole or cut, changes nothing of what is there. -/
theorem start_prefix (fresh : α) (c : TablesConf) (cut : Option Nat) (root : Root α) : ∃ more, (startTables fresh c cut root).1 = root ++ more := by
  unfold startTables
  split
  · cases cut with
    | none =>
      have := runOps_prefix fresh (root := root) (initOps (root.map (·.1)) (tableCalls c)) [] (fun op h => initOps_target h)
      simpa using this
    | some k =>
      have := runOps_prefix fresh (root := root) ((initOps (root.map (·.1)) (tableCalls c)).take k) [] (fun op h => initOps_target (List.mem_of_mem_take h))
      simpa using this
  · exact ⟨[], by simp⟩

/-! ## The claim -/

/-- C156: a start of the server on a directory without tables makes the six tables, with the options the configuration file asks for, keyed by two columns,
the tables of groups replacing and the one of events not, and empty. -/
theorem C156_first (fresh : α) (c : TablesConf) : ∃ root, startTables fresh c none [] = (root, true) ∧ root.map (·.1) = sixTables ∧ Whole root ∧
    ∀ n o x, HasTable root n o x → x = fresh ∧ o.indexCols = 2 ∧
      ((n = "events".toList ∧ AskedFor c.events o ∧ o.isReplacing = false) ∨ (n ≠ "events".toList ∧ AskedFor c.group o ∧ o.isReplacing = true)) := by
  refine ⟨(tableCalls c).map fun q => (q.1, madeDir fresh q.2), ?_, ?_, ?_, ?_⟩
  · unfold startTables
    rw [if_pos (by rfl)]
    show runOps fresh [] (initOps [] (tableCalls c)) = _
    rw [initOps_eq _ _ (calls_nodup c)]
    have : (tableCalls c).filter (fun q => decide (q.1 ∉ ([] : List (List Char)))) = tableCalls c := by
      rw [List.filter_eq_self]; intro q _; simp
    rw [this, run_calls fresh _ _ (calls_nodup c) (by simp)]
    rfl
  · rw [List.map_map, ← calls_names c]; rfl
  · intro q hq
    obtain ⟨p, _, rfl⟩ := List.mem_map.mp hq
    exact ⟨_, _, rfl, rfl⟩
  · rintro n o x ⟨ls, h⟩
    obtain ⟨p, hp, e⟩ := List.mem_map.mp h
    unfold madeDir at e
    cases e
    refine ⟨rfl, ?_⟩
    unfold tableCalls at hp
    rcases List.mem_cons.mp hp with rfl | hp
    · exact ⟨rfl, .inl ⟨rfl, ⟨rfl, rfl, rfl, rfl, rfl, rfl, rfl, rfl, rfl, rfl, rfl, rfl, rfl⟩, rfl⟩⟩
    · obtain ⟨g, hg, rfl⟩ := List.mem_map.mp hp
      refine ⟨rfl, .inr ⟨?_, ⟨rfl, rfl, rfl, rfl, rfl, rfl, rfl, rfl, rfl, rfl, rfl, rfl, rfl⟩, rfl⟩⟩
      show groupName g ≠ _
      revert hg
      have : ∀ g ∈ List.range 5, groupName g ≠ "events".toList := by decide +kernel
      exact this g

/-- C156: a start on tables that can all be recovered goes on, keeps them as they are and makes those of the six that are not there. -/
theorem C156_start (fresh : α) (c : TablesConf) (root : Root α) (h : Whole root) : ∃ more, startTables fresh c none root = (root ++ more, true) ∧ Whole (root ++ more) ∧
    (more.map (·.1)).Nodup ∧ ∀ n, n ∈ more.map (·.1) ↔ n ∈ sixTables ∧ n ∉ root.map (·.1) := by
  have hn : (((tableCalls c).filter fun q => q.1 ∉ root.map (·.1)).map (·.1)).Nodup := (calls_nodup c).sublist (List.filter_sublist.map _)
  refine ⟨((tableCalls c).filter fun q => q.1 ∉ root.map (·.1)).map fun q => (q.1, madeDir fresh q.2), ?_, ?_, ?_, ?_⟩
  · unfold startTables
    rw [if_pos ((whole_iff root).mpr h)]
    dsimp only
    rw [initOps_eq _ _ (calls_nodup c), run_calls fresh _ _ hn]
    intro q hq
    simpa using (List.mem_filter.mp hq).2
  · intro q hq
    rcases List.mem_append.mp hq with hq | hq
    · exact h q hq
    · obtain ⟨p, _, rfl⟩ := List.mem_map.mp hq
      exact ⟨_, _, rfl, rfl⟩
  · rw [List.map_map]; exact hn
  · intro n
    rw [List.map_map, ← calls_names c]
    constructor
    · intro hm
      obtain ⟨q, hq, rfl⟩ := List.mem_map.mp hm
      exact ⟨List.mem_map.mpr ⟨q, (List.mem_filter.mp hq).1, rfl⟩, by simpa using (List.mem_filter.mp hq).2⟩
    · rintro ⟨hm, h2⟩
      obtain ⟨q, hq, rfl⟩ := List.mem_map.mp hm
      exact List.mem_map.mpr ⟨q, List.mem_filter.mpr ⟨hq, by simpa using h2⟩, rfl⟩

/-- Specification: what is done to the data of a table between starts. -/
def worked (n : List Char) (x : α) (ls : List (Life α)) : α := ls.foldl (fun x l => match l with | .work f => f n x | .start .. => x) x

theorem life_prefix (fresh : α) {n : List Char} {lv : List Nat} {o : TableOpts} (ls : List (Life α)) : ∀ (root : Root α) (x : α),
    (n, (⟨lv, some x, some (some o)⟩ : TableDir α)) ∈ root → (n, (⟨lv, some (worked n x ls), some (some o)⟩ : TableDir α)) ∈ lifeOf fresh root ls := by
  induction ls with
  | nil => intro root x h; exact h
  | cons l ls ih =>
    intro root x h
    cases l with
    | start c cut =>
      refine ih _ x ?_
      obtain ⟨more, e⟩ := start_prefix fresh c cut root
      show _ ∈ (startTables fresh c cut root).1
      rw [e]
      exact List.mem_append_left _ h
    | work f =>
      refine ih _ (f n x) ?_
      exact List.mem_map.mpr ⟨_, h, rfl⟩

/-- C156: whatever starts there are, complete or ended anywhere, with whatever configurations, a table keeps its options, and its data are what the work
between the starts makes of them. -/
theorem C156_kept (fresh : α) (root : Root α) (ls : List (Life α)) {n : List Char} {o : TableOpts} {x : α} (h : HasTable root n o x) :
    HasTable (lifeOf fresh root ls) n o (worked n x ls) := by
  obtain ⟨lv, h⟩ := h
  exact ⟨lv, life_prefix fresh ls root x h⟩

/-- C156: after a start that went on, every later start goes on as well and changes nothing, if none of those in between was ended. -/
theorem C156_again (fresh : α) (c c' : TablesConf) (root : Root α) (h : (startTables fresh c none root).2 = true) :
    startTables fresh c' none (startTables fresh c none root).1 = ((startTables fresh c none root).1, true) := by
  have hw : Whole root := by
    rw [← whole_iff]
    unfold startTables at h
    split at h
    · assumption
    · cases h
  obtain ⟨more, e, w, hn, hm⟩ := C156_start fresh c root hw
  rw [e]
  dsimp only
  obtain ⟨more', e', _, _, hm'⟩ := C156_start fresh c' (root ++ more) w
  have : more' = [] := by
    cases more' with
    | nil => rfl
    | cons q l =>
      obtain ⟨h1, h2⟩ := (hm' q.1).mp (by simp)
      rw [List.map_append, List.mem_append, hm] at h2
      by_cases hq : q.1 ∈ root.map (·.1)
      · exact absurd (.inl hq) h2
      · exact absurd (.inr ⟨h1, hq⟩) h2
  rw [e', this, List.append_nil]

/-- Another configuration has no effect on the tables there are: the file can ask for anything, and the options of the first start are used. -/
theorem C156_settings_violated (fresh : α) (c c' : TablesConf) (hc : c.events.levels ≠ c'.events.levels) :
    ∃ o, HasTable (startTables fresh c' none (startTables fresh c none []).1).1 "events".toList o fresh ∧ ¬ AskedFor c'.events o := by
  obtain ⟨root, e, hn, hw, ht⟩ := C156_first fresh c
  have e' := C156_again fresh c c' [] (by rw [e])
  rw [e'] 
  have hm : "events".toList ∈ (startTables fresh c none []).1.map (·.1) := by
    rw [e]
    dsimp only
    rw [hn]
    decide +kernel
  obtain ⟨q, hq, hqn⟩ := List.mem_map.mp hm
  rw [e] at hq ⊢
  obtain ⟨o, x, h1, h2⟩ := hw q hq
  have hh : HasTable root "events".toList o x := by
    obtain ⟨n, lv, x', m⟩ := q
    dsimp only at h1 h2 hqn
    subst h1 h2 hqn
    exact ⟨lv, hq⟩
  obtain ⟨rfl, -, h⟩ := ht _ _ _ hh
  rcases h with ⟨-, h, -⟩ | ⟨h, -⟩
  · exact ⟨o, hh, fun h' => hc (h.levels.symm.trans h'.levels)⟩
  · exact absurd rfl h

/-! ## Interrupted starts -/

/-- C156, `_partial`: a first start ended between two tables is made good by the next. Missing: a start ended within a table (`C156_interrupted_violated`). -/
theorem C156_interrupted_partial (fresh : α) (c c' : TablesConf) (j : Nat) :
    let cut := (((tableCalls c).take j).map fun q => q.2.levels + 4).sum
    ∃ root, startTables fresh c' none (startTables fresh c (some cut) []).1 = (root, true) ∧ Whole root ∧ ∀ n ∈ sixTables, n ∈ root.map (·.1) := by
  intro cut
  have hl : ∀ calls : List (List Char × TableOpts), (calls.flatMap fun q => createOps q.1 q.2).length = (calls.map fun q => q.2.levels + 4).sum := by
    intro calls
    induction calls with
    | nil => rfl
    | cons q l ih =>
      rw [List.flatMap_cons, List.length_append, ih, List.map_cons, List.sum_cons]
      simp [createOps]
  have hw : Whole (startTables fresh c (some cut) []).1 := by
    unfold startTables
    rw [if_pos (by rfl)]
    show Whole (runOps fresh [] ((initOps [] (tableCalls c)).take cut)).1
    rw [initOps_eq _ _ (calls_nodup c)]
    have : (tableCalls c).filter (fun q => decide (q.1 ∉ ([] : List (List Char)))) = tableCalls c := by
      rw [List.filter_eq_self]; intro q _; simp
    rw [this]
    have hs : ((tableCalls c).flatMap fun q => createOps q.1 q.2).take cut = ((tableCalls c).take j).flatMap fun q => createOps q.1 q.2 := by
      conv => lhs; rw [← List.take_append_drop j (tableCalls c), List.flatMap_append]
      rw [show cut = _ from (hl _).symm, List.take_left]
    rw [hs, run_calls fresh _ _ ((calls_nodup c).sublist ((List.take_sublist _ _).map _)) (by simp)]
    intro q hq
    obtain ⟨p, _, rfl⟩ := List.mem_map.mp (by simpa using hq : q ∈ ((tableCalls c).take j).map fun q => (q.1, madeDir fresh q.2))
    exact ⟨_, _, rfl, rfl⟩
  obtain ⟨more, e, w, -, hm⟩ := C156_start fresh c' _ hw
  refine ⟨_, e, w, ?_⟩
  intro n hn
  rw [List.map_append, List.mem_append]
  by_cases hq : n ∈ (startTables fresh c (some cut) []).1.map (·.1)
  · exact .inl hq
  · exact .inr ((hm n).mpr ⟨hn, hq⟩)

/-- Once a table cannot be recovered, no start goes on, and whatever is tried it stays so. -/
theorem C156_stuck (fresh : α) {root : Root α} (h : ¬ Whole root) (ls : List (Life α)) (c : TablesConf) (cut : Option Nat) :
    ¬ Whole (lifeOf fresh root ls) ∧ startTables fresh c cut (lifeOf fresh root ls) = (lifeOf fresh root ls, false) := by
  have key : ¬ Whole (lifeOf fresh root ls) := by
    induction ls generalizing root with
    | nil => exact h
    | cons l ls ih =>
      refine ih (root := l.run fresh root) ?_
      cases l with
      | start c cut =>
        intro hw
        obtain ⟨more, e⟩ := start_prefix fresh c cut root
        apply h
        intro q hq
        apply hw q
        show q ∈ (startTables fresh c cut root).1
        rw [e]
        exact List.mem_append_left _ hq
      | work f =>
        intro hw
        apply h
        intro q hq
        rw [← recovers_iff]
        have := hw _ (List.mem_map.mpr ⟨q, hq, rfl⟩)
        rw [← recovers_iff] at this
        cases hr : q.2.recovers with
        | true => rfl
        | false => simp [hr] at this
  refine ⟨key, ?_⟩
  unfold startTables
  rw [if_neg]
  rwa [whole_iff]

/-- The table is there and its manifest is not written. -/
def Unwritten (n : List Char) (root : Root α) : Prop := ∃ d : TableDir α, (n, d) ∈ root ∧ ∀ o, d.manifest ≠ some (some o)

theorem unwritten_update {n m : List Char} {root : Root α} {f : TableDir α → TableDir α} (h : Unwritten n root) (hf : ∀ d : TableDir α, (∀ o, d.manifest ≠ some (some o)) → ∀ o, (f d).manifest ≠ some (some o)) :
    Unwritten n (root.update m f) := by
  obtain ⟨d, hd, hm⟩ := h
  by_cases e : n = m
  · exact ⟨f d, List.mem_map.mpr ⟨_, hd, by simp [e]⟩, hf d hm⟩
  · exact ⟨d, List.mem_map.mpr ⟨_, hd, by simp [e]⟩, hm⟩

theorem unwritten_run (fresh : α) {n : List Char} (ops : List StartOp) : ∀ root : Root α, (∀ op ∈ ops, ∀ m o, op ≠ .write m o) → Unwritten n root →
    Unwritten n (runOps fresh root ops).1 := by
  induction ops with
  | nil => intro root _ h; exact h
  | cons op ops ih =>
    intro root hop h
    unfold runOps
    cases e : op.apply fresh root with
    | none => exact h
    | some r =>
      refine ih r (fun op' h' => hop op' (by simp [h'])) ?_
      cases op with
      | write m o => exact absurd rfl (hop _ (by simp) m o)
      | dir m =>
        cases e
        split
        · exact h
        · obtain ⟨d, hd, hm⟩ := h; exact ⟨d, List.mem_append_left _ hd, hm⟩
      | level m l => cases e; exact unwritten_update h fun d hd => hd
      | log m =>
        unfold StartOp.apply at e
        dsimp only at e
        split at e
        · cases e; exact unwritten_update h fun d hd => hd
        · cases e
      | manifest m =>
        unfold StartOp.apply at e
        dsimp only at e
        split at e
        · cases e; exact unwritten_update h fun d hd => (by intro o; simp)
        · cases e

/-- A start ended after the directory of a table was made and before its manifest was written (here: of the events) leaves a store that no later start
can open, with whatever configuration and however often it is tried. -/
theorem C156_interrupted_violated (fresh : α) (c : TablesConf) (k : Nat) (h0 : 0 < k) (hk : k < c.events.levels + 4) (ls : List (Life α)) (c' : TablesConf) :
    (startTables fresh c' none (lifeOf fresh (startTables fresh c (some k) []).1 ls)).2 = false := by
  have hw : ¬ Whole (startTables fresh c (some k) []).1 := by
    unfold startTables
    rw [if_pos (by rfl)]
    show ¬ Whole (runOps fresh [] ((initOps [] (tableCalls c)).take k)).1
    obtain ⟨k, rfl⟩ : ∃ j, k = j + 1 := ⟨k - 1, by omega⟩
    have hi : (initOps [] (tableCalls c)).take (k + 1) = .dir eventsName :: ((List.range c.events.levels).map (StartOp.level eventsName) ++ [StartOp.log eventsName, StartOp.manifest eventsName]).take k := by
      show ((StartOp.dir eventsName :: (List.range c.events.levels).map (StartOp.level eventsName) ++ [StartOp.log eventsName, StartOp.manifest eventsName, StartOp.write eventsName (c.events.common.opts false)]) ++
        initOps [eventsName] _).take (k + 1) = _
      rw [List.cons_append, List.cons_append, List.take_succ_cons]
      congr 1
      rw [show [StartOp.log eventsName, StartOp.manifest eventsName, StartOp.write eventsName (c.events.common.opts false)] =
        [StartOp.log eventsName, StartOp.manifest eventsName] ++ [StartOp.write eventsName (c.events.common.opts false)] from rfl, ← List.append_assoc, List.append_assoc,
        List.take_append_of_le_length]
      simp
      omega
    rw [hi]
    intro hw
    have hu : Unwritten eventsName (runOps fresh ([(eventsName, ⟨[], none, none⟩)] : Root α) (((List.range c.events.levels).map (StartOp.level eventsName) ++ [StartOp.log eventsName, StartOp.manifest eventsName]).take k)).1 := by
      apply unwritten_run
      · intro op hop m o e
        have := List.mem_of_mem_take hop
        subst e
        simp at this
      · exact ⟨_, List.mem_singleton.mpr rfl, by intro o; simp⟩
    obtain ⟨d, hd, hm⟩ := hu
    obtain ⟨o, x, h1, -⟩ := hw _ hd
    exact hm o h1
  rw [(C156_stuck fresh hw ls c' none).2]

/-! ## Examples -/

def exTable (levels : Nat) : TableConf := ⟨levels, 4, 1024, 10, 2048, 512, 10, 256, 1000, 64, 128, 32, 16⟩

/-- Two starts with other settings and work in between: six tables, the options of the first start, the data of the work. -/
example : (lifeOf (0 : Nat) [] [.start ⟨exTable 7, exTable 6⟩ none, .work fun _ x => x + 3, .start ⟨exTable 2, exTable 2⟩ none]).map (fun q => (q.2.levels.length, q.2.data)) =
    [(7, some 3), (6, some 3), (6, some 3), (6, some 3), (6, some 3), (6, some 3)] := by decide +kernel

/-- A start ended after the first table and one more step: the next one fails. -/
example : (startTables (0 : Nat) ⟨exTable 2, exTable 2⟩ none (startTables 0 ⟨exTable 2, exTable 2⟩ (some 7) []).1).2 = false ∧
    (startTables (0 : Nat) ⟨exTable 2, exTable 2⟩ none (startTables 0 ⟨exTable 2, exTable 2⟩ (some 6) []).1).2 = true := by decide +kernel

/-- As in `C156_kept`: a table of a directory. -/
example : HasTable (startTables (0 : Nat) ⟨exTable 2, exTable 2⟩ none []).1 "events".toList ((exTable 2).opts false) 0 := ⟨[0, 1], List.mem_cons_self ..⟩

end OptiPrism.Storage
