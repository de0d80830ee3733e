import Verif.Ingest.Rows
import Verif.Meta.SystemProps
import Verif.Meta.Sessions

/-!
# C47, C74, C76: the rows of a track request
-/

namespace OptiPrism.Ingest

open OptiPrism.Meta
open OptiPrism.Storage (Bytes Value NamedValue Tbl InsertErr ColType Field Row supplied KeyFirst)

variable {Q : Type}

/-! ## Names -/

theorem groupCol_ne {g : Nat} {k : Str} (h : k.head? ≠ some 'g') : groupCol g ≠ k := by
  intro e
  apply h
  rw [← e]
  have : kGroup_.head? = some 'g' := by decide +kernel
  unfold groupCol
  cases hk : kGroup_ with
  | nil => rw [hk] at this; cases this
  | cons c l => rw [hk] at this; simpa using this

theorem groupCol_inj {g h : Nat} : groupCol g = groupCol h ↔ g = h := by
  unfold groupCol
  rw [List.append_cancel_left_eq]
  exact ⟨decimal_inj, fun e => by rw [e]⟩

theorem ne_projectId (g : Nat) : groupCol g ≠ kProjectId := groupCol_ne (by decide +kernel)
theorem ne_createdAt (g : Nat) : groupCol g ≠ kCreatedAt := groupCol_ne (by decide +kernel)
theorem ne_eventId (g : Nat) : groupCol g ≠ kEventId := groupCol_ne (by decide +kernel)
theorem ne_event (g : Nat) : groupCol g ≠ kEvent := groupCol_ne (by decide +kernel)
theorem ne_ip (g : Nat) : groupCol g ≠ kIp := groupCol_ne (by decide +kernel)

/-! ## Finding a value by its name -/

/-- Spec: the value supplied under a name. -/
def val (vs : List NamedValue) (n : Str) : Value := supplied vs (String.ofList n)

theorem find_name (a : Str) (v : Value) (n : Str) : ((nv a v).name == String.ofList n) = decide (a = n) := by
  unfold nv
  by_cases h : a = n
  · simp [h]
  · simp only [h, decide_false, beq_eq_false_iff_ne, ne_eq]
    exact fun e => h (String.ofList_injective e)

theorem val_cons (a : Str) (v : Value) (l : List NamedValue) (n : Str) : val (nv a v :: l) n = if a = n then v else val l n := by
  unfold val supplied
  rw [List.find?_cons, find_name]
  by_cases h : a = n
  · simp [h, nv]
  · simp [h]

theorem val_skip {l l' : List NamedValue} {n : Str} (h : ∀ v ∈ l, v.name ≠ String.ofList n) : val (l ++ l') n = val l' n := by
  unfold val supplied
  rw [List.find?_append]
  have : l.find? (fun v => v.name == String.ofList n) = none := by
    rw [List.find?_eq_none]
    intro v hv
    simpa using h v hv
  rw [this]; rfl

/-- A group column of the row. -/
def groupVal (groups : Option (List (Nat × GroupValues))) (g : Nat) : Value :=
  match (groups.getD []).find? (fun x => x.1 == g) with
  | some x => i64 x.2.id
  | none => .int64 none

theorem groupCells_name (groups : Option (List (Nat × GroupValues))) : ∀ v ∈ groupCells groups, ∃ g, v.name = String.ofList (groupCol g) := by
  intro v hv
  unfold groupCells at hv
  cases groups with
  | none =>
    obtain ⟨g, -, rfl⟩ := List.mem_map.mp hv
    exact ⟨g, rfl⟩
  | some l =>
    rcases List.mem_append.mp hv with h | h
    · obtain ⟨g, -, rfl⟩ := List.mem_map.mp h
      exact ⟨g.1, rfl⟩
    · obtain ⟨g, -, rfl⟩ := List.mem_map.mp h
      exact ⟨g, rfl⟩

theorem groupCells_skip {groups : Option (List (Nat × GroupValues))} {n : Str} (h : ∀ g, groupCol g ≠ n) : ∀ v ∈ groupCells groups, v.name ≠ String.ofList n := by
  intro v hv e
  obtain ⟨g, hg⟩ := groupCells_name groups v hv
  exact h g (String.ofList_injective (hg.symm.trans e))

theorem val_nulls (gs : List Nat) (l : List NamedValue) (g : Nat) (hg : g ∈ gs) : val (gs.map (fun g => nv (groupCol g) (.int64 none)) ++ l) (groupCol g) = .int64 none := by
  induction gs with
  | nil => cases hg
  | cons x gs ih =>
    rw [List.map_cons, List.cons_append, val_cons]
    split
    · rfl
    · rename_i hx
      refine ih ?_
      rcases List.mem_cons.mp hg with rfl | h
      · exact absurd rfl hx
      · exact h

theorem val_groups (l : List (Nat × GroupValues)) (r : List NamedValue) (g : Nat) :
    val (l.map (fun g => nv (groupCol g.1) (i64 g.2.id)) ++ r) (groupCol g) =
      match l.find? (fun x => x.1 == g) with | some x => i64 x.2.id | none => val r (groupCol g) := by
  induction l with
  | nil => rfl
  | cons x l ih =>
    rw [List.map_cons, List.cons_append, val_cons, ih, List.find?_cons]
    by_cases h : x.1 = g
    · simp [h]
    · rw [if_neg (fun e => h (groupCol_inj.mp e))]
      have : (x.1 == g) = false := by simpa using h
      rw [this]

theorem val_groupCells (groups : Option (List (Nat × GroupValues))) (l : List NamedValue) {g : Nat} (hg : g ∈ [1, 2, 3, 4]) :
    val (groupCells groups ++ l) (groupCol g) = groupVal groups g := by
  unfold groupVal
  cases groups with
  | none => exact val_nulls _ _ _ hg
  | some gs =>
    rw [groupCells, List.append_assoc, val_groups]
    simp only [Option.getD_some]
    cases hf : gs.find? (fun x => x.1 == g) with
    | some x => rfl
    | none =>
      dsimp only
      refine val_nulls _ _ _ (List.mem_filter.mpr ⟨hg, ?_⟩)
      rw [List.find?_eq_none] at hf
      simp only [Bool.not_eq_true', List.contains_eq_mem, decide_eq_false_iff_not, List.mem_map, not_exists, not_and]
      intro x hx e
      exact hf x hx (by simpa using e)

theorem val_key (p user : Nat) (l : List NamedValue) : val (keyCells p user ++ l) kProjectId = i64 p ∧ val (keyCells p user ++ l) (groupCol 0) = i64 user := by
  have : keyCells p user ++ l = nv kProjectId (i64 p) :: nv (groupCol 0) (i64 user) :: l := rfl
  rw [this]
  constructor
  · rw [val_cons, if_pos rfl]
  · rw [val_cons, if_neg (fun e => ne_projectId 0 e.symm), val_cons, if_pos rfl]

theorem val_key_skip (p user : Nat) (l : List NamedValue) {n : Str} (h1 : kProjectId ≠ n) (h2 : groupCol 0 ≠ n) : val (keyCells p user ++ l) n = val l n := by
  have : keyCells p user ++ l = nv kProjectId (i64 p) :: nv (groupCol 0) (i64 user) :: l := rfl
  rw [this, val_cons, if_neg h1, val_cons, if_neg h2]

/-! ## The tables -/

/-- The events table as `init_storage` and the creation of a project leave it: its key columns come first. -/
structure EventsTable (t : Tbl) (rs : List Row) : Prop where
  good : t.Good rs
  index : t.indexCols = 2
  nodup : (t.schema.map Field.name).Nodup
  key : (t.schema.take 2).map Field.name = [String.ofList kProjectId, String.ofList (groupCol 0)]

/-- Spec: the cell of a stored row in the column of a name. -/
def cell (t : Tbl) (row : Row) (n : Str) : Option Value := ((t.schema.zip row).find? fun x => x.1.name == String.ofList n).map Prod.snd

theorem EventsTable.ne {t : Tbl} {rs : List Row} (h : EventsTable t rs) : t.schema ≠ [] := by
  intro e
  have := h.key
  rw [e] at this
  cases this

theorem cell_map (t : Tbl) (vs : List NamedValue) (n : Str) (h : String.ofList n ∈ t.schema.map Field.name) :
    cell t (t.schema.map fun f => supplied vs f.name) n = some (val vs n) := by
  unfold cell val
  generalize t.schema = fs at h
  induction fs with
  | nil => cases h
  | cons f fs ih =>
    rw [List.map_cons, List.zip_cons_cons, List.find?_cons]
    by_cases hf : f.name = String.ofList n
    · simp [hf]
    · have : (f.name == String.ofList n) = false := by simpa using hf
      simp only [this]
      refine ih ?_
      rcases List.mem_cons.mp h with e | h
      · exact absurd e.symm hf
      · exact h

/-- A row with the key cells in front is stored under the names. -/
theorem EventsTable.insert {t t' : Tbl} {rs : List Row} (h : EventsTable t rs) {p user : Nat} {l : List NamedValue} (hi : t.insert (keyCells p user ++ l) = .ok t') :
    EventsTable t' (rs ++ [t.schema.map fun f => supplied (keyCells p user ++ l) f.name]) ∧ t'.schema = t.schema := by
  have hk : KeyFirst t (keyCells p user ++ l) := ⟨by rw [h.index, h.key]; rfl⟩
  obtain ⟨-, h1, h2, -⟩ := Storage.C06_partial t t' rs _ h.good h.ne h.nodup hk hi
  obtain ⟨pk, -, -, hg, hs, hx, -⟩ := Storage.insert_good h.good h.ne hi
  have e : rs ++ [t.schema.map fun f => supplied (keyCells p user ++ l) f.name] = rs ++ [pk.map Storage.KeyValue.toValue ++
        Storage.finalValues (t.schema.drop t.indexCols) ((keyCells p user ++ l).drop t.indexCols)] := by
    have := hg.rep.rows
    rw [h1] at this
    exact Option.some.inj this
  exact ⟨⟨by rw [e]; exact hg, by rw [hx, h.index], by rw [hs]; exact h.nodup, by rw [hs]; exact h.key⟩, hs⟩

/-- The table with some columns added, the rows with NULL in them. -/
def Grown (t : Tbl) (rs : List Row) (t' : Tbl) : Prop :=
  ∃ fs, t'.schema = t.schema ++ fs ∧ EventsTable t' (rs.map fun r => r ++ List.replicate fs.length .null)

theorem Grown.refl {t : Tbl} {rs : List Row} (h : EventsTable t rs) : Grown t rs t :=
  ⟨[], by simp, by simpa using h⟩

theorem Grown.addField {t t1 t' : Tbl} {rs : List Row} (h : Grown t rs t1) {f : Field} (hf : t1.addField f = some t') : Grown t rs t' := by
  obtain ⟨fs, h1, h2⟩ := h
  obtain ⟨g1, g2, -, g4⟩ := Storage.addField_good h2.good hf
  have hn : f.name ∉ t1.schema.map Field.name := (Storage.addField_some_iff _ _).mp ⟨_, hf⟩
  have hl : 2 ≤ t1.schema.length := by
    have := congrArg List.length h2.key
    simp only [List.length_map, List.length_take, List.length_cons, List.length_nil] at this
    omega
  refine ⟨fs ++ [f], by rw [g2, h1, List.append_assoc], ⟨?_, by rw [g4, h2.index], ?_, ?_⟩⟩
  · simpa [List.map_map, Function.comp_def, List.replicate_succ'] using g1
  · rw [g2, List.map_append, List.nodup_append]
    refine ⟨h2.nodup, by simp, ?_⟩
    rintro a ha b hb rfl
    simp only [List.map_cons, List.map_nil, List.mem_singleton] at hb
    exact hn (hb ▸ ha)
  · rw [g2, List.take_append_of_le_length hl]; exact h2.key

theorem kEvents_ne (g : Nat) : groupCol g ≠ kEvents := groupCol_ne (by decide +kernel)

theorem Grown.addColumns {t : Tbl} {rs : List Row} {w : World} (h : Grown t rs (w.tbl kEvents)) (sys : Str → Str) (r : Property) :
    Grown t rs ((addColumns sys r w).tbl kEvents) := by
  have key : ∀ (w : World) (n : Str) (dt : ColType) (b : Bool), Grown t rs (w.tbl kEvents) → Grown t rs ((addColumn kEvents n dt b w).tbl kEvents) := by
    intro w n dt b h
    unfold addColumn
    split
    · exact h
    · rename_i t' e
      simp only [if_true]
      exact h.addField e
  have other : ∀ (w : World) (g : Nat) (n : Str) (dt : ColType) (b : Bool), (addColumn (groupCol g) n dt b w).tbl kEvents = w.tbl kEvents := by
    intro w g n dt b
    unfold addColumn
    split
    · rfl
    · simp only [if_neg (fun e => kEvents_ne g (Eq.symm e))]
  unfold Ingest.addColumns
  split
  · exact h
  · dsimp only
    split
    · exact key _ _ _ _ h
    · rw [other]; exact key _ _ _ _ h

theorem resolveProperties_grown {t : Tbl} {rs : List Row} (sys : Str → Str) (now : Time) (p : Nat) (ty : PropType) (props : Option (List (Str × PropValue))) {w : World}
    (h : Grown t rs (w.tbl kEvents)) : Grown t rs ((resolveProperties sys now p ty props w).2.tbl kEvents) := by
  have one : ∀ nvp (w : World), Grown t rs (w.tbl kEvents) → Grown t rs ((resolveProperty sys now p ty nvp w).2.tbl kEvents) := by
    intro nvp w h
    unfold resolveProperty
    have := (NoTbl.call (propGetOrCreate sys p ty now (propReq ty nvp.1 nvp.2) (.ok ()))) w
    rcases hx : call (propGetOrCreate sys p ty now (propReq ty nvp.1 nvp.2) (.ok ())) w with ⟨_ | a, w1⟩ <;> rw [hx] at this
    · dsimp only at this ⊢; rw [this.2]; exact h
    · dsimp only at this ⊢
      have h' : Grown t rs (w1.tbl kEvents) := by rw [this.2]; exact h
      split
      · exact h'
      · exact h'.addColumns sys a
  have all : ∀ l (w : World), Grown t rs (w.tbl kEvents) → Grown t rs ((each (resolveProperty sys now p ty) l w).2.tbl kEvents) := by
    intro l
    induction l with
    | nil => intro w h; exact h
    | cons a l ih =>
      intro w h
      have h1 := one a w h
      unfold each M.bind
      rcases hx : resolveProperty sys now p ty a w with ⟨_ | b, w1⟩ <;> rw [hx] at h1
      · exact h1
      · dsimp only at h1 ⊢
        have h2 := ih w1 h1
        rcases hy : each (resolveProperty sys now p ty) l w1 with ⟨_ | bs, w2⟩ <;> rw [hy] at h2 <;> exact h2
  cases props with
  | none => exact h
  | some l =>
    have h1 := all l w h
    show Grown t rs ((((each (resolveProperty sys now p ty) l).bind fun r => M.pure (some r)) w).2.tbl kEvents)
    unfold M.bind
    rcases hx : each (resolveProperty sys now p ty) l w with ⟨_ | bs, w1⟩ <;> rw [hx] at h1 <;> exact h1

theorem resolveTrack_grown {t : Tbl} {rs : List Row} (E : Env Track) (p : Nat) (req : Track) {w : World} (h : Grown t rs (w.tbl kEvents)) :
    Grown t rs ((resolveTrack E p req w).2.tbl kEvents) := by
  have h1 := resolveProperties_grown E.sys E.now p .event req.props h
  unfold resolveTrack
  generalize hR : (fun props => (resolveUser p req.userId req.anonId).bind fun u => (resolveGroups p u.2 req.groups).bind fun groups =>
    (callRaw (getOrCreateEvent p E.now (eventReq req.event props))).bind fun ev => (attachProps p ev.id props).bind fun _ =>
    (transformed E p req props).bind fun props' => M.pure (⟨u.1, ev, props', groups⟩ : Resolved)) = R
  have hN : ∀ props, NoTbl (R props) := by
    intro props
    rw [← hR]
    exact (resolveUser_noTbl _ _ _).bind fun _ => (resolveGroups_noTbl _ _ _).bind fun _ =>
      (NoTbl.callRaw _).bind fun _ => (attachProps_noTbl _ _ _).bind fun _ => (transformed_noTbl _ _ _ _).bind fun _ => .pure _
  unfold M.bind
  rcases hx : resolveProperties E.sys E.now p .event req.props w with ⟨_ | props, w1⟩ <;> rw [hx] at h1
  · exact h1
  · dsimp only at h1 ⊢
    have h2 := hN props w1
    rw [h2.2]; exact h1

/-- The columns ingestion fills itself. -/
def sysCols : List Str := [kProjectId, groupCol 0, groupCol 1, groupCol 2, groupCol 3, groupCol 4, kCreatedAt, kEventId, kEvent]

/-- The values of those columns. -/
structure SystemCells (get : Str → Option Value) (p user rec ev : Nat) (time : BitVec 64) (groups : Option (List (Nat × GroupValues))) : Prop where
  project : get kProjectId = some (i64 p)
  user : get (groupCol 0) = some (i64 user)
  group : ∀ g ∈ [1, 2, 3, 4], get (groupCol g) = some (groupVal groups g)
  time : get kCreatedAt = some (.timestamp (some time))
  record : get kEventId = some (i64 rec)
  event : get kEvent = some (i64 ev)

theorem group_zero_ne {g : Nat} (h : g ∈ [1, 2, 3, 4]) : groupCol 0 ≠ groupCol g := by
  intro e
  have := groupCol_inj.mp e
  subst this
  revert h; decide

theorem eventRow_cells (p user rec ev : Nat) (t : Time) (groups : Option (List (Nat × GroupValues))) (cells : List NamedValue) :
    SystemCells (fun n => some (val (eventRow p user rec ev t (groupCells groups) cells) n)) p user rec ev (millis t) groups := by
  have h0 : eventRow p user rec ev t (groupCells groups) cells = keyCells p user ++ (groupCells groups ++
      (nv kCreatedAt (.timestamp (some (millis t))) :: nv kEventId (i64 rec) :: nv kEvent (i64 ev) :: cells)) := by
    simp [eventRow]
  simp only [h0]
  refine ⟨congrArg some (val_key p user _).1, congrArg some (val_key p user _).2, fun g hg => ?_, ?_, ?_, ?_⟩ <;> congr 1
  · rw [val_key_skip _ _ _ (Ne.symm (ne_projectId g)) (group_zero_ne hg), val_groupCells _ _ hg]
  · rw [val_key_skip _ _ _ (by decide +kernel) (ne_createdAt 0), val_skip (groupCells_skip ne_createdAt), val_cons, if_pos rfl]
  · rw [val_key_skip _ _ _ (by decide +kernel) (ne_eventId 0), val_skip (groupCells_skip ne_eventId), val_cons, if_neg (by decide +kernel), val_cons, if_pos rfl]
  · rw [val_key_skip _ _ _ (by decide +kernel) (ne_event 0), val_skip (groupCells_skip ne_event), val_cons, if_neg (by decide +kernel), val_cons,
      if_neg (by decide +kernel), val_cons, if_pos rfl]

theorem sessionRow_cells (p user rec ev : Nat) (t : Time) (ip : Str) (groups : Option (List (Nat × GroupValues))) (utm cells : List NamedValue)
    (hu : ∀ v ∈ utm, ∀ n ∈ sysCols, v.name ≠ String.ofList n) :
    SystemCells (fun n => some (val (sessionRow p user rec ev t ip (groupCells groups) utm cells) n)) p user rec ev (secs t) groups := by
  have h0 : sessionRow p user rec ev t ip (groupCells groups) utm cells = keyCells p user ++ (groupCells groups ++ (utm ++
      (nv kCreatedAt (.timestamp (some (secs t))) :: nv kEventId (i64 rec) :: nv kEvent (i64 ev) :: nv kIp (.string (some (utf8 ip))) :: cells))) := by
    simp [sessionRow]
  simp only [h0]
  refine ⟨congrArg some (val_key p user _).1, congrArg some (val_key p user _).2, fun g hg => ?_, ?_, ?_, ?_⟩ <;> congr 1
  · rw [val_key_skip _ _ _ (Ne.symm (ne_projectId g)) (group_zero_ne hg), val_groupCells _ _ hg]
  · rw [val_key_skip _ _ _ (by decide +kernel) (ne_createdAt 0), val_skip (groupCells_skip ne_createdAt), val_skip fun v hv => hu v hv _ (by simp [sysCols]), val_cons, if_pos rfl]
  · rw [val_key_skip _ _ _ (by decide +kernel) (ne_eventId 0), val_skip (groupCells_skip ne_eventId), val_skip fun v hv => hu v hv _ (by simp [sysCols]), val_cons, if_neg (by decide +kernel), val_cons, if_pos rfl]
  · rw [val_key_skip _ _ _ (by decide +kernel) (ne_event 0), val_skip (groupCells_skip ne_event), val_skip fun v hv => hu v hv _ (by simp [sysCols]), val_cons, if_neg (by decide +kernel), val_cons,
      if_neg (by decide +kernel), val_cons, if_pos rfl]

theorem SystemCells.stored {t : Tbl} {vs : List NamedValue} (ht : ∀ n ∈ sysCols, String.ofList n ∈ t.schema.map Field.name) {p user rec ev : Nat} {time : BitVec 64}
    {groups : Option (List (Nat × GroupValues))} (h : SystemCells (fun n => some (val vs n)) p user rec ev time groups) :
    SystemCells (cell t (t.schema.map fun f => supplied vs f.name)) p user rec ev time groups := by
  have e : ∀ n ∈ sysCols, cell t (t.schema.map fun f => supplied vs f.name) n = some (val vs n) := fun n hn => cell_map t vs n (ht n hn)
  refine ⟨?_, ?_, fun g hg => ?_, ?_, ?_, ?_⟩
  · rw [e _ (by simp [sysCols])]; exact h.project
  · rw [e _ (by simp [sysCols])]; exact h.user
  · rw [e _ (by
      simp only [List.mem_cons, List.not_mem_nil, or_false] at hg
      rcases hg with rfl | rfl | rfl | rfl <;> simp [sysCols])]
    exact h.group g hg
  · rw [e _ (by simp [sysCols])]; exact h.time
  · rw [e _ (by simp [sysCols])]; exact h.record
  · rw [e _ (by simp [sysCols])]; exact h.event

/-- The transformers add at most `K` properties. -/
def Env.Bounded (E : Env Track) (K : Nat) : Prop := ∀ kv p req l l', E.transform kv p req l = .ok l' → l'.length ≤ l.length + K

theorem resolve_mods {p : Nat} {r : Req Q} (h : ResolveReq p r) : Mod.sess p ∉ r.mods := by
  cases r <;> simp only [ResolveReq] at h <;> simp [Req.mods]

theorem runs_same {S : Meta.Env Q} {P : Req Q → Prop} {m : Mod} (hP : ∀ r, P r → m ∉ r.mods) {kv kv' : Kv} {n : Nat} (h : Runs S P kv n kv') : Same m kv kv' := by
  induction h with
  | refl => exact .refl _ _
  | step r _ hr hp ih => exact ih.trans (exec_same S hr (hP r hp) _)

theorem setCurrentTime_new {p u : Nat} {t : Time} {kv kv' : Kv} {b : Bool} (h : setCurrentTime p u t kv = .ok (b, kv')) : b = (getK kv (.session p u)).isNone := by
  unfold setCurrentTime at h
  split at h
  · rename_i e; cases h; rw [e]; rfl
  · rename_i e
    split at h
    · cases h
    · cases h; rw [e]; rfl

/-- The rows stored for an accepted track request: resolved as `r`, the table had the rows `rs`. -/
structure Accepted (E : Env Track) (req : Track) (p : Nat) (r : Resolved) (w w' : World) (rs : List Row) (begins : List Row) (row : Row) : Prop where
  table : ∃ fs, (w'.tbl kEvents).schema = (w.tbl kEvents).schema ++ fs ∧
    EventsTable (w'.tbl kEvents) ((rs.map fun r => r ++ List.replicate fs.length .null) ++ begins ++ [row])
  event : ∃ rec, SystemCells (cell (w'.tbl kEvents) row) p r.user rec r.event.id (millis req.time) r.groups
  opens : begins.length = if getK w.kv (.session p r.user) = none then 1 else 0
  begins : req.campaign = none → ∀ b ∈ begins, ∃ rec ev kv, (eventsC p).getBy .name kSessionBegin kv = .ok ev ∧
    SystemCells (cell (w'.tbl kEvents) b) p r.user rec ev.id (secs req.time) r.groups

/-- The rows themselves, made of the cells of the request. -/
structure Written (E : Env Track) (req : Track) (p : Nat) (r : Resolved) (w1 w2 w' : World) (begins : List Row) (row : Row) : Prop where
  made : ∃ isNew cells utm rec kv2, CellsOf E p req r w1 isNew cells utm kv2 ∧ nextSeq (.recSeq p) kv2 = .ok (rec, w2.kv) ∧
    (w'.tbl kEvents).schema = (w1.tbl kEvents).schema ∧
    row = (w'.tbl kEvents).schema.map (fun f => supplied (eventRow p r.user rec r.event.id req.time (groupCells r.groups) cells) f.name) ∧
    (∃ t t' : Tbl, t.schema = (w1.tbl kEvents).schema ∧ t.insert (eventRow p r.user rec r.event.id req.time (groupCells r.groups) cells) = .ok t') ∧
    ∀ b ∈ begins, ∃ rec1 ev, (eventsC p).getBy .name kSessionBegin kv2 = .ok ev ∧
      b = (w'.tbl kEvents).schema.map (fun f => supplied (sessionRow p r.user rec1 ev.id req.time req.ip (groupCells r.groups) utm cells) f.name) ∧
      ∃ t', (w1.tbl kEvents).insert (sessionRow p r.user rec1 ev.id req.time req.ip (groupCells r.groups) utm cells) = .ok t'

theorem track_rows {E : Env Track} {K : Nat} (hK : E.Bounded K) {token : Str} {req : Track} {w w' : World}
    (h : executeTrack E token req w = (.ok (), w')) {rs : List Row} (ht : EventsTable (w.tbl kEvents) rs)
    (hc : ∀ n ∈ sysCols, String.ofList n ∈ (w.tbl kEvents).schema.map Field.name) :
    ∃ project r w1 w2 begins row, getByToken token w.kv = .ok project ∧ resolveTrack E project.id req w = (.ok r, w1) ∧
      Accepted E req project.id r w w' rs begins row ∧ Written E req project.id r w1 w2 w' begins row ∧
      sendTrack E project.id req r w1 = (.ok (), w2) ∧ ∃ pr, incrementEvents project.id w2.kv = .ok (pr, w'.kv) := by
  unfold executeTrack at h
  obtain ⟨project, w0, h0, ha⟩ := bind_ok h
  clear h
  obtain ⟨hp, rfl⟩ := read_ok h0
  obtain ⟨r, w1, h1, hb⟩ := bind_ok ha
  clear ha
  obtain ⟨u, w2, h2, ha⟩ := bind_ok hb
  clear hb
  obtain ⟨_, w3, h3, hb⟩ := bind_ok ha
  clear ha
  cases hb
  obtain ⟨f3k, f3⟩ := call_ok h3
  have hpl : project.id < 2 ^ 64 := by
    obtain ⟨b, hb⟩ := getBy_dec hp
    exact project_dec_lt hb
  have hsame : getK w1.kv (.session project.id r.user) = getK w0.kv (.session project.id r.user) := by
    obtain ⟨⟨m, -, hr⟩, -⟩ := resolveTrack_follows (S := { exEnv with sys := E.sys }) (E := E) rfl hK hpl req w0
    rw [h1] at hr
    exact runs_same (fun r hr => resolve_mods hr) hr _ trivial rfl
  have hgrown := resolveTrack_grown E project.id req (Grown.refl ht)
  rw [h1] at hgrown
  obtain ⟨fs, hs1, ht1⟩ := hgrown
  dsimp only at hs1 ht1
  obtain ⟨isNew, kv1, cells, utm, rec, kv2, kv3, t', e1, e2, e3, e4, e5, e6⟩ := sendTrack_ok h2
  have hnew := setCurrentTime_new e1
  rw [hsame] at hnew
  have htbl : w'.tbl kEvents = t' := by rw [f3]; show w2.tbl kEvents = t'; rw [e6]; simp
  have hc1 : ∀ n ∈ sysCols, String.ofList n ∈ (w1.tbl kEvents).schema.map Field.name := by
    intro n hn; rw [hs1, List.map_append]; exact List.mem_append_left _ (hc n hn)
  have evKey : ∀ rec, eventRow project.id r.user rec r.event.id req.time (groupCells r.groups) cells =
      keyCells project.id r.user ++ (groupCells r.groups ++ [nv kCreatedAt (.timestamp (some (millis req.time))), nv kEventId (i64 rec), nv kEvent (i64 r.event.id)] ++ cells) := by
    intro rec; simp [eventRow]
  cases isNew with
  | false =>
    rw [if_neg (by simp)] at e5
    obtain ⟨e5, -⟩ := e5
    obtain ⟨ht', hs'⟩ := EventsTable.insert ht1 (evKey rec ▸ e5)
    refine ⟨project, r, w1, w2, [], (w1.tbl kEvents).schema.map fun f => supplied (eventRow project.id r.user rec r.event.id req.time (groupCells r.groups) cells) f.name, hp, h1, ?_, ?W, h2, _, f3k⟩
    case W =>
      refine ⟨false, cells, utm, rec, kv2, e4, by rw [e3]; exact e2, by rw [htbl, hs'], by rw [htbl, hs'], ⟨_, _, rfl, e5⟩, fun b hb => by cases hb⟩
    rw [← evKey] at ht'
    have hcell : ∀ row, cell (w'.tbl kEvents) row = cell (w1.tbl kEvents) row := by intro row; funext n; unfold cell; rw [htbl, hs']
    refine ⟨⟨fs, by rw [htbl, hs', hs1], by rw [htbl, List.append_nil]; exact ht'⟩, ⟨rec, ?_⟩, ?_, fun _ b hb => by cases hb⟩
    · rw [hcell]; exact SystemCells.stored hc1 (eventRow_cells ..)
    · cases hk : getK w0.kv (.session project.id r.user) with
      | none => rw [hk] at hnew; cases hnew
      | some x => rfl
  | true =>
    rw [if_pos rfl] at e5
    obtain ⟨rec1, ev, t1, -, e7, e8, e9, -⟩ := e5
    have bgKey : sessionRow project.id r.user rec1 ev.id req.time req.ip (groupCells r.groups) utm cells =
      keyCells project.id r.user ++ (groupCells r.groups ++ utm ++ [nv kCreatedAt (.timestamp (some (secs req.time))), nv kEventId (i64 rec1), nv kEvent (i64 ev.id),
        nv kIp (.string (some (utf8 req.ip)))] ++ cells) := by
      simp [sessionRow]
    obtain ⟨ht', hs'⟩ := EventsTable.insert ht1 (bgKey ▸ e8)
    rw [← bgKey] at ht'
    obtain ⟨ht'', hs''⟩ := EventsTable.insert ht' (evKey rec ▸ e9)
    rw [← evKey] at ht''
    refine ⟨project, r, w1, w2, [(w1.tbl kEvents).schema.map fun f => supplied (sessionRow project.id r.user rec1 ev.id req.time req.ip (groupCells r.groups) utm cells) f.name],
      (w1.tbl kEvents).schema.map fun f => supplied (eventRow project.id r.user rec r.event.id req.time (groupCells r.groups) cells) f.name, hp, h1, ?_, ?W, h2, _, f3k⟩
    case W =>
      refine ⟨true, cells, utm, rec, kv2, e4, by rw [e3]; exact e2, by rw [htbl, hs'', hs'], by rw [htbl, hs'', hs'], ⟨_, _, hs', e9⟩, fun b hb => ?_⟩
      rw [List.mem_singleton] at hb
      exact ⟨rec1, ev, e7, by rw [hb, htbl, hs'', hs'], _, e8⟩
    have hcell : ∀ row, cell (w'.tbl kEvents) row = cell (w1.tbl kEvents) row := by intro row; funext n; unfold cell; rw [htbl, hs'', hs']
    refine ⟨⟨fs, by rw [htbl, hs'', hs', hs1], by rw [htbl]; rw [hs'] at ht''; exact ht''⟩, ⟨rec, ?_⟩, ?_, fun hcam b hb => ?_⟩
    · rw [hcell]; exact SystemCells.stored hc1 (eventRow_cells ..)
    · cases hk : getK w0.kv (.session project.id r.user) with
      | none => rfl
      | some x => rw [hk] at hnew; cases hnew
    · rw [List.mem_singleton] at hb
      subst hb
      refine ⟨rec1, ev, kv2, e7, ?_⟩
      rw [hcell]
      exact SystemCells.stored hc1 (sessionRow_cells _ _ _ _ _ _ _ _ _ fun v hv => by rw [e4.nocamp hcam] at hv; cases hv)

/-- C74: an accepted track request adds to the events table exactly one row for the event, preceded by exactly one
more row if and only if its user has no open session; nothing else in the table changes but for new columns, which
are NULL in the rows before. C76: whatever properties the client sends (under whatever names), the columns of
project, user, groups, time, record and event of the new rows hold the values of the request itself. -/
theorem C74_rows {E : Env Track} {K : Nat} (hK : E.Bounded K) {token : Str} {req : Track} {w w' : World}
    (h : executeTrack E token req w = (.ok (), w')) {rs : List Row} (ht : EventsTable (w.tbl kEvents) rs)
    (hc : ∀ n ∈ sysCols, String.ofList n ∈ (w.tbl kEvents).schema.map Field.name) :
    ∃ project r w1 begins row, getByToken token w.kv = .ok project ∧ resolveTrack E project.id req w = (.ok r, w1) ∧
      Accepted E req project.id r w w' rs begins row := by
  obtain ⟨project, r, w1, w2, begins, row, h1, h2, h3, -⟩ := track_rows hK h ht hc
  exact ⟨project, r, w1, begins, row, h1, h2, h3⟩

/-! ## A concrete project -/

def exToken : Str := "tok".toList
def exProj : Project := { id := 0, createdAt := ⟨0, 0⟩, createdBy := 1, updatedAt := none, updatedBy := none, orgId := 1, name := "p".toList, description := none, tags := none, token := exToken, sessionDuration := 60, eventsCount := 0 }
def exSetup : List (Req Unit) := [.projectCreate ⟨0, 0⟩ exProj, .eventCreate 1 ⟨0, 0⟩ (eventReq kSessionBegin none)]
def exField (n : Str) (dt : ColType) : Field := ⟨String.ofList n, dt, true⟩
def exSchema : List Field := [exField kProjectId .int64, exField (groupCol 0) .int64, exField (groupCol 1) .int64, exField (groupCol 2) .int64,
  exField (groupCol 3) .int64, exField (groupCol 4) .int64, exField kCreatedAt .timestamp, exField kEventId .int64, exField kEvent .int64, exField kIp .string]
def exTbl (fs : List Field) : Tbl := fs.foldl (fun t f => (t.addField f).getD t) (.create 2)
def exWorld : World := ⟨runReqs exEnv exSetup [], fun n => if n = kEvents then exTbl exSchema else exTbl [], []⟩
def exIngest : Env Track := ⟨id, ⟨5#64, 0⟩, fun _ _ _ l => .ok l⟩
def exTrack (u a : Option Str) (props : List (Str × PropValue)) : Track := { userId := u, anonId := a, time := ⟨5#64, 0⟩, event := "Buy".toList, props := some props }

theorem exTable : EventsTable (exWorld.tbl kEvents) [] := by
  have hg : ∀ (fs : List Field) (t : Tbl), t.Good [] → (fs.foldl (fun t f => (t.addField f).getD t) t).Good [] := by
    intro fs
    induction fs with
    | nil => intro t h; exact h
    | cons f fs ih =>
      intro t h
      refine ih _ ?_
      cases hf : t.addField f with
      | none => simpa only [hf, Option.getD_none] using h
      | some t' => simpa only [hf, Option.getD_some, List.map_nil] using (Storage.addField_good h hf).1
  have e : exWorld.tbl kEvents = exTbl exSchema := if_pos rfl
  rw [e]
  refine ⟨hg exSchema (.create 2) ?_, by decide +kernel, by decide +kernel, by decide +kernel⟩
  exact ⟨⟨by simp, by decide, by intro j c h; cases h⟩, by decide⟩

theorem exCols : ∀ n ∈ sysCols, String.ofList n ∈ (exWorld.tbl kEvents).schema.map Field.name := by decide +kernel

theorem exBounded : exIngest.Bounded 0 := by
  intro kv p req l l' h
  cases h
  exact Nat.le_refl _

/-- The hypotheses of `C74_rows` are met. -/
example : ∃ w', executeTrack exIngest exToken (exTrack (some "u".toList) none [("x".toList, .bool true), ("created_at".toList, .bool true)]) exWorld = (.ok (), w') := by
  have : (executeTrack exIngest exToken (exTrack (some "u".toList) none [("x".toList, .bool true), ("created_at".toList, .bool true)]) exWorld).1 = .ok () := by decide +kernel
  exact ⟨_, Prod.ext this rfl⟩

/-! ## C47 -/

/-- C47 as stated. -/
def C47_full : Prop := ∀ (E : Env Track) (token : Str) (req : Track) (w w' : World), executeTrack E token req w = (.ok (), w') →
  ∀ x ∈ w'.rows.drop w.rows.length, val x.2 kCreatedAt = .timestamp (some (millis req.time))

/-- C47 (partial): for the row of the event. Missing: the row that opens a session. -/
theorem C47_partial {E : Env Track} {K : Nat} (hK : E.Bounded K) {token : Str} {req : Track} {w w' : World}
    (h : executeTrack E token req w = (.ok (), w')) {rs : List Row} (ht : EventsTable (w.tbl kEvents) rs)
    (hc : ∀ n ∈ sysCols, String.ofList n ∈ (w.tbl kEvents).schema.map Field.name) :
    ∃ rs' row, EventsTable (w'.tbl kEvents) (rs' ++ [row]) ∧ cell (w'.tbl kEvents) row kCreatedAt = some (.timestamp (some (millis req.time))) := by
  obtain ⟨project, r, w1, begins, row, -, -, ⟨fs, -, h1⟩, ⟨rec, h2⟩, -, -⟩ := C74_rows hK h ht hc
  exact ⟨_, row, h1, h2.time⟩

/-- The row that opens a session has seconds in the column that holds milliseconds in the event rows. -/
theorem C47_begin_seconds {E : Env Track} {K : Nat} (hK : E.Bounded K) {token : Str} {req : Track} {w w' : World}
    (h : executeTrack E token req w = (.ok (), w')) {rs : List Row} (ht : EventsTable (w.tbl kEvents) rs)
    (hc : ∀ n ∈ sysCols, String.ofList n ∈ (w.tbl kEvents).schema.map Field.name) (hcam : req.campaign = none) :
    ∃ project r w1, getByToken token w.kv = .ok project ∧ resolveTrack E project.id req w = (.ok r, w1) ∧
      (getK w.kv (.session project.id r.user) = none → ∃ rs' b row, EventsTable (w'.tbl kEvents) (rs' ++ [b, row]) ∧
        cell (w'.tbl kEvents) b kCreatedAt = some (.timestamp (some (secs req.time)))) := by
  obtain ⟨project, r, w1, begins, row, h1, h2, ⟨fs, -, h3⟩, -, h4, h5⟩ := C74_rows hK h ht hc
  refine ⟨project, r, w1, h1, h2, fun hn => ?_⟩
  rw [if_pos hn] at h4
  match begins, h4 with
  | [b], _ =>
    obtain ⟨_, _, _, -, hcells⟩ := h5 hcam b (by simp)
    exact ⟨_, b, row, by rw [List.append_assoc] at h3; exact h3, hcells.time⟩

theorem C47_violated : ¬ C47_full := by
  intro h
  have h1 : (executeTrack exIngest exToken (exTrack (some "u".toList) none []) exWorld).1 = .ok () := by decide +kernel
  have := h exIngest exToken (exTrack (some "u".toList) none []) exWorld _ (Prod.ext h1 rfl)
  revert this
  decide +kernel

/-! ## C76 -/

/-- C76: whatever properties the client sends and whatever cells they are turned into, each row stored for an accepted
request has the project of the token, the resolved user and groups, the time of the request and the resolved event. -/
theorem C76_system_columns {E : Env Track} {K : Nat} (hK : E.Bounded K) {token : Str} {req : Track} {w w' : World}
    (h : executeTrack E token req w = (.ok (), w')) {rs : List Row} (ht : EventsTable (w.tbl kEvents) rs)
    (hc : ∀ n ∈ sysCols, String.ofList n ∈ (w.tbl kEvents).schema.map Field.name) :
    ∃ project r w1 rs' row rec, getByToken token w.kv = .ok project ∧ resolveTrack E project.id req w = (.ok r, w1) ∧
      EventsTable (w'.tbl kEvents) (rs' ++ [row]) ∧ SystemCells (cell (w'.tbl kEvents) row) project.id r.user rec r.event.id (millis req.time) r.groups := by
  obtain ⟨project, r, w1, begins, row, h1, h2, ⟨fs, -, h3⟩, ⟨rec, h4⟩, -, -⟩ := C74_rows hK h ht hc
  exact ⟨project, r, w1, _, row, rec, h1, h2, h3, h4⟩

/-- With client properties named like system columns. -/
example : (executeTrack exIngest exToken (exTrack (some "u".toList) none [("created_at".toList, .number ⟨7, 0⟩), ("event".toList, .string "x".toList), ("project_id".toList, .bool true)]) exWorld).1 = .ok () := by
  decide +kernel

/-! ## C75 -/

/-- Spec: among the inserts is one of a row of the event `Session Begin` for this user. -/
def HasBegin (p u : Nat) (ev : Nat) (rows : List (Str × List NamedValue)) : Prop :=
  ∃ x ∈ rows, x.1 = kEvents ∧ val x.2 kProjectId = i64 p ∧ val x.2 (groupCol 0) = i64 u ∧ val x.2 kEvent = i64 ev

instance (p u ev : Nat) (rows : List (Str × List NamedValue)) : Decidable (HasBegin p u ev rows) := by unfold HasBegin; infer_instance

/-- C75 as stated: a request after which the user has a session but had none before has stored the row that opens it. -/
def C75_full : Prop := ∀ (E : Env Track) (token : Str) (req : Track) (w : World) (project : Project) (u : Nat) (ev : Event),
  getByToken token w.kv = .ok project → (eventsC project.id).getBy .name kSessionBegin w.kv = .ok ev →
  getK w.kv (.session project.id u) = none → getK (executeTrack E token req w).2.kv (.session project.id u) ≠ none →
  HasBegin project.id u ev.id ((executeTrack E token req w).2.rows.drop w.rows.length)

/-- C75 (partial): an accepted request whose user has no session stores exactly one row before the row of the event, which is of the event
`Session Begin` and of the user. Missing: rejected requests. -/
theorem C75_partial {E : Env Track} {K : Nat} (hK : E.Bounded K) {token : Str} {req : Track} {w w' : World}
    (h : executeTrack E token req w = (.ok (), w')) {rs : List Row} (ht : EventsTable (w.tbl kEvents) rs)
    (hc : ∀ n ∈ sysCols, String.ofList n ∈ (w.tbl kEvents).schema.map Field.name) (hcam : req.campaign = none) :
    ∃ project r w1, getByToken token w.kv = .ok project ∧ resolveTrack E project.id req w = (.ok r, w1) ∧
      (getK w.kv (.session project.id r.user) = none → ∃ rs' b row ev kv, EventsTable (w'.tbl kEvents) (rs' ++ [b, row]) ∧
        (eventsC project.id).getBy .name kSessionBegin kv = .ok ev ∧ cell (w'.tbl kEvents) b kProjectId = some (i64 project.id) ∧
        cell (w'.tbl kEvents) b (groupCol 0) = some (i64 r.user) ∧ cell (w'.tbl kEvents) b kEvent = some (i64 ev.id)) := by
  obtain ⟨project, r, w1, begins, row, h1, h2, ⟨fs, -, h3⟩, -, h4, h5⟩ := C74_rows hK h ht hc
  refine ⟨project, r, w1, h1, h2, fun hn => ?_⟩
  rw [if_pos hn] at h4
  match begins, h4 with
  | [b], _ =>
    obtain ⟨_, ev, kv, hev, hcells⟩ := h5 hcam b (by simp)
    exact ⟨_, b, row, ev, kv, by rw [List.append_assoc] at h3; exact h3, hev, hcells.project, hcells.user, hcells.event⟩

/-- After a request that declared `x` as a boolean. -/
def exDeclared : World := (executeTrack exIngest exToken (exTrack (some "u".toList) none [("x".toList, .bool true)]) exWorld).2
/-- A new user's request with a string for `x`, which is refused. -/
def exRefused : Track := exTrack (some "v".toList) none [("x".toList, .string "s".toList)]

/-- A refused request opens a session without the row that opens it, and the next, accepted request does not store it either. -/
theorem C75_violated : ¬ C75_full := by
  intro h
  have h1 : ∃ project, getByToken exToken exDeclared.kv = .ok project ∧ project.id = 1 := by
    have : ((getByToken exToken exDeclared.kv).toOption.map (·.id)) = some 1 := by decide +kernel
    cases e : getByToken exToken exDeclared.kv with
    | error x => rw [e] at this; cases this
    | ok r => rw [e] at this; exact ⟨r, rfl, by simpa [Except.toOption] using this⟩
  have h2 : ∃ ev, (eventsC 1).getBy .name kSessionBegin exDeclared.kv = .ok ev ∧ ev.id = 1 := by
    have : (((eventsC 1).getBy .name kSessionBegin exDeclared.kv).toOption.map (·.id)) = some 1 := by decide +kernel
    cases e : (eventsC 1).getBy .name kSessionBegin exDeclared.kv with
    | error x => rw [e] at this; cases this
    | ok r => rw [e] at this; exact ⟨r, rfl, by simpa [Except.toOption] using this⟩
  obtain ⟨project, hp, hp1⟩ := h1
  obtain ⟨ev, he, he1⟩ := h2
  have h3 := h exIngest exToken exRefused exDeclared project 2 ev hp (by rw [hp1]; exact he) (by rw [hp1]; decide +kernel) (by rw [hp1]; decide +kernel)
  rw [hp1, he1] at h3
  revert h3
  decide +kernel

/-- The next request of the same user is accepted and stores its event row only. -/
theorem C75_never_begun :
    let w1 := (executeTrack exIngest exToken exRefused exDeclared).2
    let r2 := executeTrack exIngest exToken (exTrack (some "v".toList) none []) w1
    w1.rows = exDeclared.rows ∧ r2.1 = .ok () ∧ (r2.2.rows.drop w1.rows.length).length = 1 ∧ ¬ HasBegin 1 2 1 r2.2.rows := by
  decide +kernel

end OptiPrism.Ingest
