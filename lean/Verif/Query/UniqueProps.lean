import Verif.Query.CountProps
import Verif.Query.PerUserProps
import Verif.Ingest.OneId

/-!
# C120: a count of unique users is the number of users who sent the event

From the requests to the chart again, now for the query "unique users" (`Query::CountUniqueGroups`,
query/src/event_segmentation.rs:876-884, the partitioned count with `distinct`).
-/

namespace OptiPrism.Query
open OptiPrism.Meta OptiPrism.Ingest
open OptiPrism.Storage (Value NamedValue)

/-! ### Spec -/

/-- The request is of the project, with the name, in the range (in milliseconds) and in the interval. -/
def Falls (p : Nat) (name : Str) (f t : Int) (u : Unit') (b : Int) (x : Nat × Track) : Prop :=
  x.1 = p ∧ x.2.event = name ∧ f / 1000000 ≤ nanosOf x.2.time / 1000000 ∧ nanosOf x.2.time / 1000000 ≤ t / 1000000 ∧ InInterval u b (nanosOf x.2.time)

/-- The users, each once, who sent such a request. -/
def UsersOf (acc : List (Nat × Track)) (p : Nat) (name : Str) (f t : Int) (u : Unit') (b : Int) (ws : List Ext) : Prop :=
  ws.Nodup ∧ ∀ e, e ∈ ws ↔ ∃ x ∈ acc, Falls p name f t u b x ∧ Sole x.2 e

/-- How rows reach the workers: those of a user all with one worker, and one after the other. -/
def UsersApart {G : Type} (parts : List (List (ARow G))) : Prop :=
  (∀ rows ∈ parts, Grouped rows) ∧ parts.Pairwise fun v w => ∀ x ∈ v, ∀ y ∈ w, x.user ≠ y.user

/-! ### helpers -/

/-- Each element once. -/
def once {α : Type} [DecidableEq α] : List α → List α
  | [] => []
  | a :: l => if a ∈ l then once l else a :: once l

theorem mem_once {α : Type} [DecidableEq α] (l : List α) (a : α) : a ∈ once l ↔ a ∈ l := by
  induction l with
  | nil => exact Iff.rfl
  | cons b l ih =>
    unfold once
    split
    · rename_i h
      rw [ih, List.mem_cons]
      exact ⟨.inr, fun h' => h'.elim (fun e => e ▸ h) id⟩
    · rw [List.mem_cons, ih, List.mem_cons]

theorem nodup_once {α : Type} [DecidableEq α] (l : List α) : (once l).Nodup := by
  induction l with
  | nil => exact List.nodup_nil
  | cons b l ih =>
    unfold once
    split
    · exact ih
    · rename_i h
      exact List.nodup_cons.mpr ⟨fun h' => h ((mem_once l b).mp h'), ih⟩

/-- The users of a group in some rows, each once. -/
def usersIn {G : Type} [DecidableEq G] (rows : List (ARow G)) (g : G) : List Int := once ((rows.filter fun r => r.group == g).filterMap ARow.user)

theorem mem_usersIn {G : Type} [DecidableEq G] {rows : List (ARow G)} {g : G} {v : Int} : v ∈ usersIn rows g ↔ ∃ r ∈ rows, r.user = some v ∧ r.group = g := by
  unfold usersIn
  rw [mem_once, List.mem_filterMap]
  constructor
  · rintro ⟨r, h1, h2⟩
    obtain ⟨h3, h4⟩ := List.mem_filter.mp h1
    exact ⟨r, h3, h2, eq_of_beq h4⟩
  · rintro ⟨r, h1, h2, h3⟩
    exact ⟨r, List.mem_filter.mpr ⟨h1, by simp [h3]⟩, h2⟩

/-- A worker's table: the number of users of each group. -/
theorem unique_table {G : Type} [DecidableEq G] (B : Bounds) (batches : List (List (ARow G))) (hu : ∀ r ∈ batches.flatten, r.user ≠ none) (hz : ∀ r ∈ batches.flatten, r.user ≠ some 0)
    (hg : Grouped batches.flatten) : ∃ m, pEval B .count (countInner true false) true none false batches = some m ∧
      (fun g => (m g).bind AggFn.result) = table ⟨0, 0⟩ .count (fun g => (usersIn batches.flatten g).map fun _ => (0 : Rat)) := by
  obtain ⟨m, hm, h⟩ := C54_partial ⟨1, 1⟩ .count true false (by decide) none batches hu (.inl hz) hg
  refine ⟨m, hm, funext fun g => ?_⟩
  obtain ⟨us, vs, h1, h2, h3, h4, h5⟩ := h g
  have hperm : us.Perm (usersIn batches.flatten g) := by
    refine (List.perm_ext_iff_of_nodup h1 (nodup_once _)).mpr fun v => ?_
    show v ∈ us ↔ v ∈ usersIn batches.flatten g
    rw [h2, mem_usersIn]
    simp [ofUser]
  have hlen := hperm.length_eq
  unfold table
  dsimp only
  by_cases hne : us = []
  · subst hne
    have : usersIn batches.flatten g = [] := List.eq_nil_of_length_eq_zero hlen.symm
    rw [h4 rfl, if_pos (by rw [this]; rfl)]
    rfl
  · obtain ⟨f, x, h6, h7, h8⟩ := h5 hne (by
      intro v hv
      rw [h3] at hv
      obtain ⟨_, -, rfl⟩ := List.mem_map.mp hv
      simp only [if_true, Bool.false_eq_true, if_false]
      decide +kernel)
    have hne' : ¬ ((usersIn batches.flatten g).map fun _ => (0 : Rat)) = [] := by
      intro e
      rw [List.map_eq_nil_iff] at e
      rw [e] at hlen
      exact hne (List.eq_nil_of_length_eq_zero hlen)
    rw [if_neg hne', h6]
    show f.result = (feed (.count 0) _).result
    rw [h7, feed_count, List.length_map, ← hlen, Rat.zero_add]
    cases h8
    rw [h3, List.length_map]
    rfl

/-- A row which the filter keeps. -/
theorem row_used {p id : Nat} {rows : List (Str × List NamedValue)} {Sm : Sem} {q : QueryTime} {cur : Int} {te : Expr} (hte : timeExpression kCreatedCol .ms q cur = .ok te)
    (hcells : ∀ x ∈ rowsOf kEvents p rows, ∃ j, val x.2 kEvent = i64 j) (htyped : ∀ x ∈ rows, ∃ j, RowOf j x) {x : Str × List NamedValue} (hxm : x ∈ rows) (ht : x.1 = kEvents) :
    eval Sm (qrow x.2) (eventCond p id te) = some true ↔
      x ∈ (rowsOf kEvents p rows).filter (fun x => val x.2 kEvent = i64 id) ∧ eval Sm (fun _ => toCell (val x.2 kCreatedAt)) te = some true := by
  obtain ⟨j, hj⟩ := htyped x hxm
  unfold RowOf at hj
  have c1 : kProjectCol = kProjectId := by decide +kernel
  have c2 : kCreatedCol = kCreatedAt := by decide +kernel
  have c3 : kEventCol = kEvent := by decide +kernel
  have q1 : qrow x.2 kProjectCol = toCell (i64 j) := by rw [c1, ← hj]; rfl
  have q2 : qrow x.2 kCreatedCol = toCell (val x.2 kCreatedAt) := by rw [c2]; rfl
  have q3 : qrow x.2 kEventCol = toCell (val x.2 kEvent) := by rw [c3]; rfl
  have s1 : Selects Sm (qrow x.2) (projectExpr p) ↔ i64 j = i64 p := by
    unfold projectExpr
    rw [bin_eq_selects, q1, toCell_i64]
  have hin : x ∈ rowsOf kEvents p rows ↔ i64 j = i64 p := by unfold rowsOf; simp [hxm, ht, hj]
  have s3 : Selects Sm (qrow x.2) te ↔ eval Sm (fun _ => toCell (val x.2 kCreatedAt)) te = some true := by
    unfold Selects
    rw [time_eval hte, q2]
  by_cases hjp : i64 j = i64 p
  · obtain ⟨k, hk⟩ := hcells x (hin.mpr hjp)
    have s2 : Selects Sm (qrow x.2) (.bin .eq kEventCol (some (.int (BitVec.ofNat 64 id).toInt))) ↔ i64 k = i64 id := by
      rw [bin_eq_selects, q3, hk, toCell_i64]
    show Selects _ _ (.and (.and _ _) _) ↔ _
    rw [and_selects, and_selects, s1, s2, s3, List.mem_filter, hin]
    simp only [hk, decide_eq_true_eq]
    constructor
    · rintro ⟨⟨a, b⟩, c⟩; exact ⟨⟨a, c⟩, b⟩
    · rintro ⟨⟨a, c⟩, b⟩; exact ⟨⟨a, b⟩, c⟩
  · constructor
    · intro h1
      exact absurd (s1.mp (and_selects.mp (and_selects.mp (show Selects _ _ _ from h1)).1).1) hjp
    · rintro ⟨h1, -⟩
      exact absurd (hin.mp (List.mem_filter.mp h1).1) hjp

theorem mem_planned {Sm : Sem} {u : Unit'} {gc : Str} {e : Expr} {rows : List (List NamedValue)} {r : ARow (Option Int)} :
    r ∈ planned Sm u gc e rows ↔ ∃ vs ∈ rows, eval Sm (qrow vs) e = some true ∧ toARow u gc (qrow vs) = r := by
  unfold planned
  rw [List.mem_map]
  constructor
  · rintro ⟨row, h1, h2⟩
    obtain ⟨h3, h4⟩ := List.mem_filter.mp h1
    obtain ⟨vs, h5, rfl⟩ := List.mem_map.mp h3
    exact ⟨vs, h5, eq_of_beq h4, h2⟩
  · rintro ⟨vs, h1, h2, h3⟩
    exact ⟨qrow vs, List.mem_filter.mpr ⟨List.mem_map.mpr ⟨vs, h1, rfl⟩, by simp [h2]⟩, h3⟩

/-- The rows which reach the aggregate, by the requests they are of. -/
theorem used_rows {p id : Nat} {rows : List (Str × List NamedValue)} {Sm : Sem} {q : QueryTime} {cur : Int} {te : Expr} (hte : timeExpression kCreatedCol .ms q cur = .ok te)
    (hcells : ∀ x ∈ rowsOf kEvents p rows, ∃ j, val x.2 kEvent = i64 j) (htyped : ∀ x ∈ rows, ∃ j, RowOf j x) {L : List (Nat × Track)}
    (hL : ((rowsOf kEvents p rows).filter fun x => val x.2 kEvent = i64 id).map (fun x => (val x.2 kCreatedAt, val x.2 (groupCol 0))) =
      L.map (fun e => (.timestamp (some (Ingest.millis e.2.time)), i64 e.1))) (u : Unit') (v : Option Int) (g : Option Int) :
    (∃ r ∈ planned Sm u (groupCol 0) (eventCond p id te) ((rows.filter fun x => x.1 = kEvents).map Prod.snd), r.user = v ∧ r.group = g) ↔
      ∃ e ∈ L, eval Sm (fun _ => some (.ts (Ingest.millis e.2.time).toInt)) te = some true ∧ v = some (BitVec.ofNat 64 e.1).toInt ∧
        g = some (dateTrunc u ((Ingest.millis e.2.time).toInt * nsMs)) := by
  have c2 : kCreatedCol = kCreatedAt := by decide +kernel
  have haux : ∀ (x : Str × List NamedValue) (e : Nat × Track), val x.2 kCreatedAt = .timestamp (some (Ingest.millis e.2.time)) → val x.2 (groupCol 0) = i64 e.1 →
      (toARow u (groupCol 0) (qrow x.2)).user = some (BitVec.ofNat 64 e.1).toInt ∧ (toARow u (groupCol 0) (qrow x.2)).group = some (dateTrunc u ((Ingest.millis e.2.time).toInt * nsMs)) := by
    intro x e h1 h2
    have q2 : qrow x.2 kCreatedCol = toCell (val x.2 kCreatedAt) := by rw [c2]; rfl
    have q4 : qrow x.2 (groupCol 0) = toCell (val x.2 (groupCol 0)) := rfl
    unfold toARow
    rw [q2, q4, h1, h2]
    exact ⟨rfl, rfl⟩
  constructor
  · rintro ⟨r, hr, rfl, rfl⟩
    obtain ⟨vs, h1, h2, rfl⟩ := mem_planned.mp hr
    obtain ⟨x, h3, rfl⟩ := List.mem_map.mp h1
    obtain ⟨h4, h5⟩ := List.mem_filter.mp h3
    obtain ⟨h6, h7⟩ := (row_used hte hcells htyped h4 (of_decide_eq_true h5)).mp h2
    have : (val x.2 kCreatedAt, val x.2 (groupCol 0)) ∈ L.map (fun e => (Value.timestamp (some (Ingest.millis e.2.time)), i64 e.1)) := by
      rw [← hL]
      exact List.mem_map.mpr ⟨x, h6, rfl⟩
    obtain ⟨e, he, hxe⟩ := List.mem_map.mp this
    have a1 := (congrArg Prod.fst hxe).symm
    have a2 := (congrArg Prod.snd hxe).symm
    dsimp only at a1 a2
    rw [a1] at h7
    obtain ⟨h8, h9⟩ := haux x e a1 a2
    exact ⟨e, he, h7, h8, h9⟩
  · rintro ⟨e, he, h1, rfl, rfl⟩
    have : (Value.timestamp (some (Ingest.millis e.2.time)), i64 e.1) ∈ ((rowsOf kEvents p rows).filter fun x => val x.2 kEvent = i64 id).map (fun x => (val x.2 kCreatedAt, val x.2 (groupCol 0))) := by
      rw [hL]
      exact List.mem_map.mpr ⟨e, he, rfl⟩
    obtain ⟨x, hx, hxe⟩ := List.mem_map.mp this
    have a1 := congrArg Prod.fst hxe
    have a2 := congrArg Prod.snd hxe
    dsimp only at a1 a2
    obtain ⟨h8, h9⟩ := haux x e a1 a2
    have hxr : x ∈ rows ∧ x.1 = kEvents := by
      have := (List.mem_filter.mp hx).1
      unfold rowsOf at this
      simp at this
      exact ⟨this.1, this.2.1⟩
    refine ⟨_, mem_planned.mpr ⟨x.2, List.mem_map.mpr ⟨x, List.mem_filter.mpr ⟨hxr.1, by simp [hxr.2]⟩, rfl⟩, ?_, rfl⟩, h8, h9⟩
    exact (row_used hte hcells htyped hxr.1 hxr.2).mpr ⟨hx, by rw [a1]; exact h1⟩

/-- The time expression on a request. -/
theorem time_falls {Sm : Sem} {f t : Int} {te : Expr} (ht3 : ∀ row : QRow, (∀ c, row kCreatedCol = some c → ∃ v, c = .ts v) → (Selects Sm row te ↔ During .ms f t row))
    {x : Nat × Track} (hx : SaneTime x.2.time) (u : Unit') (b : Int) :
    (eval Sm (fun _ => some (.ts (Ingest.millis x.2.time).toInt)) te = some true ∧ some b = some (dateTrunc u ((Ingest.millis x.2.time).toInt * nsMs))) ↔
      f / 1000000 ≤ nanosOf x.2.time / 1000000 ∧ nanosOf x.2.time / 1000000 ≤ t / 1000000 ∧ InInterval u b (nanosOf x.2.time) := by
  have hm := millis_toInt hx
  have hsel := ht3 (fun _ => some (.ts (Ingest.millis x.2.time).toInt)) (fun c hc => ⟨_, (Option.some.inj hc).symm⟩)
  unfold Selects at hsel
  have hd : During .ms f t (fun _ => some (.ts (Ingest.millis x.2.time).toInt)) ↔ f / 1000000 ≤ nanosOf x.2.time / 1000000 ∧ nanosOf x.2.time / 1000000 ≤ t / 1000000 := by
    unfold During
    constructor
    · rintro ⟨v, h1, h2, h3⟩
      cases h1
      rw [hm] at h2 h3
      exact ⟨h2, h3⟩
    · rintro ⟨h2, h3⟩
      refine ⟨_, rfl, ?_⟩
      rw [hm]
      exact ⟨h2, h3⟩
  rw [hsel, hd, Option.some.injEq, hm, eq_comm, trunc_interval, and_assoc]

/-! ### C120 -/

/-- The rows which reach the workers are those of the whole table. -/
theorem planned_workers (Sm : Sem) (u : Unit') (gc : Str) (e : Expr) {W : Type} (workers : List (List (List (List NamedValue)) × W)) {all : List (List NamedValue)}
    (hperm : (workers.map Prod.fst).flatten.flatten.Perm all) (r : ARow (Option Int)) :
    (∃ w ∈ workers, r ∈ (w.1.map (planned Sm u gc e)).flatten) ↔ r ∈ planned Sm u gc e all := by
  rw [mem_planned]
  constructor
  · rintro ⟨w, hw, hr⟩
    rw [planned_flatten] at hr
    obtain ⟨vs, h1, h2, h3⟩ := mem_planned.mp hr
    exact ⟨vs, hperm.mem_iff.mp (by
      obtain ⟨b, hb, hvs⟩ := List.mem_flatten.mp h1
      exact List.mem_flatten.mpr ⟨b, List.mem_flatten.mpr ⟨w.1, List.mem_map.mpr ⟨w, hw, rfl⟩, hb⟩, hvs⟩), h2, h3⟩
  · rintro ⟨vs, h1, h2, h3⟩
    obtain ⟨b, hb, hvs⟩ := List.mem_flatten.mp (hperm.mem_iff.mpr h1)
    obtain ⟨l, hl, hbl⟩ := List.mem_flatten.mp hb
    obtain ⟨w, hw, rfl⟩ := List.mem_map.mp hl
    refine ⟨w, hw, ?_⟩
    rw [planned_flatten]
    exact mem_planned.mpr ⟨vs, List.mem_flatten.mpr ⟨b, hbl, hvs⟩, h2, h3⟩

/-- The numbers of users are in the rows of the project. -/
theorem acts_user_cells {Q : Type} {S : Meta.Env Q} (hsys : ∀ n, '/' ∉ S.sys n) (hutm : UtmNotEvent S.sys) {K : Nat} {p : Nat} (hp : p < 2 ^ 64) (l : List (Act Q))
    (hx : ∀ x ∈ l, x.Fits S K) (hs : ∀ x ∈ l, x.SparesEvents p) {a : App} {n : Nat} (h : Hist S n a.world.kv) (hr : a.world.rows = []) (hn : n + (l.map (Act.cost K)).sum < 2 ^ 62) :
    ∀ x ∈ rowsOf kEvents p (a.acts S l).world.rows, ∃ k, val x.2 (groupCol 0) = i64 k := by
  obtain ⟨-, -, new, L, h1, h2, -, -⟩ := acts_logs hsys hutm hp l hx hs h hn
  rw [h1, hr, List.nil_append]
  intro x hx
  have : (val x.2 kEvent, val x.2 kCreatedAt, val x.2 (groupCol 0)) ∈ L.map (fun e : Entry => (i64 e.id, e.time, i64 e.user)) := by
    rw [← h2]
    exact List.mem_map.mpr ⟨x, hx, rfl⟩
  obtain ⟨e, -, he⟩ := List.mem_map.mp this
  exact ⟨e.user, (congrArg (fun y => y.2.2) he).symm⟩

theorem nodup_users {W : Type} (rowsOf : W → List (ARow (Option Int))) (g : Option Int) (ws : List W)
    (h : (ws.map rowsOf).Pairwise fun v w => ∀ x ∈ v, ∀ y ∈ w, x.user ≠ y.user) : ((ws.map fun w => usersIn (rowsOf w) g).flatten).Nodup := by
  induction ws with
  | nil => exact List.nodup_nil
  | cons w ws ih =>
    rw [List.map_cons, List.pairwise_cons] at h
    rw [List.map_cons, List.flatten_cons, List.nodup_append]
    refine ⟨nodup_once _, ih h.2, ?_⟩
    rintro v hv v' hv' rfl
    obtain ⟨r, h1, h2, -⟩ := mem_usersIn.mp hv
    obtain ⟨l, hl, hvl⟩ := List.mem_flatten.mp hv'
    obtain ⟨w', hw', rfl⟩ := List.mem_map.mp hl
    obtain ⟨r', h3, h4, -⟩ := mem_usersIn.mp hvl
    exact h.1 _ (List.mem_map.mpr ⟨w', hw', rfl⟩) r h1 r' h3 (by rw [h2, h4])

theorem ofNat_toInt_inj {a b : Nat} (ha : a < 2 ^ 64) (hb : b < 2 ^ 64) (h : (BitVec.ofNat 64 a).toInt = (BitVec.ofNat 64 b).toInt) : a = b := by
  have := congrArg BitVec.toNat (BitVec.eq_of_toInt_eq h)
  rw [BitVec.toNat_ofNat, BitVec.toNat_ofNat, Nat.mod_eq_of_lt ha, Nat.mod_eq_of_lt hb] at this
  exact this

/-- **C120 (part).** After any acts of sources and administrators of which none renames or deletes an event of the project or names a user by
two ids, let a segmentation query count the unique users of an event other than "Session Begin" per interval, with the rows of the events
table handed to any number of workers, those of a user one after the other to one worker. Then the aggregate does not panic, and the value
shown for an interval is the number of the users (user ids and anonymous ids) who sent a track request answered with success for the
project, with the name of the event, in the range of the query (in milliseconds) and in the interval; there is no value where nobody did.
Missing: requests with both ids (`C120_violated`), rows of a user with two workers (`C120_workers_violated`). -/
theorem C120_partial {Q : Type} {S : Meta.Env Q} (hsys : ∀ n, '/' ∉ S.sys n) (hutm : UtmNotEvent S.sys) {K : Nat} {p : Nat} (hp : p < 2 ^ 64) (l : List (Act Q))
    (hx : ∀ x ∈ l, x.Fits S K) (hs : ∀ x ∈ l, x.SparesEvents p) (ho : ∀ x ∈ l, x.OneId p) {a : App} {n : Nat} (h : Runs S (Req.NoMerge p 0) [] n a.world.kv)
    (hr : a.world.rows = []) (hn : n + (l.map (Act.cost K)).sum < 2 ^ 62) (htimes : ∀ x ∈ a.accepted S l, SaneTime x.2.time)
    {name : Str} (hb : name ≠ kSessionBegin) {ev : Event} (hev : (eventsC p).getBy .name name (a.acts S l).world.kv = .ok ev)
    {F : Type} (md : Md F) (hmd : md.event name = .ok ev.id) (Sm : Sem) (hS : ∀ a b, Sm.lt (.ts a) (.ts b) = decide (a < b)) (fuel : Nat) (q : QueryTime) (cur : Int)
    (hq : ∀ n, (q = .last n .month → -2147483648 ≤ n ∧ n < 2147483648) ∧ (q = .last n .year → -178956970 ≤ n ∧ n ≤ 178956970)) (u : Unit') :
    ∃ e f t, segmentationFilter md (fuel + 1) .ms p q cur ⟨.regularName name, none⟩ none = .ok e ∧ Denotes q cur f t ∧
      ∀ (B : Bounds) (workers : List (List (List (List NamedValue)) × List (Option Int × Rat))),
        (workers.map Prod.fst).flatten.flatten.Perm (((a.acts S l).world.rows.filter fun x => x.1 = "events".toList).map Prod.snd) →
        UsersApart (workers.map fun w => (w.1.map (planned Sm u (groupCol 0) e)).flatten) →
        (∀ w ∈ workers, (pEval B .count (countInner true false) true none false (w.1.map (planned Sm u (groupCol 0) e))).isSome) ∧
        ((∀ w ∈ workers, ∀ m, pEval B .count (countInner true false) true none false (w.1.map (planned Sm u (groupCol 0) e)) = some m →
            Listing (fun g => (m g).bind AggFn.result) w.2) →
          (∀ b ws, UsersOf (a.accepted S l) p name f t u b ws →
            (ws = [] → combine B .count 0 (workers.map fun w => workerRows [w.2]) (some b) = none) ∧
            (ws ≠ [] → ∃ fn, combine B .count 0 (workers.map fun w => workerRows [w.2]) (some b) = some fn ∧ fn.result = some (ws.length : Rat))) ∧
          combine B .count 0 (workers.map fun w => workerRows [w.2]) none = none) := by
  obtain ⟨te, f, t, ht1, ht2, ht3⟩ := range_selects Sm hS .ms q cur hq
  refine ⟨eventCond p ev.id te, f, t, ?_, ht2, ?_⟩
  · unfold segmentationFilter
    rw [ht1]
    simp only [eventExpression, hmd]
    rfl
  have ht3' : ∀ row : QRow, (∀ c, row kCreatedCol = some c → ∃ v, c = .ts v) → (Selects Sm row te ↔ During .ms f t row) := by
    intro row hrow
    exact ht3 row (by rw [← kCreatedCol_eq]; exact hrow)
  intro B workers hperm hapart
  have e0 : kEvents = "events".toList := by decide +kernel
  rw [← e0] at hperm
  have hh0 : Hist S n a.world.kv := (Nat.zero_add n) ▸ h.hist .start
  obtain ⟨⟨m, hm, hh⟩, -⟩ := acts_logs hsys hutm hp l hx hs hh0 hn
  have hid := getBy_nameAt ((hist_events hh (by omega) p).inv (events_ok p)) hev
  obtain ⟨L, hL1, hL2, hL3⟩ := acts_users hsys hutm hp l hx hs hh0 hr hn hb hid
  have hcells := acts_event_cells hsys hutm hp l hx hs hh0 hr hn
  have htyped := acts_typed (S := S) l (a := a) (by rw [hr]; simp)
  obtain ⟨m2, hm2, hplain⟩ := acts_plain hsys l hx ho h
  have hginv := (hplain.ginv (by omega)).2.1
  have hsole := accepted_sole (S := S) l ho (a := a)
  -- entries and requests
  have hreq : ∀ e ∈ L, ∃ x ∈ a.accepted S l, x.1 = p ∧ x.2.event = name ∧ x.2 = e.2 := by
    intro e he
    have : e.2 ∈ ((a.accepted S l).filter fun x => x.1 = p ∧ x.2.event = name).map Prod.snd := by
      rw [← hL2]; exact List.mem_map.mpr ⟨e, he, rfl⟩
    obtain ⟨x, hx, hxe⟩ := List.mem_map.mp this
    obtain ⟨h1, h2⟩ := List.mem_filter.mp hx
    have h2 := of_decide_eq_true h2
    exact ⟨x, h1, h2.1, h2.2, hxe⟩
  have hent : ∀ x ∈ a.accepted S l, x.1 = p → x.2.event = name → ∃ e ∈ L, e.2 = x.2 := by
    intro x hx h1 h2
    have : x.2 ∈ L.map Prod.snd := by
      rw [hL2]; exact List.mem_map.mpr ⟨x, List.mem_filter.mpr ⟨hx, by simp [h1, h2]⟩, rfl⟩
    obtain ⟨e, he, hxe⟩ := List.mem_map.mp this
    exact ⟨e, he, hxe⟩
  have hpos : ∀ e ∈ L, 0 < e.1 := by
    intro e he
    obtain ⟨x, hx, -, -, hxe⟩ := hreq e he
    obtain ⟨y, hy⟩ := hsole x hx
    rw [hxe] at hy
    exact (hginv.bound y e.1 ((hL3 e he).2 y hy)).1
  have hused := used_rows (Sm := Sm) ht1 hcells htyped hL1 u
  have hall := planned_workers Sm u (groupCol 0) (eventCond p ev.id te) workers hperm
  have huser : ∀ w ∈ workers, ∀ r ∈ (w.1.map (planned Sm u (groupCol 0) (eventCond p ev.id te))).flatten, r.user ≠ none ∧ r.user ≠ some 0 := by
    intro w hw r hr
    obtain ⟨e, he, -, h2, -⟩ := (hused r.user r.group).mp ⟨r, (hall r).mp ⟨w, hw, hr⟩, rfl, rfl⟩
    rw [h2]
    refine ⟨by simp, fun h0 => ?_⟩
    have h0 : (BitVec.ofNat 64 e.1).toInt = (BitVec.ofNat 64 0).toInt := Option.some.inj h0
    have := ofNat_toInt_inj (hL3 e he).1 (by decide) h0
    have := hpos e he
    omega
  have htab : ∀ w ∈ workers, _ := fun w hw => unique_table B (w.1.map (planned Sm u (groupCol 0) (eventCond p ev.id te))) (fun r hr => (huser w hw r hr).1) (fun r hr => (huser w hw r hr).2)
    (hapart.1 _ (List.mem_map.mpr ⟨w, hw, rfl⟩))
  refine ⟨fun w hw => ?_, fun hlist => ?_⟩
  · obtain ⟨m, h1, -⟩ := htab w hw
    rw [h1]; rfl
  have hC : ∀ g, _ := fun g => C53_partial ⟨0, 0⟩ .count (by decide)
    (workers.map fun w => ((fun g => (usersIn (w.1.map (planned Sm u (groupCol 0) (eventCond p ev.id te))).flatten g).map fun _ => (0 : Rat)), w.2))
    (by
      intro w hwm
      obtain ⟨w0, hw0, rfl⟩ := List.mem_map.mp hwm
      obtain ⟨m, h1, h2⟩ := htab w0 hw0
      have h3 := hlist w0 hw0 m h1
      rw [h2] at h3
      exact h3) g
    (by
      intro w hwm v hv
      obtain ⟨w0, -, rfl⟩ := List.mem_map.mp hwm
      obtain ⟨_, -, rfl⟩ := List.mem_map.mp hv
      decide)
  have hflat : ∀ g, (((workers.map fun w => ((fun g => (usersIn (w.1.map (planned Sm u (groupCol 0) (eventCond p ev.id te))).flatten g).map fun _ => (0 : Rat)), w.2)).map
      fun w : (Option Int → List Rat) × List (Option Int × Rat) => w.1 g).flatten) =
      ((workers.map fun w => usersIn (w.1.map (planned Sm u (groupCol 0) (eventCond p ev.id te))).flatten g).flatten).map fun _ => (0 : Rat) := by
    intro g
    rw [List.map_map, List.map_flatten, List.map_map]
    rfl
  have hmap : (workers.map fun w => ((fun g => (usersIn (w.1.map (planned Sm u (groupCol 0) (eventCond p ev.id te))).flatten g).map fun _ => (0 : Rat)), w.2)).map
      (fun w : (Option Int → List Rat) × List (Option Int × Rat) => workerRows [w.2]) = workers.map fun w => workerRows [w.2] := by
    rw [List.map_map]; rfl
  have hB : ∀ g, combine B .count 0 (workers.map fun w => workerRows [w.2]) g = combine ⟨0, 0⟩ .count 0 (workers.map fun w => workerRows [w.2]) g := fun g => rfl
  have hnd := fun g => nodup_users (fun w : List (List (List NamedValue)) × List (Option Int × Rat) => (w.1.map (planned Sm u (groupCol 0) (eventCond p ev.id te))).flatten) g workers hapart.2
  have hmem : ∀ g v, v ∈ (workers.map fun w => usersIn (w.1.map (planned Sm u (groupCol 0) (eventCond p ev.id te))).flatten g).flatten ↔
      ∃ e ∈ L, eval Sm (fun _ => some (.ts (Ingest.millis e.2.time).toInt)) te = some true ∧ some v = some (BitVec.ofNat 64 e.1).toInt ∧
        g = some (dateTrunc u ((Ingest.millis e.2.time).toInt * nsMs)) := by
    intro g v
    rw [← hused, List.mem_flatten]
    constructor
    · rintro ⟨us, h1, h2⟩
      obtain ⟨w, hw, rfl⟩ := List.mem_map.mp h1
      obtain ⟨r, h3, h4, h5⟩ := mem_usersIn.mp h2
      exact ⟨r, (hall r).mp ⟨w, hw, h3⟩, h4, h5⟩
    · rintro ⟨r, h1, h2, h3⟩
      obtain ⟨w, hw, h4⟩ := (hall r).mpr h1
      exact ⟨_, List.mem_map.mpr ⟨w, hw, rfl⟩, mem_usersIn.mpr ⟨r, h4, h2, h3⟩⟩
  generalize hU : (fun g => (workers.map fun w => usersIn (w.1.map (planned Sm u (groupCol 0) (eventCond p ev.id te))).flatten g).flatten) = U at *
  have hU' : ∀ g, (workers.map fun w => usersIn (w.1.map (planned Sm u (groupCol 0) (eventCond p ev.id te))).flatten g).flatten = U g := fun g => congrFun hU g
  refine ⟨fun b ws hws => ?_, ?_⟩
  · -- users and their numbers
    have hlen : ws.length = (U (some b)).length := by
      have hnum : ∀ y ∈ ws, ∃ k, gid p 0 (a.acts S l).world.kv y = some k ∧ k < 2 ^ 64 := by
        intro y hy
        obtain ⟨x, h1, h2, h3⟩ := (hws.2 y).mp hy
        obtain ⟨e, he, hxe⟩ := hent x h1 h2.1 h2.2.1
        rw [← hxe] at h3
        exact ⟨e.1, (hL3 e he).2 y h3, (hL3 e he).1⟩
      have hperm : (ws.map fun y => (BitVec.ofNat 64 ((gid p 0 (a.acts S l).world.kv y).getD 0)).toInt).Perm (U (some b)) := by
        refine (List.perm_ext_iff_of_nodup ?_ (by rw [← hU']; exact hnd _)).mpr fun v => ?_
        · refine List.pairwise_map.mpr (hws.1.imp_of_mem fun {y y'} hy hy' hne heq => hne ?_)
          obtain ⟨k, hk, hk1⟩ := hnum y hy
          obtain ⟨k', hk', hk1'⟩ := hnum y' hy'
          rw [hk, hk'] at heq
          have := ofNat_toInt_inj hk1 hk1' heq
          subst this
          exact hginv.inj y y' k hk hk'
        · rw [← hU', hmem, List.mem_map]
          constructor
          · rintro ⟨y, hy, rfl⟩
            obtain ⟨x, h1, h2, h3⟩ := (hws.2 y).mp hy
            obtain ⟨e, he, hxe⟩ := hent x h1 h2.1 h2.2.1
            have h4 := (time_falls ht3' (htimes x h1) u b).mpr h2.2.2
            rw [← hxe] at h3 h4
            refine ⟨e, he, h4.1, ?_, h4.2⟩
            rw [(hL3 e he).2 y h3]
            rfl
          · rintro ⟨e, he, h1, h2, h3⟩
            obtain ⟨x, hx, h4, h5, hxe⟩ := hreq e he
            obtain ⟨y, hy⟩ := hsole x hx
            rw [← hxe] at h1 h3
            have h6 := (time_falls ht3' (htimes x hx) u b).mp ⟨h1, h3⟩
            refine ⟨y, (hws.2 y).mpr ⟨x, hx, ⟨h4, h5, h6⟩, hy⟩, ?_⟩
            rw [hxe] at hy
            rw [(hL3 e he).2 y hy]
            exact (Option.some.inj h2).symm
      have := hperm.length_eq
      rwa [List.length_map] at this
    obtain ⟨hC1, hC2⟩ := hC (some b)
    rw [hflat, hU', hmap] at hC1 hC2
    refine ⟨fun h0 => ?_, fun h0 => ?_⟩
    · rw [hB]
      subst h0
      exact hC1 (by rw [List.map_eq_nil_iff]; exact List.eq_nil_of_length_eq_zero hlen.symm)
    · obtain ⟨fn, x, h1, h2, h3⟩ := hC2 (fun h1 => h0 (by
        rw [List.map_eq_nil_iff] at h1
        rw [h1] at hlen
        exact List.eq_nil_of_length_eq_zero hlen))
      refine ⟨fn, by rw [hB]; exact h1, ?_⟩
      cases h3
      rw [h2, List.length_map, hlen]
  · rw [hB]
    obtain ⟨hC1, -⟩ := hC none
    rw [hflat, hU', hmap] at hC1
    refine hC1 ?_
    rw [List.map_eq_nil_iff]
    refine List.eq_nil_iff_forall_not_mem.mpr fun v hv => ?_
    rw [← hU', hmem] at hv
    obtain ⟨e, -, -, -, h1⟩ := hv
    cases h1

/-! #### One worker reading the table in the order of its key -/

/-- The number in a column. -/
def intAt (vs : List NamedValue) (col : Str) : Int :=
  match qrow vs col with
  | some (.int v) => v
  | _ => 0

/-- Spec: sorted by project and user, the key of the events table (cmd/src/lib.rs:222-236). -/
def ByKey (rows : List (List NamedValue)) : Prop :=
  rows.Pairwise fun x y => intAt x "project_id".toList < intAt y "project_id".toList ∨
    intAt x "project_id".toList = intAt y "project_id".toList ∧ intAt x "group_0".toList ≤ intAt y "group_0".toList

theorem pairwise_grouped {G : Type} {rows : List (ARow G)} (hu : ∀ r ∈ rows, r.user ≠ none) (h : rows.Pairwise fun x y => x.user.getD 0 ≤ y.user.getD 0) : Grouped rows := by
  intro x y z hs he
  have h1 := h.sublist hs
  have hm : ∀ r ∈ [x, y, z], r.user ≠ none := fun r hr => hu r (hs.subset hr)
  rw [List.pairwise_cons, List.pairwise_cons] at h1
  have a1 := h1.1 y (by simp)
  have a2 := h1.2.1 z (by simp)
  rw [← he] at a2
  have b1 := hm x (by simp)
  have b2 := hm y (by simp)
  cases hx : x.user with
  | none => exact absurd hx b1
  | some v =>
    cases hy : y.user with
    | none => exact absurd hy b2
    | some w =>
      rw [hx, hy] at a1 a2
      simp only [Option.getD_some] at a1 a2
      rw [show w = v by omega]

/-- **C120 (part), as the table is read.** One worker which gets the rows of the table in the order of its key shows the number of users. -/
theorem C120_sorted_partial {Q : Type} {S : Meta.Env Q} (hsys : ∀ n, '/' ∉ S.sys n) (hutm : UtmNotEvent S.sys) {K : Nat} {p : Nat} (hp : p < 2 ^ 64) (l : List (Act Q))
    (hx : ∀ x ∈ l, x.Fits S K) (hs : ∀ x ∈ l, x.SparesEvents p) (ho : ∀ x ∈ l, x.OneId p) {a : App} {n : Nat} (h : Runs S (Req.NoMerge p 0) [] n a.world.kv)
    (hr : a.world.rows = []) (hn : n + (l.map (Act.cost K)).sum < 2 ^ 62) (htimes : ∀ x ∈ a.accepted S l, SaneTime x.2.time)
    {name : Str} (hb : name ≠ kSessionBegin) {ev : Event} (hev : (eventsC p).getBy .name name (a.acts S l).world.kv = .ok ev)
    {F : Type} (md : Md F) (hmd : md.event name = .ok ev.id) (Sm : Sem) (hS : ∀ a b, Sm.lt (.ts a) (.ts b) = decide (a < b)) (fuel : Nat) (q : QueryTime) (cur : Int)
    (hq : ∀ n, (q = .last n .month → -2147483648 ≤ n ∧ n < 2147483648) ∧ (q = .last n .year → -178956970 ≤ n ∧ n ≤ 178956970)) (u : Unit') :
    ∃ e f t, segmentationFilter md (fuel + 1) .ms p q cur ⟨.regularName name, none⟩ none = .ok e ∧ Denotes q cur f t ∧
      ∀ (B : Bounds) (batches : List (List (List NamedValue))),
        batches.flatten.Perm (((a.acts S l).world.rows.filter fun x => x.1 = "events".toList).map Prod.snd) → ByKey batches.flatten →
        ∃ m, pEval B .count (countInner true false) true none false (batches.map (planned Sm u "group_0".toList e)) = some m ∧
          ∀ out, Listing (fun g => (m g).bind AggFn.result) out → ∀ b ws, UsersOf (a.accepted S l) p name f t u b ws →
            (ws = [] → combine B .count 0 [workerRows [out]] (some b) = none) ∧
            (ws ≠ [] → ∃ fn, combine B .count 0 [workerRows [out]] (some b) = some fn ∧ fn.result = some (ws.length : Rat)) := by
  obtain ⟨e, f, t, h1, h2, h3⟩ := C120_partial hsys hutm hp l hx hs ho h hr hn htimes hb hev md hmd Sm hS fuel q cur hq u
  refine ⟨e, f, t, h1, h2, fun B batches hperm hkey => ?_⟩
  have g0 : groupCol 0 = "group_0".toList := by decide +kernel
  rw [← g0]
  have c1 : kProjectCol = "project_id".toList := kProjectCol_eq
  -- the filter keeps rows of the project
  have hproj : ∀ row, Selects Sm row e → row kProjectCol = some (.int (BitVec.ofNat 64 p).toInt) := by
    intro row hsel
    unfold segmentationFilter at h1
    split at h1
    · cases h1
    · simp only [eventExpression, hmd] at h1
      cases h1
      exact bin_eq_selects.mp (and_selects.mp (and_selects.mp hsel).1).1
  have hplan : (batches.map (planned Sm u (groupCol 0) e)).flatten = planned Sm u (groupCol 0) e batches.flatten := planned_flatten _ _ _ _ _
  have hflat0 : ([(batches, ([] : List (Option Int × Rat)))].map Prod.fst).flatten.flatten = batches.flatten := by simp
  -- users of the rows are numbers
  have hsort : (planned Sm u (groupCol 0) e batches.flatten).Pairwise fun x y => x.user.getD 0 ≤ y.user.getD 0 := by
    unfold planned
    rw [List.pairwise_map, List.pairwise_filter, List.pairwise_map]
    refine hkey.imp fun {x y} hxy sx sy => ?_
    have px := hproj _ (eq_of_beq sx)
    have py := hproj _ (eq_of_beq sy)
    have ix : intAt x "project_id".toList = (BitVec.ofNat 64 p).toInt := by unfold intAt; rw [← c1, px]
    have iy : intAt y "project_id".toList = (BitVec.ofNat 64 p).toInt := by unfold intAt; rw [← c1, py]
    rw [ix, iy] at hxy
    have hxy := (hxy.resolve_left (by omega)).2
    have ux : ∀ vs, (toARow u (groupCol 0) (qrow vs)).user.getD 0 = intAt vs "group_0".toList := by
      intro vs
      unfold toARow intAt
      rw [g0]
      rcases qrow vs "group_0".toList with _ | c
      · rfl
      · cases c <;> rfl
    rw [ux, ux]
    exact hxy
  have hr0 := hr
  have hsome : ∀ out, UsersApart ([(batches, out)].map fun w : List (List (List NamedValue)) × List (Option Int × Rat) => (w.1.map (planned Sm u (groupCol 0) e)).flatten) := by
    intro out
    refine ⟨fun rows hrows => ?_, by simp⟩
    cases List.mem_singleton.mp hrows
    dsimp only
    rw [hplan]
    refine pairwise_grouped ?_ hsort
    intro r hr
    obtain ⟨vs, h4, h5, rfl⟩ := mem_planned.mp hr
    obtain ⟨x, hxm, rfl⟩ := List.mem_map.mp (hperm.mem_iff.mp h4)
    obtain ⟨h6, h7⟩ := List.mem_filter.mp hxm
    have h7 : x.1 = "events".toList := of_decide_eq_true h7
    have hpr := hproj _ h5
    obtain ⟨j, hj⟩ := acts_typed (S := S) l (a := a) (by rw [hr0]; simp) x h6
    obtain ⟨k, hk⟩ := acts_user_cells hsys hutm hp l hx hs ((Nat.zero_add n) ▸ h.hist .start) hr0 hn x (by
      unfold rowsOf
      have e0 : kEvents = "events".toList := by decide +kernel
      have c2 : kProjectCol = kProjectId := by decide +kernel
      unfold RowOf at hj
      have h8 : toCell (i64 j) = some (.int (BitVec.ofNat 64 p).toInt) := by rw [← hpr, c2, ← hj]; rfl
      simp [h6, h7, e0, hj, toCell_i64.mp h8])
    have q4 : qrow x.2 (groupCol 0) = toCell (val x.2 (groupCol 0)) := rfl
    unfold toARow
    rw [q4, hk]
    simp [i64, toCell]
  have hA := fun out => h3 B [(batches, out)] (by simpa using hperm) (hsome out)
  obtain ⟨m, hm⟩ := Option.isSome_iff_exists.mp ((hA []).1 _ (List.mem_singleton.mpr rfl))
  refine ⟨m, hm, fun out hout b ws hws => ?_⟩
  exact ((hA out).2 (fun w hw m' hm' => by
    cases List.mem_singleton.mp hw
    have : some m = some m' := hm.symm.trans hm'
    cases this
    exact hout)).1 b ws hws

/-! ### Examples -/

/-- The filter of the examples: "Buy" events of the first project in the first ten seconds. -/
def exUniqueCond : Expr := .and (.and (projectExpr 1) (.and (.bin .gte kCreatedCol (some (.ts 0))) (.bin .lte kCreatedCol (some (.ts 10000))))) (.bin .eq kEventCol (some (.int 2)))

/-- The stored rows after some acts. -/
def exUniqueRows (l : List (Act Unit)) : List (List NamedValue) := ((exApp.acts exSysEnv l).world.rows.filter fun x => x.1 = "events".toList).map Prod.snd

/-- What one worker shows for the first day. -/
def exUsersChart (rows : List (List NamedValue)) : Option (Option Rat) :=
  (pEval ⟨0, 0⟩ .count (countInner true false) true none false [planned exSem .day "group_0".toList exUniqueCond rows]).map fun m => (m (some 0)).bind AggFn.result

theorem exAccepted : exApp.accepted exSysEnv exActs = [(1, exTrack (some "u".toList) none []), (1, exTrack (some "v".toList) none []), (1, exTrack (some "u".toList) none [])] := by
  decide +kernel

/-- Three requests of two users, and nobody named by two ids: two users are counted where the rows are sorted. -/
example : (∀ x ∈ exActs, x.OneId 1) ∧ Runs exSysEnv (Req.NoMerge 1 0) [] 2 exApp.world.kv ∧ (∀ x ∈ exApp.accepted exSysEnv exActs, SaneTime x.2.time) ∧
    UsersOf (exApp.accepted exSysEnv exActs) 1 "Buy".toList 0 10000000000 .day 0 [.real "u".toList, .real "v".toList] ∧
    ([0, 1, 4, 2, 3].filterMap fun i => (exUniqueRows exActs)[i]?).Perm (exUniqueRows exActs) ∧ ByKey ([0, 1, 4, 2, 3].filterMap fun i => (exUniqueRows exActs)[i]?) ∧
    exUsersChart ([0, 1, 4, 2, 3].filterMap fun i => (exUniqueRows exActs)[i]?) = some (some 2) := by
  refine ⟨?_, ?_, ?_, ⟨by decide +kernel, fun e => ?_⟩, ?_, ?_, by decide +kernel⟩
  · intro x hx
    simp only [exActs, List.mem_cons, List.not_mem_nil, or_false] at hx
    rcases hx with rfl | rfl | rfl | rfl
    · exact .inr rfl
    · exact .inr rfl
    · trivial
    · exact .inr rfl
  · exact .step (.eventCreate 1 ⟨0, 0⟩ (eventReq kSessionBegin none)) (.step (.projectCreate ⟨0, 0⟩ exProj) .refl ⟨by decide, by decide, by decide⟩ trivial) ⟨by decide, by decide⟩ trivial
  · rw [exAccepted]
    intro x hx
    simp only [List.mem_cons, List.not_mem_nil, or_false] at hx
    rcases hx with rfl | rfl | rfl <;> exact ⟨by decide, by decide, by decide⟩
  · have hi : InInterval .day 0 5000000000 := (trunc_interval .day 5000000000 0).mp (by decide +kernel)
    have hf : ∀ s, Falls 1 "Buy".toList 0 10000000000 .day 0 (1, exTrack (some s) none []) := by
      intro s
      have ht : nanosOf (exTrack (some s) none []).time = 5000000000 := by
        show nanosOf ⟨5#64, 0⟩ = _
        decide
      unfold Falls
      rw [ht]
      exact ⟨rfl, rfl, by decide, by decide, hi⟩
    rw [exAccepted]
    simp only [List.mem_cons, List.not_mem_nil, or_false, exists_eq_or_imp, exists_eq_left, hf, true_and]
    constructor
    · rintro (rfl | rfl)
      · exact .inl ⟨rfl, rfl⟩
      · exact .inr (.inl ⟨rfl, rfl⟩)
    · intro h
      cases e with
      | anon s => rcases h with h | h | h <;> cases h.1
      | real s =>
        rcases h with h | h | h
        · exact .inl (by rw [Option.some.inj h.1])
        · exact .inr (by rw [Option.some.inj h.1])
        · exact .inl (by rw [Option.some.inj h.1])
  · have hl : (exUniqueRows exActs).length = 5 := by decide +kernel
    obtain ⟨a, b, c, d, e, h⟩ : ∃ a b c d e, exUniqueRows exActs = [a, b, c, d, e] := by
      match exUniqueRows exActs, hl with
      | [a, b, c, d, e], _ => exact ⟨a, b, c, d, e, rfl⟩
    rw [h]
    show [a, b, e, c, d].Perm [a, b, c, d, e]
    refine .cons _ (.cons _ ?_)
    exact (List.perm_append_comm (l₁ := [e]) (l₂ := [c, d]))
  · unfold ByKey
    decide +kernel

/-- **C120 is violated by requests with two ids**: two requests with the same user id, of which the second has an anonymous id as
well, are counted as two users (the cause is that of `C78_violated`). -/
theorem C120_violated : ∃ l : List (Act Unit), (exApp.accepted exSysEnv l).map (fun x => (x.1, x.2.event, x.2.userId)) = [(1, "Buy".toList, some "u".toList), (1, "Buy".toList, some "u".toList)] ∧
    ByKey (exUniqueRows l) ∧ exUsersChart (exUniqueRows l) = some (some 2) :=
  ⟨[.http (.track exSysIngest exToken (exTrack (some "u".toList) none [])), .http (.track exSysIngest exToken (exTrack (some "u".toList) (some "a".toList) []))],
    by decide +kernel, by unfold ByKey; decide +kernel, by decide +kernel⟩

/-- **... and by rows which are not together**: in the order of their arrival the rows of the example make three users of two. -/
theorem C120_workers_violated : exUsersChart (exUniqueRows exActs) = some (some 3) := by decide +kernel

end OptiPrism.Query
