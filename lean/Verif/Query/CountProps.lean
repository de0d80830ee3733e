import Verif.Query.PlanProps
import Verif.Query.AggProps
import Verif.Query.TimeProps
import Verif.Ingest.CountRows

/-!
# C116: a count of events is the number of accepted requests

From the requests to the chart: whatever the sources sent and administrators did, the count of an event per
interval which a segmentation query shows is the number of track requests of the project with the name of the event
which were answered with success.
-/

namespace OptiPrism.Query
open OptiPrism.Meta OptiPrism.Ingest
open OptiPrism.Storage (Value NamedValue)

/-! ### Spec -/

/-- The moment of a request in nanoseconds. -/
def nanosOf (t : Time) : Int := t.sec.toInt * 1000000000 + (t.nano : Int)

/-- Moments chrono can represent are well in here. -/
def SaneTime (t : Time) : Prop := -(2 ^ 50) ≤ t.sec.toInt ∧ t.sec.toInt < 2 ^ 50 ∧ t.nano < 2000000000

/-- The interval beginning at `b` is the one of the moment `x`. -/
def InInterval (u : Unit') (b x : Int) : Prop := Begins u b ∧ b ≤ x ∧ ∀ c, Begins u c → c ≤ x → c ≤ b

open Classical in
/-- The requests which count: of the project, with the name, in the range (in milliseconds) and in the interval. -/
noncomputable def requestCount (acc : List (Nat × Track)) (p : Nat) (name : Str) (f t : Int) (u : Unit') (b : Int) : Nat :=
  (acc.filter fun x => x.1 = p ∧ x.2.event = name ∧ f / 1000000 ≤ nanosOf x.2.time / 1000000 ∧
    nanosOf x.2.time / 1000000 ≤ t / 1000000 ∧ InInterval u b (nanosOf x.2.time)).length

/-! ### helpers -/

theorem millis_toInt {t : Time} (h : SaneTime t) : (Ingest.millis t).toInt = nanosOf t / 1000000 := by
  obtain ⟨h1, h2, h3⟩ := h
  have e : Ingest.millis t = BitVec.ofInt 64 (t.sec.toInt * 1000 + ((t.nano / 1000000 : Nat) : Int)) := by
    unfold Ingest.millis
    rw [BitVec.ofInt_add, BitVec.ofInt_mul, BitVec.ofInt_toInt, BitVec.ofInt_natCast]
    rfl
  have hb : (t.nano / 1000000 : Nat) < 2000 := by omega
  rw [e, BitVec.toInt_ofInt, Int.bmod_eq_of_le (by omega) (by omega)]
  unfold nanosOf
  omega

theorem whole_ms {u : Unit'} {b : Int} (h : Begins u b) : ∃ k, b = k * 1000000 := by
  cases u with
  | hour => obtain ⟨k, rfl⟩ := h; exact ⟨k * 3600000, by unfold nsHour; omega⟩
  | day => obtain ⟨k, rfl⟩ := h; exact ⟨_, by unfold midnight; exact (Int.mul_assoc _ 86400000 1000000).symm⟩
  | week => obtain ⟨k, rfl⟩ := h; exact ⟨_, by unfold midnight; exact (Int.mul_assoc _ 86400000 1000000).symm⟩
  | month => obtain ⟨y, m, -, -, rfl⟩ := h; exact ⟨_, by unfold midnight; exact (Int.mul_assoc _ 86400000 1000000).symm⟩
  | year => obtain ⟨y, rfl⟩ := h; exact ⟨_, by unfold midnight; exact (Int.mul_assoc _ 86400000 1000000).symm⟩

theorem trunc_interval (u : Unit') (x b : Int) : dateTrunc u (x / 1000000 * nsMs) = b ↔ InInterval u b x := by
  obtain ⟨h1, h2, h3⟩ := C66_trunc u (x / 1000000 * nsMs)
  unfold nsMs at *
  constructor
  · rintro rfl
    refine ⟨h1, by omega, fun c hc hx => h3 c hc ?_⟩
    obtain ⟨k, rfl⟩ := whole_ms hc
    omega
  · rintro ⟨i1, i2, i3⟩
    have a := i3 _ h1 (by omega)
    have c := h3 b i1 (by obtain ⟨k, rfl⟩ := whole_ms i1; omega)
    omega

/-- All rows carry the number of a project. -/
theorem acts_typed {Q : Type} {S : Meta.Env Q} (l : List (Act Q)) {a : App} (h : ∀ x ∈ a.world.rows, ∃ q, RowOf q x) :
    ∀ x ∈ (a.acts S l).world.rows, ∃ q, RowOf q x := by
  induction l generalizing a with
  | nil => exact h
  | cons y l ih =>
    refine ih (a := a.act S y) ?_
    cases y with
    | admin r => exact h
    | http r =>
      have hr : ∀ x ∈ (r.exec a.world).2.rows, ∃ q, RowOf q x := by
        have key : ∃ l, (r.exec a.world).2.rows = a.world.rows ++ l ∧ ∀ y ∈ l, ∃ q, RowOf q y := by
          cases hp : getByToken r.token a.world.kv with
          | error e =>
            refine ⟨[], ?_, by simp⟩
            cases r with
            | track E token req =>
              have hp : getByToken token a.world.kv = .error e := hp
              simp [HttpReq.exec, executeTrack, M.bind, Ingest.read, callRaw, hp]
            | identify sys now token req =>
              have hp : getByToken token a.world.kv = .error e := hp
              simp [HttpReq.exec, executeIdentify, M.bind, Ingest.read, callRaw, hp]
          | ok project =>
            cases r with
            | track E token req =>
              obtain ⟨l, h1, h2⟩ := executeTrack_appends (E := E) (req := req) (w := a.world) hp
              exact ⟨l, h1, fun y hy => ⟨_, h2 y hy⟩⟩
            | identify sys now token req =>
              obtain ⟨l, h1, h2⟩ := executeIdentify_appends (sys := sys) (now := now) (req := req) (w := a.world) hp
              exact ⟨l, h1, fun y hy => ⟨_, h2 y hy⟩⟩
        obtain ⟨l, h1, h2⟩ := key
        rw [h1]
        intro x hx
        rcases List.mem_append.mp hx with hx | hx
        · exact h x hx
        · exact h2 x hx
      cases r with
      | track E token req =>
        simp only [App.act, App.step]
        split
        · exact h
        · exact hr
      | identify sys now token req =>
        simp only [App.act, App.step]
        split
        · exact h
        · exact hr

/-- The numbers of events are in the rows of the project. -/
theorem acts_event_cells {Q : Type} {S : Meta.Env Q} (hsys : ∀ n, '/' ∉ S.sys n) (hutm : UtmNotEvent S.sys) {K : Nat} {p : Nat} (hp : p < 2 ^ 64) (l : List (Act Q))
    (hx : ∀ x ∈ l, x.Fits S K) (hs : ∀ x ∈ l, x.SparesEvents p) {a : App} {n : Nat} (h : Hist S n a.world.kv) (hr : a.world.rows = []) (hn : n + (l.map (Act.cost K)).sum < 2 ^ 62) :
    ∀ x ∈ rowsOf kEvents p (a.acts S l).world.rows, ∃ j, val x.2 kEvent = i64 j := by
  obtain ⟨-, -, new, L, h1, h2, -, -⟩ := acts_logs hsys hutm hp l hx hs h hn
  rw [h1, hr, List.nil_append]
  intro x hx
  have : (val x.2 kEvent, val x.2 kCreatedAt, val x.2 (groupCol 0)) ∈ L.map (fun e : Entry => (i64 e.id, e.time, i64 e.user)) := by
    rw [← h2]
    exact List.mem_map.mpr ⟨x, hx, rfl⟩
  obtain ⟨e, -, he⟩ := List.mem_map.mp this
  exact ⟨e.id, (congrArg Prod.fst he).symm⟩

theorem toCell_i64 {a b : Nat} : toCell (i64 a) = some (.int (BitVec.ofNat 64 b).toInt) ↔ i64 a = i64 b := by
  unfold i64 toCell
  simp only [Option.some.injEq, Cell.int.injEq, Value.int64.injEq]
  exact ⟨fun h => BitVec.eq_of_toInt_eq h, fun h => by rw [h]⟩

/-- The time expression looks at one column. -/
theorem time_eval {col : Str} {u : TsUnit} {q : QueryTime} {cur : Int} {te : Expr} (h : timeExpression col u q cur = .ok te) (S : Sem) (row : QRow) :
    eval S row te = eval S (fun _ => row col) te := by
  unfold timeExpression at h
  split at h
  · cases h
  · cases h; rfl

/-- The filter of a query for one event by name, without filters of its own. -/
def eventCond (p id : Nat) (te : Expr) : Expr := .and (.and (projectExpr p) te) (.bin .eq kEventCol (some (.int (BitVec.ofNat 64 id).toInt)))

/-- As many values as rows are counted. -/
def zeros (batches : List (List (ARow (Option Int)))) (g : Option Int) : List Rat :=
  List.replicate (batches.flatten.countP (counted none false g)) 0

/-- The interval of a cell. -/
def cellInterval (u : Unit') (c : Option Cell) : Option Int :=
  match c with
  | some (.ts v) => some (dateTrunc u (v * nsMs))
  | _ => none

theorem planned_flatten (S : Sem) (u : Unit') (gc : Str) (e : Expr) (l : List (List (List NamedValue))) :
    (l.map (planned S u gc e)).flatten = planned S u gc e l.flatten := by
  induction l with
  | nil => rfl
  | cons a l ih =>
    rw [List.map_cons, List.flatten_cons, ih, List.flatten_cons]
    unfold planned
    rw [List.map_append, List.filter_append, List.map_append]

/-- A worker's count of a group, as an aggregate. -/
theorem count_table (batches : List (List (ARow (Option Int)))) (g : Option Int) :
    (countEval none false (fun _ => none) batches g).map (fun n : Nat => (n : Rat)) =
      table ⟨0, 0⟩ .count (zeros batches) g := by
  rw [C51_count none false batches (fun e h => by cases h) g]
  unfold table zeros
  generalize batches.flatten.countP (counted none false g) = c
  cases c with
  | zero => rfl
  | succ k =>
    rw [if_neg (by simp)]
    show _ = (feed (.count 0) _).result
    rw [feed_count, List.length_replicate, Rat.zero_add]
    rfl

theorem workers_total {W : Type} (P : List NamedValue → Bool) (parts : W → List (List (List NamedValue))) (ws : List W) :
    ((ws.map fun w => List.replicate ((parts w).flatten.countP P) (0 : Rat)).flatten).length = ((ws.map parts).flatten.flatten).countP P := by
  induction ws with
  | nil => rfl
  | cons w ws ih =>
    rw [List.map_cons, List.flatten_cons, List.length_append, ih, List.map_cons, List.flatten_cons, List.flatten_append, List.countP_append, List.length_replicate]

/-- The rows counted in an interval are the requests. -/
theorem rows_counted {Q : Type} {S : Meta.Env Q} (hsys : ∀ n, '/' ∉ S.sys n) (hutm : UtmNotEvent S.sys) {K : Nat} {p : Nat} (hp : p < 2 ^ 64) (l : List (Act Q))
    (hx : ∀ x ∈ l, x.Fits S K) (hs : ∀ x ∈ l, x.SparesEvents p) {a : App} {n : Nat} (h : Hist S n a.world.kv) (hr : a.world.rows = []) (hn : n + (l.map (Act.cost K)).sum < 2 ^ 62)
    {name : Str} (hb : name ≠ kSessionBegin) {ev : Event} (hev : (eventsC p).getBy .name name (a.acts S l).world.kv = .ok ev)
    (Sm : Sem) (u : Unit') (gc : Str) {q : QueryTime} {cur : Int} {te : Expr} (hte : timeExpression kCreatedCol .ms q cur = .ok te) (g : Option Int) :
    (((a.acts S l).world.rows.filter fun x => x.1 = kEvents).map Prod.snd).countP (fun vs =>
        (eval Sm (qrow vs) (eventCond p ev.id te) == some true) &&
        counted none false g (toARow u gc (qrow vs))) =
      ((a.accepted S l).filter fun x => x.1 = p ∧ x.2.event = name).countP (fun x =>
        (eval Sm (fun _ => some (.ts (Ingest.millis x.2.time).toInt)) te == some true) && (some (dateTrunc u ((Ingest.millis x.2.time).toInt * nsMs)) == g)) := by
  obtain ⟨⟨m, hm, hh⟩, -⟩ := acts_logs hsys hutm hp l hx hs h hn
  have hid := getBy_nameAt ((hist_events hh (by omega) p).inv (events_ok p)) hev
  have hrows := acts_rows hsys hutm hp l hx hs h hr hn hb hid
  have hcells := acts_event_cells hsys hutm hp l hx hs h hr hn
  have htyped := acts_typed (S := S) l (a := a) (by rw [hr]; simp)
  generalize (a.acts S l).world.rows = rows at hrows hcells htyped ⊢
  have key := congrArg (List.countP fun v : Value => (eval Sm (fun _ => toCell v) te == some true) && (cellInterval u (toCell v) == g)) hrows
  rw [List.countP_map, List.countP_map] at key
  refine Eq.trans ?_ key
  unfold rowsOf
  rw [List.countP_filter, List.countP_filter, List.countP_map, List.countP_filter]
  refine List.countP_congr fun x hxm => ?_
  obtain ⟨j, hj⟩ := htyped x hxm
  unfold RowOf at hj
  have c1 : kProjectCol = kProjectId := by decide +kernel
  have c2 : kCreatedCol = kCreatedAt := by decide +kernel
  have c3 : kEventCol = kEvent := by decide +kernel
  by_cases ht : x.1 = kEvents
  · have q1 : qrow x.2 kProjectCol = toCell (i64 j) := by rw [c1, ← hj]; rfl
    have q2 : qrow x.2 kCreatedCol = toCell (val x.2 kCreatedAt) := by rw [c2]; rfl
    have q3 : qrow x.2 kEventCol = toCell (val x.2 kEvent) := by rw [c3]; rfl
    have s1 : Selects Sm (qrow x.2) (projectExpr p) ↔ i64 j = i64 p := by
      unfold projectExpr
      rw [bin_eq_selects, q1, toCell_i64]
    by_cases hjp : i64 j = i64 p
    · obtain ⟨k, hk⟩ := hcells x (by unfold rowsOf; simp [hxm, ht, hj, hjp])
      have s2 : Selects Sm (qrow x.2) (.bin .eq kEventCol (some (.int (BitVec.ofNat 64 ev.id).toInt))) ↔ i64 k = i64 ev.id := by
        rw [bin_eq_selects, q3, hk, toCell_i64]
      have s3 : Selects Sm (qrow x.2) te ↔ eval Sm (fun _ => toCell (val x.2 kCreatedAt)) te = some true := by
        unfold Selects
        rw [time_eval hte, q2]
      have s4 : (toARow u gc (qrow x.2)).group = cellInterval u (toCell (val x.2 kCreatedAt)) := by
        unfold toARow cellInterval
        rw [q2]
        rcases toCell (val x.2 kCreatedAt) with _ | c
        · rfl
        · cases c <;> rfl
      have s5 : ∃ r, (toARow u gc (qrow x.2)).val = some r := by
        unfold toARow
        rw [q3, hk]
        exact ⟨_, rfl⟩
      obtain ⟨r, s5⟩ := s5
      have s6 : eval Sm (qrow x.2) (eventCond p ev.id te) = some true ↔
          eval Sm (fun _ => toCell (val x.2 kCreatedAt)) te = some true ∧ i64 k = i64 ev.id := by
        show Selects _ _ (.and (.and _ _) _) ↔ _
        rw [and_selects, and_selects, s1, s2, s3]
        simp [hjp]
      simp only [Function.comp, counted, s4, s5, ht, hj, hjp, hk, Bool.and_eq_true, beq_iff_eq, s6, decide_true, decide_eq_true_eq, true_and, and_true, ne_eq, bne_iff_ne,
        reduceCtorEq, not_false_eq_true, Bool.true_and]
      constructor
      · rintro ⟨⟨h1, h2⟩, h3⟩; exact ⟨⟨h1, h3⟩, h2⟩
      · rintro ⟨⟨h1, h3⟩, h2⟩; exact ⟨⟨h1, h2⟩, h3⟩
    · have : eval Sm (qrow x.2) (eventCond p ev.id te) ≠ some true := by
        intro h1
        exact hjp (s1.mp (and_selects.mp (and_selects.mp (show Selects _ _ _ from h1)).1).1)
      simp [this, hj, hjp]
  · simp [ht]

/-! ### C116 -/

/-- **C116.** After any acts of sources and administrators of which none renames or deletes an event of the project, let a
segmentation query count an event other than "Session Begin" per interval, with the rows of the events table handed to any number of
workers in any batches and order, and their results combined. Then the value shown for an interval is the number of track requests
answered with success for the project, with the name of the event, in the range of the query (in milliseconds) and in the
interval; intervals without requests have no value, and each interval with a value has its column. -/
theorem C116 {Q : Type} {S : Meta.Env Q} (hsys : ∀ n, '/' ∉ S.sys n) (hutm : UtmNotEvent S.sys) {K : Nat} {p : Nat} (hp : p < 2 ^ 64) (l : List (Act Q))
    (hx : ∀ x ∈ l, x.Fits S K) (hs : ∀ x ∈ l, x.SparesEvents p) {a : App} {n : Nat} (h : Hist S n a.world.kv) (hr : a.world.rows = []) (hn : n + (l.map (Act.cost K)).sum < 2 ^ 62)
    (htimes : ∀ x ∈ a.accepted S l, SaneTime x.2.time)
    {name : Str} (hb : name ≠ kSessionBegin) {ev : Event} (hev : (eventsC p).getBy .name name (a.acts S l).world.kv = .ok ev)
    {F : Type} (md : Md F) (hmd : md.event name = .ok ev.id) (Sm : Sem) (hS : ∀ a b, Sm.lt (.ts a) (.ts b) = decide (a < b)) (fuel : Nat) (q : QueryTime) (cur : Int)
    (hq : ∀ n, (q = .last n .month → -2147483648 ≤ n ∧ n < 2147483648) ∧ (q = .last n .year → -178956970 ≤ n ∧ n ≤ 178956970))
    (u : Unit') (gc : Str) :
    ∃ e f t, segmentationFilter md (fuel + 1) .ms p q cur ⟨.regularName name, none⟩ none = .ok e ∧ Denotes q cur f t ∧
      (∀ (B : Bounds) (workers : List (List (List (List NamedValue)) × List (Option Int × Rat))),
        (workers.map Prod.fst).flatten.flatten.Perm (((a.acts S l).world.rows.filter fun x => x.1 = "events".toList).map Prod.snd) →
        (∀ w ∈ workers, Listing (fun g => (countEval none false (fun _ => none) (w.1.map (planned Sm u gc e)) g).map fun n : Nat => (n : Rat)) w.2) →
        (∀ b, requestCount (a.accepted S l) p name f t u b = 0 → combine B .count 0 (workers.map fun w => workerRows [w.2]) (some b) = none) ∧
        (∀ b, requestCount (a.accepted S l) p name f t u b ≠ 0 → ∃ fn, combine B .count 0 (workers.map fun w => workerRows [w.2]) (some b) = some fn ∧
          fn.result = some (requestCount (a.accepted S l) p name f t u b : Rat)) ∧
        combine B .count 0 (workers.map fun w => workerRows [w.2]) none = none) ∧
      (∀ b, requestCount (a.accepted S l) p name f t u b ≠ 0 → b ∈ timeColumns f t u) := by
  obtain ⟨te, f, t, ht1, ht2, ht3⟩ := range_selects Sm hS .ms q cur hq
  refine ⟨eventCond p ev.id te, f, t, ?_, ht2, ?_, ?_⟩
  · unfold segmentationFilter
    rw [ht1]
    simp only [eventExpression, hmd]
    rfl
  · intro B workers hperm hw
    have e0 : kEvents = "events".toList := by decide +kernel
    rw [← e0] at hperm
    have hcount : ∀ g, ((workers.map Prod.fst).flatten.flatten).countP (fun vs =>
        (eval Sm (qrow vs) (eventCond p ev.id te) == some true) &&
        counted none false g (toARow u gc (qrow vs))) = match g with
          | none => 0
          | some b => requestCount (a.accepted S l) p name f t u b := by
      intro g
      rw [hperm.countP_eq, rows_counted hsys hutm hp l hx hs h hr hn hb hev Sm u gc ht1 g]
      cases g with
      | none => simp
      | some b =>
        dsimp only
        unfold requestCount
        rw [← List.countP_eq_length_filter, List.countP_filter]
        refine List.countP_congr fun x hxm => ?_
        have hm := millis_toInt (htimes x hxm)
        have hsel := ht3 (fun _ => some (.ts (Ingest.millis x.2.time).toInt)) (fun c hc => ⟨_, (Option.some.inj hc).symm⟩)
        unfold Selects at hsel
        have hd : During .ms f t (fun _ => some (.ts (Ingest.millis x.2.time).toInt)) ↔ f / 1000000 ≤ nanosOf x.2.time / 1000000 ∧ nanosOf x.2.time / 1000000 ≤ t / 1000000 := by
          unfold During
          constructor
          · rintro ⟨v, h1, h2, h3⟩
            cases h1
            rw [hm] at h2 h3
            exact ⟨h2, h3⟩
          · rintro ⟨h2, h3⟩
            refine ⟨_, rfl, ?_⟩
            rw [hm]
            exact ⟨h2, h3⟩
        rw [hd] at hsel
        simp only [Bool.and_eq_true, beq_iff_eq, hsel, Option.some.injEq, decide_eq_true_eq]
        rw [hm, trunc_interval]
        constructor
        · rintro ⟨⟨⟨h1, h2⟩, h3⟩, h4, h5⟩; exact ⟨h4, h5, h1, h2, h3⟩
        · rintro ⟨h4, h5, h1, h2, h3⟩; exact ⟨⟨⟨h1, h2⟩, h3⟩, h4, h5⟩
    have hC : ∀ g, _ := fun g => C53_partial ⟨0, 0⟩ .count (by decide)
      (workers.map fun w => (zeros (w.1.map (planned Sm u gc (eventCond p ev.id te))), w.2))
      (by
        intro w hwm
        obtain ⟨w0, hw0, rfl⟩ := List.mem_map.mp hwm
        have h1 := hw w0 hw0
        have h2 : (fun g => (countEval none false (fun _ => none) (w0.1.map (planned Sm u gc (eventCond p ev.id te))) g).map fun n : Nat => (n : Rat)) = _ :=
          funext fun g => count_table _ g
        rw [h2] at h1
        exact h1) g
      (by
        intro w hwm v hv
        obtain ⟨w0, -, rfl⟩ := List.mem_map.mp hwm
        unfold zeros at hv
        rw [List.eq_of_mem_replicate hv]
        decide)
    have hlen : ∀ g, (((workers.map fun w => (zeros (w.1.map (planned Sm u gc (eventCond p ev.id te))), w.2)).map
        fun w : (Option Int → List Rat) × List (Option Int × Rat) => w.1 g).flatten).length = match g with
          | none => 0
          | some b => requestCount (a.accepted S l) p name f t u b := by
      intro g
      rw [← hcount g, ← workers_total, List.map_map]
      congr 2
      refine List.map_congr_left fun w _ => ?_
      simp only [Function.comp]
      unfold zeros
      rw [planned_flatten]
      unfold planned
      rw [List.countP_map, List.countP_filter, List.countP_map]
      congr 1
      refine List.countP_congr fun vs _ => ?_
      simp only [Function.comp, Bool.and_eq_true]
      exact and_comm
    have hmap : (workers.map fun w => (zeros (w.1.map (planned Sm u gc (eventCond p ev.id te))), w.2)).map
        (fun w : (Option Int → List Rat) × List (Option Int × Rat) => workerRows [w.2]) = workers.map fun w => workerRows [w.2] := by
      rw [List.map_map]; rfl
    have hB : ∀ g, combine B .count 0 (workers.map fun w => workerRows [w.2]) g = combine ⟨0, 0⟩ .count 0 (workers.map fun w => workerRows [w.2]) g := fun g => rfl
    refine ⟨fun b h0 => ?_, fun b h0 => ?_, ?_⟩
    · have h1 := (hC (some b)).1 (List.eq_nil_of_length_eq_zero (by rw [hlen]; exact h0))
      rw [hmap] at h1
      rw [hB]; exact h1
    · obtain ⟨fn, x, h1, h2, h3⟩ := (hC (some b)).2 (fun h1 => h0 (by have := congrArg List.length h1; rw [hlen] at this; exact this))
      rw [hmap] at h1
      refine ⟨fn, by rw [hB]; exact h1, ?_⟩
      cases h3
      rw [h2, hlen]
    · have h1 := (hC none).1 (List.eq_nil_of_length_eq_zero (by rw [hlen]))
      rw [hmap] at h1
      rw [hB]; exact h1
  · intro b h0
    unfold requestCount at h0
    obtain ⟨x, hxm⟩ := List.exists_mem_of_length_pos (Nat.pos_of_ne_zero h0)
    obtain ⟨-, -, -, h1, h2, h3, h4, h5⟩ := (by simpa using hxm : _ ∧ x.1 = p ∧ x.2.event = name ∧ _ ∧ _ ∧ InInterval u b (nanosOf x.2.time)) 
    rw [(C66_columns u f t).2.1]
    obtain ⟨g1, g2, g3⟩ := C66_trunc u f
    obtain ⟨k, hk⟩ := whole_ms g1
    obtain ⟨k', hk'⟩ := whole_ms h3
    exact ⟨h3, h5 _ g1 (by omega), by omega⟩

/-! ### An example -/

/-- The application before the acts. -/
def exApp : App := ⟨{ exWorld with kv := runReqs exSysEnv exSetup [] }, false, false⟩

/-- The history before the acts and the acts meet the hypotheses, three requests are accepted, and the event is found. -/
example : Hist exSysEnv 2 exApp.world.kv ∧ 2 + (exActs.map (Act.cost 0)).sum < 2 ^ 62 ∧ (∀ n, '/' ∉ exSysEnv.sys n) ∧ UtmNotEvent exSysEnv.sys ∧ (∀ x ∈ exActs, x.Fits exSysEnv 0) ∧ (∀ x ∈ exActs, x.SparesEvents 1) ∧ exApp.world.rows = [] ∧
    (exApp.accepted exSysEnv exActs).map (fun x => (x.1, x.2.event, nanosOf x.2.time)) =
      [(1, "Buy".toList, 5000000000), (1, "Buy".toList, 5000000000), (1, "Buy".toList, 5000000000)] ∧
    (∃ ev, (eventsC 1).getBy .name "Buy".toList (exApp.acts exSysEnv exActs).world.kv = .ok ev) := by
  refine ⟨exSetup_hist _, by decide, exSlash, ?_, ?_, ?_, rfl, by decide +kernel, ?_⟩
  · unfold UtmNotEvent; decide +kernel
  · intro x hx
    simp only [exActs, List.mem_cons, List.not_mem_nil, or_false] at hx
    rcases hx with rfl | rfl | rfl | rfl
    · exact ⟨rfl, exBounded⟩
    · exact ⟨rfl, exBounded⟩
    · exact ⟨by decide, by decide, by decide⟩
    · exact ⟨rfl, exBounded⟩
  · intro x hx
    simp only [exActs, List.mem_cons, List.not_mem_nil, or_false] at hx
    rcases hx with rfl | rfl | rfl | rfl <;> trivial
  · have : ((eventsC 1).getBy .name "Buy".toList (exApp.acts exSysEnv exActs).world.kv).toOption.isSome := by decide +kernel
    cases h : (eventsC 1).getBy .name "Buy".toList (exApp.acts exSysEnv exActs).world.kv with
    | error e => rw [h] at this; cases this
    | ok ev => exact ⟨ev, rfl⟩

/-- One worker reading the stored rows of this history counts the three requests on the day they were sent, as does
`requestCount`. -/
example : countEval none false (fun _ => none)
    [planned exSem .day "group_0".toList (.and (.and (projectExpr 1) (.and (.bin .gte kCreatedCol (some (.ts 0))) (.bin .lte kCreatedCol (some (.ts 10000)))))
      (.bin .eq kEventCol (some (.int 2)))) (((exApp.acts exSysEnv exActs).world.rows.filter fun x => x.1 = "events".toList).map Prod.snd)] (some 0) = some 3 := by
  decide +kernel

end OptiPrism.Query
