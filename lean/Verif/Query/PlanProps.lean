import Verif.Query.Plan
import Verif.Query.FilterProps
import Verif.Query.SegmentProps

/-!
# C117, C118: queries read the rows of their project, and those asked for
-/

namespace OptiPrism.Query
open OptiPrism.Meta (Str EventRef)

variable {F : Type}

/-! ### Spec -/

/-- The row belongs to the project. -/
def Owned (p : Nat) (row : QRow) : Prop := row "project_id".toList = some (.int (p : Int))

/-- The moment of the row is in the range, both in units of the column. -/
def During (u : TsUnit) (f t : Int) (row : QRow) : Prop :=
  ∃ v, row "created_at".toList = some (.ts v) ∧ f / u.len ≤ v ∧ v ≤ t / u.len

/-- The row passes all filters, if there are any. -/
def PassesAll (md : Md F) (S : Sem) (row : QRow) (fs : Option (List F)) : Prop :=
  ∀ l, fs = some l → ∀ f ∈ l, ∃ x, md.filter f = .ok x ∧ Selects S row x

/-- The row is of one of the events, and passes its filters. -/
def OneOf (md : Md F) (S : Sem) (row : QRow) (evs : List (EventReq F)) : Prop :=
  ∃ ev ∈ evs, Matches md S row ev.event ∧ PassesAll md S row ev.filters

/-! ### helpers -/

theorem kProjectCol_eq : kProjectCol = "project_id".toList := by decide +kernel
theorem kCreatedCol_eq : kCreatedCol = "created_at".toList := by decide +kernel

theorem toInt_ofNat {p : Nat} (h : p < 2 ^ 63) : (BitVec.ofNat 64 p).toInt = (p : Int) := by
  rw [BitVec.toInt_eq_toNat_of_lt] <;> rw [BitVec.toNat_ofNat] <;> omega

theorem project_selects {S : Sem} {row : QRow} {p : Nat} (hp : p < 2 ^ 63) : Selects S row (projectExpr p) ↔ Owned p row := by
  unfold projectExpr Owned
  rw [bin_eq_selects, toInt_ofNat hp, kProjectCol_eq]

theorem and_selects {S : Sem} {row : QRow} {a b : Expr} : Selects S row (.and a b) ↔ Selects S row a ∧ Selects S row b := triAnd_true

theorem withFilters_selects {md : Md F} {S : Sem} {row : QRow} {e0 : Except QErr Expr} {fs : Option (List F)} {e : Expr}
    (h : withFilters md e0 fs = .ok e) : ∃ x, e0 = .ok x ∧ (Selects S row e ↔ Selects S row x ∧ PassesAll md S row fs) := by
  unfold withFilters at h
  cases e0 with
  | error x => cases h
  | ok x =>
    refine ⟨x, rfl, ?_⟩
    cases fs with
    | none => cases h; simp [PassesAll]
    | some fs =>
      dsimp only at h
      cases hf : eventFiltersExpression md fs with
      | error y => rw [hf] at h; cases h
      | ok y =>
        rw [hf] at h
        cases h
        rw [and_selects, C49_filters md S row fs y hf]
        unfold PassesAll
        simp

/-- What a time expression selects. -/
theorem range_selects (S : Sem) (hS : ∀ a b, S.lt (.ts a) (.ts b) = decide (a < b)) (u : TsUnit) (q : QueryTime) (cur : Int)
    (hq : ∀ n, (q = .last n .month → -2147483648 ≤ n ∧ n < 2147483648) ∧ (q = .last n .year → -178956970 ≤ n ∧ n ≤ 178956970)) :
    ∃ e f t, timeExpression kCreatedCol u q cur = .ok e ∧ Denotes q cur f t ∧
      ∀ row, (∀ c, row "created_at".toList = some c → ∃ v, c = .ts v) → (Selects S row e ↔ During u f t row) := by
  obtain ⟨e, f, t, h1, h2, h3⟩ := C50_partial S hS u q cur kCreatedCol hq
  refine ⟨e, f, t, h1, h2, fun row hrow => ?_⟩
  have h4 := h3 row
  rw [kCreatedCol_eq] at h4
  unfold During
  cases hc : row "created_at".toList with
  | none =>
    have := h4.2 hc
    simp [this]
  | some c =>
    obtain ⟨v, rfl⟩ := hrow c hc
    rw [(h4.1 v hc).1]
    constructor
    · intro ⟨a, b⟩
      refine ⟨v, rfl, ?_⟩
      cases u <;> simp only [TsUnit.len] at a b ⊢ <;> constructor <;> omega
    · rintro ⟨v', e1, a, b⟩
      cases e1
      cases u <;> simp only [TsUnit.len] at a b ⊢ <;> constructor <;> omega

/-- One of the events, as an `or`. -/
theorem events_select {md : Md F} {S : Sem} {row : QRow} {fuel : Nat} {evs : List (EventReq F)} {es : List Expr} {e : Expr}
    (hn : ∀ ev ∈ evs, Narrow md ev.event)
    (h : collect (fun ev => withFilters md (eventExpression md fuel ev.event) ev.filters) evs = .ok es) (hm : multiOr es = .ok e) :
    Selects S row e ↔ OneOf md S row evs := by
  rw [multiOr_selects hm, collect_mem h (Selects S row)]
  unfold OneOf
  constructor
  · rintro ⟨ev, hev, x, hx, hs⟩
    obtain ⟨y, hy, hs'⟩ := withFilters_selects (S := S) (row := row) hx
    rw [hs'] at hs
    exact ⟨ev, hev, (C80_partial md S row fuel ev.event (hn ev hev) y hy).mp hs.1, hs.2⟩
  · rintro ⟨ev, hev, h1, h2⟩
    have : ∃ x, withFilters md (eventExpression md fuel ev.event) ev.filters = .ok x := by
      clear hn hm
      induction evs generalizing es with
      | nil => cases hev
      | cons a evs ih =>
        unfold collect at h
        cases hf : withFilters md (eventExpression md fuel a.event) a.filters with
        | error x => rw [hf] at h; cases h
        | ok b =>
          rw [hf] at h
          dsimp only at h
          cases hc : collect (fun ev : EventReq F => withFilters md (eventExpression md fuel ev.event) ev.filters) evs with
          | error x => rw [hc] at h; cases h
          | ok bs =>
            rcases List.mem_cons.mp hev with rfl | hev
            · exact ⟨b, hf⟩
            · exact ih hc hev
    obtain ⟨x, hx⟩ := this
    obtain ⟨y, hy, hs'⟩ := withFilters_selects (S := S) (row := row) hx
    exact ⟨ev, hev, x, hx, hs'.mpr ⟨(C80_partial md S row fuel ev.event (hn ev hev) y hy).mpr h1, h2⟩⟩

/-! ### C117 -/

/-- **C117 (part).** A row kept by the filter of a segmentation query, a search for events or groups, a look-up by
identifier or a list of property values belongs to the project of the query. Missing: funnels and the segments of
queries, see below. -/
theorem C117_partial (md : Md F) (S : Sem) (row : QRow) (fuel : Nat) (u : TsUnit) {p : Nat} (hp : p < 2 ^ 63) (cur : Int) (e : Expr) :
    (∀ q ev fs, segmentationFilter md fuel u p q cur ev fs = .ok e → Selects S row e → Owned p row) ∧
    (∀ fix q evs fs, searchEvents md fix fuel u p q cur evs fs = .ok e → Selects S row e → Owned p row) ∧
    (∀ id, eventByIdFilter p id = .ok e → Selects S row e → Owned p row) ∧
    (∀ q fs, groupsSearchFilter md u p q cur fs = .ok e → Selects S row e → Owned p row) ∧
    (∀ key, groupByIdFilter p key = .ok e → Selects S row e → Owned p row) ∧
    (∀ ev, valuesFilter md fuel p ev = .ok e → Selects S row e → Owned p row) := by
  have hev : ∀ q evs fs, eventsSearchFilter md fuel u p q cur evs fs = .ok e → Selects S row e → Owned p row := by
    intro q evs fs h hs
    unfold eventsSearchFilter at h
    cases ht : timeExpression kCreatedCol u q cur with
    | error x => rw [ht] at h; cases h
    | ok te =>
      rw [ht] at h
      dsimp only at h
      match evs, h with
      | none, h =>
        rw [multiAnd_selects h] at hs
        exact (project_selects hp).mp (hs _ (by simp))
      | some [], h =>
        rw [multiAnd_selects h] at hs
        exact (project_selects hp).mp (hs _ (by simp))
      | some (a :: l), h =>
        dsimp only at h
        cases hc : collect (fun ev : EventReq F => withFilters md (eventExpression md fuel ev.event) (nonEmpty ev.filters)) (a :: l) with
        | error x => rw [hc] at h; cases h
        | ok es =>
          rw [hc] at h
          dsimp only at h
          cases hm : multiOr es with
          | error x => rw [hm] at h; cases h
          | ok y =>
            rw [hm] at h
            rw [multiAnd_selects h] at hs
            exact (project_selects hp).mp (hs _ (by simp))
  refine ⟨?_, ?_, ?_, ?_, ?_, ?_⟩
  · intro q ev fs h hs
    unfold segmentationFilter at h
    cases ht : timeExpression kCreatedCol u q cur with
    | error x => rw [ht] at h; cases h
    | ok te =>
      rw [ht] at h
      dsimp only at h
      cases he : eventExpression md fuel ev.event with
      | error x => rw [he] at h; cases h
      | ok ee =>
        rw [he] at h
        obtain ⟨x, h1, h2⟩ := withFilters_selects (S := S) (row := row) h
        obtain ⟨y, h3, h4⟩ := withFilters_selects (S := S) (row := row) h1
        cases h3
        rw [h2, h4, and_selects, and_selects] at hs
        exact (project_selects hp).mp hs.1.1.1.1
  · intro fix q evs fs h hs
    unfold searchEvents at h
    cases evs with
    | none => exact hev _ _ _ h hs
    | some evs =>
      dsimp only at h
      cases hf : fixEvents fix evs with
      | error x => rw [hf] at h; cases h
      | ok l => rw [hf] at h; exact hev _ _ _ h hs
  · intro id h hs
    rw [multiAnd_selects h] at hs
    exact (project_selects hp).mp (hs _ (by simp))
  · intro q fs h hs
    unfold groupsSearchFilter at h
    dsimp only at h
    split at h
    · cases h
    · rename_i es hes
      cases fs with
      | none =>
        rw [multiAnd_selects h] at hs
        refine (project_selects hp).mp (hs _ ?_)
        cases q with
        | none => cases hes; simp
        | some q =>
          dsimp only at hes
          split at hes
          · cases hes
          · cases hes; simp
      | some fs =>
        dsimp only at h
        split at h
        · cases h
        · rw [multiAnd_selects h] at hs
          have := hs _ (List.mem_singleton.mpr rfl)
          exact (project_selects hp).mp (and_selects.mp this).1
  · intro key h hs
    rw [multiAnd_selects h] at hs
    exact (project_selects hp).mp (hs _ (by simp))
  · intro ev h hs
    unfold valuesFilter at h
    cases ev with
    | none => cases h; exact (project_selects hp).mp hs
    | some ev =>
      dsimp only at h
      split at h
      · cases h
      · cases h; exact (project_selects hp).mp (and_selects.mp hs).1

/-- A row of a project, of an event, at a moment, of a user. -/
def exStored (p ev ts user : Int) : QRow := fun c =>
  if c = "project_id".toList then some (.int p) else if c = "event".toList then some (.int ev)
  else if c = "created_at".toList then some (.ts ts) else if c = "group_0".toList then some (.int user) else none

/-- Metadata where every project knows one event, with the number 7, and one more. -/
def exPlanMd : Md Expr where
  event := fun n => if n = "buy".toList then .ok 7 else if n = "view".toList then .ok 8 else .error .notFound
  custom := fun _ => .error .notFound
  filter := .ok

/-- The hypotheses of `C117_partial` are met by each of the queries. -/
example : ∃ e, segmentationFilter exPlanMd 1 .ms 1 (.between 0 1000000000) 0 ⟨.regularName "buy".toList, some [.isNotNull "group_0".toList]⟩ none = .ok e ∧
    Selects exSem (exStored 1 7 1000 5) e ∧ ¬ Selects exSem (exStored 2 7 1000 5) e :=
  ⟨_, rfl, by unfold Selects; decide +kernel, by unfold Selects; decide +kernel⟩

/-- **C117 is violated by funnels**: the filter of a funnel and the one of its step let rows of any project through, as
long as the moment and the number of the event fit. -/
theorem C117_funnel_violated : ∃ e s, funnelFilter exPlanMd .ms (.between 0 1000000000) 0 none = .ok e ∧
    funnelStep exPlanMd 1 [⟨.regularName "buy".toList, none⟩] = .ok s ∧
    ∀ p : Nat, Selects exSem (exStored p 7 1000 5) e ∧ Selects exSem (exStored p 7 1000 5) s ∧ Owned p (exStored p 7 1000 5) := by
  refine ⟨_, _, rfl, rfl, fun p => ⟨?_, ?_, ?_⟩⟩
  · have : exStored p 7 1000 5 kCreatedCol = some (.ts 1000) := by
      rw [kCreatedCol_eq]
      simp [exStored]
    exact (time_selects (S := exSem) (f := 0) (t := 1000) (by intros; rfl) this).mpr (by decide)
  · have e1 : kEventCol = "event".toList := by decide +kernel
    rw [bin_eq_selects, e1]
    show _ = some (Cell.int (BitVec.ofNat 64 7).toInt)
    unfold exStored
    rw [if_neg (by decide), if_pos rfl]
    rfl
  · simp [Owned, exStored]

/-! Segments of a query. -/

/-- The filter of the condition "did an event" (event_segmentation.rs:493-501). -/
def didEventFilter (md : Md F) (fuel : Nat) (ev : EventReq F) : Except QErr Expr :=
  withFilters md (eventExpression md fuel ev.event) ev.filters

/-- A row as seen by the condition. The input of a segment is the table as read, before the filter of the query
(event_segmentation.rs:260-295). -/
def segmentRow (S : Sem) (groupCol : Str) (cond : Expr) (row : QRow) : SRow where
  user := match row groupCol with
    | some (.int v) => some v
    | _ => none
  ts := match row kCreatedCol with
    | some (.ts v) => v
    | _ => 0
  pass := eval S row cond

/-- **C117 is violated by segments**: a user of the first project with one event, and a user of the second project with
the same number and another event, make a user who did the event twice. -/
theorem C117_segments_violated : ∃ e, didEventFilter exPlanMd 1 ⟨.regularName "buy".toList, none⟩ = .ok e ∧
    segCount .gtEq 2 .none [[exStored 1 7 1000 5, exStored 2 7 2000 5].map (segmentRow exSem "group_0".toList e)] = some [some 5] ∧
    segCount .gtEq 2 .none [[exStored 1 7 1000 5].map (segmentRow exSem "group_0".toList e)] = some [none] :=
  ⟨_, rfl, by decide +kernel, by decide +kernel⟩

/-! ### C118 -/

/-- **C118 (segmentation).** A segmentation query keeps exactly the rows of its project which are in its range of time
(in units of the column), of its event, and pass the filters of the event and of the query. -/
theorem C118_segmentation (md : Md F) (S : Sem) (hS : ∀ a b, S.lt (.ts a) (.ts b) = decide (a < b)) (fuel : Nat) (u : TsUnit)
    {p : Nat} (hp : p < 2 ^ 63) (q : QueryTime) (cur : Int)
    (hq : ∀ n, (q = .last n .month → -2147483648 ≤ n ∧ n < 2147483648) ∧ (q = .last n .year → -178956970 ≤ n ∧ n ≤ 178956970))
    (ev : EventReq F) (hn : Narrow md ev.event) (fs : Option (List F)) (e : Expr)
    (h : segmentationFilter md fuel u p q cur ev fs = .ok e) :
    ∃ f t, Denotes q cur f t ∧ ∀ row, (∀ c, row "created_at".toList = some c → ∃ v, c = .ts v) →
      (Selects S row e ↔ Owned p row ∧ During u f t row ∧ OneOf md S row [ev] ∧ PassesAll md S row fs) := by
  obtain ⟨te, f, t, h1, h2, h3⟩ := range_selects S hS u q cur hq
  refine ⟨f, t, h2, fun row hrow => ?_⟩
  unfold segmentationFilter at h
  rw [h1] at h
  dsimp only at h
  cases he : eventExpression md fuel ev.event with
  | error x => rw [he] at h; cases h
  | ok ee =>
    rw [he] at h
    obtain ⟨x, h4, h5⟩ := withFilters_selects (S := S) (row := row) h
    obtain ⟨y, h6, h7⟩ := withFilters_selects (S := S) (row := row) h4
    cases h6
    rw [h5, h7, and_selects, and_selects, project_selects hp, h3 row hrow, C80_partial md S row fuel ev.event hn ee he]
    unfold OneOf
    simp only [List.mem_singleton, exists_eq_left, and_assoc]

/-- **C118 (funnel steps).** A step of a funnel keeps exactly the rows of one of its events which pass the filters of the event. -/
theorem C118_step (md : Md F) (S : Sem) (row : QRow) (fuel : Nat) (evs : List (EventReq F)) (hn : ∀ ev ∈ evs, Narrow md ev.event) (e : Expr)
    (h : funnelStep md fuel evs = .ok e) : Selects S row e ↔ OneOf md S row evs := by
  unfold funnelStep at h
  split at h
  · cases h
  · rename_i es hes
    exact events_select hn hes h

/-- **C118 (funnels, part).** Besides its steps a funnel keeps exactly the rows in its range of time which pass its filters. Missing:
rows of other projects are kept as well (`C117_funnel_violated`). -/
theorem C118_funnel_partial (md : Md F) (S : Sem) (hS : ∀ a b, S.lt (.ts a) (.ts b) = decide (a < b)) (u : TsUnit) (q : QueryTime) (cur : Int)
    (hq : ∀ n, (q = .last n .month → -2147483648 ≤ n ∧ n < 2147483648) ∧ (q = .last n .year → -178956970 ≤ n ∧ n ≤ 178956970))
    (fs : Option (List F)) (e : Expr) (h : funnelFilter md u q cur fs = .ok e) :
    ∃ f t, Denotes q cur f t ∧ ∀ row, (∀ c, row "created_at".toList = some c → ∃ v, c = .ts v) →
      (Selects S row e ↔ During u f t row ∧ PassesAll md S row fs) := by
  obtain ⟨te, f, t, h1, h2, h3⟩ := range_selects S hS u q cur hq
  refine ⟨f, t, h2, fun row hrow => ?_⟩
  unfold funnelFilter at h
  rw [h1] at h
  obtain ⟨x, h4, h5⟩ := withFilters_selects (S := S) (row := row) h
  cases h4
  rw [h5, h3 row hrow]

example : ∃ e, funnelFilter exPlanMd .ms (.between 0 1000000000) 0 (some [.isNotNull "group_0".toList]) = .ok e ∧
    Selects exSem (exStored 1 7 1000 5) e ∧ ¬ Selects exSem (exStored 1 7 1001 5) e :=
  ⟨_, rfl, by unfold Selects; decide +kernel, by unfold Selects; decide +kernel⟩

theorem nonEmpty_passes (md : Md F) (S : Sem) (row : QRow) (fs : Option (List F)) : PassesAll md S row (nonEmpty fs) ↔ PassesAll md S row fs := by
  unfold nonEmpty PassesAll
  split
  · simp
  · rfl

theorem collect_pass {md : Md F} {S : Sem} {row : QRow} {fix : F → Except QErr F} (hfix : ∀ f f', fix f = .ok f' → md.filter f' = md.filter f)
    {l l' : List F} (h : collect fix l = .ok l') : PassesAll md S row (some l') ↔ PassesAll md S row (some l) := by
  induction l generalizing l' with
  | nil => cases h; rfl
  | cons a l ih =>
    unfold collect at h
    cases hf : fix a with
    | error x => rw [hf] at h; cases h
    | ok b =>
      rw [hf] at h
      dsimp only at h
      cases hc : collect fix l with
      | error x => rw [hc] at h; cases h
      | ok bs =>
        rw [hc] at h
        cases h
        have := ih hc
        unfold PassesAll at this ⊢
        simp only [Option.some.injEq, forall_eq', List.mem_cons, forall_eq_or_imp] at this ⊢
        rw [hfix a b hf, this]

theorem fixEvents_spec {md : Md F} {S : Sem} {row : QRow} {fix : F → Except QErr F} (hfix : ∀ f f', fix f = .ok f' → md.filter f' = md.filter f)
    {evs evs' : List (EventReq F)} (h : fixEvents fix evs = .ok evs') (hall : ∀ ev ∈ evs, ev.filters ≠ none) :
    (OneOf md S row evs' ↔ OneOf md S row evs) ∧ (∀ ev ∈ evs', ∃ a ∈ evs, ev.event = a.event) ∧ (evs' = [] → evs = []) := by
  induction evs generalizing evs' with
  | nil => cases h; exact ⟨Iff.rfl, by simp, fun _ => rfl⟩
  | cons a evs ih =>
    unfold fixEvents at h
    cases hf : a.filters with
    | none => exact absurd hf (hall a (by simp))
    | some fs =>
      rw [hf] at h
      dsimp only at h
      cases hc : collect fix fs with
      | error x => rw [hc] at h; cases h
      | ok fs' =>
        rw [hc] at h
        dsimp only at h
        cases hr : fixEvents fix evs with
        | error x => rw [hr] at h; cases h
        | ok l =>
          rw [hr] at h
          cases h
          obtain ⟨i1, i2, i3⟩ := ih hr (fun ev he => hall ev (List.mem_cons_of_mem _ he))
          refine ⟨?_, ?_, by simp⟩
          · unfold OneOf at i1 ⊢
            simp only [List.mem_cons, exists_eq_or_imp]
            rw [i1]
            have h1 : PassesAll md S row (if fs'.isEmpty then none else some fs') ↔ PassesAll md S row (some fs') := by
              cases fs' with
              | nil => simp [PassesAll]
              | cons b bs => simp
            rw [h1, collect_pass hfix hc, ← hf]
          · intro ev hev
            rcases List.mem_cons.mp hev with rfl | hev
            · exact ⟨a, by simp, rfl⟩
            · obtain ⟨b, hb, e⟩ := i2 ev hev
              exact ⟨b, List.mem_cons_of_mem _ hb, e⟩

/-- **C118 (search for events, part).** Where every event of the request comes with a list of filters (if empty), and the request
has no filters of its own, the search keeps exactly the rows of the project in its range of time which are of one of its
events (of any event if none are given). Missing: events without filters, which are left out of the request, and the filters
of the request, which are ignored. -/
theorem C118_events_partial (md : Md F) (S : Sem) (hS : ∀ a b, S.lt (.ts a) (.ts b) = decide (a < b)) (fix : F → Except QErr F)
    (hfix : ∀ f f', fix f = .ok f' → md.filter f' = md.filter f) (fuel : Nat) (u : TsUnit) {p : Nat} (hp : p < 2 ^ 63) (q : QueryTime) (cur : Int)
    (hq : ∀ n, (q = .last n .month → -2147483648 ≤ n ∧ n < 2147483648) ∧ (q = .last n .year → -178956970 ≤ n ∧ n ≤ 178956970))
    (evs : Option (List (EventReq F))) (hn : ∀ l, evs = some l → l ≠ [] ∧ ∀ ev ∈ l, Narrow md ev.event ∧ ev.filters ≠ none) (e : Expr)
    (h : searchEvents md fix fuel u p q cur evs none = .ok e) :
    ∃ f t, Denotes q cur f t ∧ ∀ row, (∀ c, row "created_at".toList = some c → ∃ v, c = .ts v) →
      (Selects S row e ↔ Owned p row ∧ During u f t row ∧ ∀ l, evs = some l → OneOf md S row l) := by
  obtain ⟨te, f, t, h1, h2, h3⟩ := range_selects S hS u q cur hq
  refine ⟨f, t, h2, fun row hrow => ?_⟩
  unfold searchEvents at h
  cases evs with
  | none =>
    dsimp only at h
    unfold eventsSearchFilter at h
    rw [h1] at h
    rw [multiAnd_selects h]
    simp [project_selects hp, h3 row hrow]
  | some evs =>
    obtain ⟨hne, hn⟩ := hn evs rfl
    dsimp only at h
    cases hf : fixEvents fix evs with
    | error x => rw [hf] at h; cases h
    | ok l =>
      rw [hf] at h
      obtain ⟨i1, i2, i3⟩ := fixEvents_spec (S := S) (row := row) hfix hf (fun ev he => (hn ev he).2)
      dsimp only at h
      unfold eventsSearchFilter at h
      rw [h1] at h
      dsimp only at h
      match l, hf, i1, i2, i3, h with
      | [], hf, i1, i2, i3, h => exact absurd (i3 rfl) hne
      | a :: l, hf, i1, i2, i3, h =>
        dsimp only at h
        cases hc : collect (fun ev : EventReq F => withFilters md (eventExpression md fuel ev.event) (nonEmpty ev.filters)) (a :: l) with
        | error x => rw [hc] at h; cases h
        | ok es =>
          rw [hc] at h
          dsimp only at h
          cases hm : multiOr es with
          | error x => rw [hm] at h; cases h
          | ok y =>
            rw [hm] at h
            rw [multiAnd_selects h]
            have hc' : collect (fun ev : EventReq F => withFilters md (eventExpression md fuel ev.event) ev.filters) ((a :: l).map fun ev => ⟨ev.event, nonEmpty ev.filters⟩) = .ok es := by
              have : ∀ (l : List (EventReq F)), collect (fun ev : EventReq F => withFilters md (eventExpression md fuel ev.event) ev.filters) (l.map fun ev => ⟨ev.event, nonEmpty ev.filters⟩) =
                  collect (fun ev : EventReq F => withFilters md (eventExpression md fuel ev.event) (nonEmpty ev.filters)) l := by
                intro l
                induction l with
                | nil => rfl
                | cons a l ih => simp only [List.map_cons, collect, ih]
              rw [this]; exact hc
            have hs := events_select (S := S) (row := row) (fun ev hev => by
              obtain ⟨b, hb, rfl⟩ := List.mem_map.mp hev
              obtain ⟨c, hc, e⟩ := i2 b hb
              show Narrow md b.event
              rw [e]; exact (hn c hc).1) hc' hm
            have hs' : OneOf md S row ((a :: l).map fun ev => ⟨ev.event, nonEmpty ev.filters⟩) ↔ OneOf md S row (a :: l) := by
              unfold OneOf
              constructor
              · rintro ⟨ev, hev, h5, h6⟩
                obtain ⟨b, hb, rfl⟩ := List.mem_map.mp hev
                exact ⟨b, hb, h5, (nonEmpty_passes md S row _).mp h6⟩
              · rintro ⟨b, hb, h5, h6⟩
                exact ⟨_, List.mem_map.mpr ⟨b, hb, rfl⟩, h5, (nonEmpty_passes md S row _).mpr h6⟩
            simp only [List.mem_cons, List.not_mem_nil, or_false, forall_eq_or_imp, forall_eq, project_selects hp, h3 row hrow, hs, hs', i1, Option.some.injEq, forall_eq']

example : ∃ e, searchEvents exPlanMd .ok 1 .ms 1 (.between 0 1000000000) 0 (some [⟨.regularName "buy".toList, some []⟩]) none = .ok e ∧
    Selects exSem (exStored 1 7 1000 5) e ∧ ¬ Selects exSem (exStored 1 8 1000 5) e :=
  ⟨_, rfl, by unfold Selects; decide +kernel, by unfold Selects; decide +kernel⟩

/-- **C118 is violated by searches for events**: without filters, an event is left out of the request, and the rows of another
event are found. -/
theorem C118_events_violated : ∃ e, searchEvents exPlanMd .ok 1 .ms 1 (.between 0 1000000000) 0 (some [⟨.regularName "buy".toList, none⟩]) none = .ok e ∧
    Selects exSem (exStored 1 8 1000 5) e ∧ ¬ OneOf exPlanMd exSem (exStored 1 8 1000 5) [⟨.regularName "buy".toList, none⟩] := by
  refine ⟨_, rfl, by unfold Selects; decide +kernel, ?_⟩
  rintro ⟨ev, hev, hm, -⟩
  cases List.mem_singleton.mp hev
  cases hm with
  | name h hr =>
    have e1 : kEventCol = "event".toList := by decide +kernel
    have : (exPlanMd.event "buy".toList) = .ok 7 := rfl
    rw [this] at h
    cases h
    rw [e1] at hr
    have : exStored 1 8 1000 5 "event".toList = some (.int 8) := by decide
    rw [this] at hr
    cases hr

/-- ... and the filters of a search for events are not looked at: the result does not depend on them. -/
theorem C118_filters_violated (md : Md F) (fix : F → Except QErr F) (fuel : Nat) (u : TsUnit) (p : Nat) (q : QueryTime) (cur : Int)
    (evs : Option (List (EventReq F))) (fs fs' : Option (List F)) :
    searchEvents md fix fuel u p q cur evs fs = searchEvents md fix fuel u p q cur evs fs' ∧
    ∃ e, searchEvents exPlanMd .ok 1 .ms 1 (.between 0 1000000000) 0 none (some [.isNull "group_0".toList]) = .ok e ∧
      Selects exSem (exStored 1 8 1000 5) e ∧ ¬ PassesAll exPlanMd exSem (exStored 1 8 1000 5) (some [.isNull "group_0".toList]) := by
  refine ⟨rfl, _, rfl, by unfold Selects; decide +kernel, fun h => ?_⟩
  obtain ⟨x, h1, h2⟩ := h _ rfl _ (List.mem_singleton.mpr rfl)
  cases h1
  revert h2
  unfold Selects
  decide +kernel

/-- **C118 (search for groups, part).** With a range of time or with filters, but not with both, a search for groups keeps exactly
the rows of the project in the range of time which pass the filters. Missing: both, see below. -/
theorem C118_groups_partial (md : Md F) (S : Sem) (hS : ∀ a b, S.lt (.ts a) (.ts b) = decide (a < b)) (u : TsUnit) {p : Nat} (hp : p < 2 ^ 63) (cur : Int) (e : Expr) :
    (∀ q, (∀ n, (q = .last n .month → -2147483648 ≤ n ∧ n < 2147483648) ∧ (q = .last n .year → -178956970 ≤ n ∧ n ≤ 178956970)) →
      groupsSearchFilter md u p (some q) cur none = .ok e →
      ∃ f t, Denotes q cur f t ∧ ∀ row, (∀ c, row "created_at".toList = some c → ∃ v, c = .ts v) → (Selects S row e ↔ Owned p row ∧ During u f t row)) ∧
    (∀ fs, groupsSearchFilter md u p none cur fs = .ok e → ∀ row, Selects S row e ↔ Owned p row ∧ PassesAll md S row fs) := by
  constructor
  · intro q hq h
    obtain ⟨te, f, t, h1, h2, h3⟩ := range_selects S hS u q cur hq
    refine ⟨f, t, h2, fun row hrow => ?_⟩
    unfold groupsSearchFilter at h
    dsimp only at h
    rw [h1] at h
    rw [multiAnd_selects h]
    simp [project_selects hp, h3 row hrow]
  · intro fs h row
    unfold groupsSearchFilter at h
    cases fs with
    | none =>
      rw [multiAnd_selects h]
      simp [project_selects hp, PassesAll]
    | some fs =>
      dsimp only at h
      cases hf : eventFiltersExpression md fs with
      | error x => rw [hf] at h; cases h
      | ok x =>
        rw [hf] at h
        rw [multiAnd_selects h]
        simp only [List.mem_singleton, forall_eq, and_selects, project_selects hp, C49_filters md S row fs x hf]
        unfold PassesAll
        simp

example : ∃ e, groupsSearchFilter exPlanMd .ms 1 (some (.between 0 1000000000)) 0 none = .ok e ∧
    Selects exSem (exStored 1 7 1000 5) e ∧ ¬ Selects exSem (exStored 1 7 1001 5) e :=
  ⟨_, rfl, by unfold Selects; decide +kernel, by unfold Selects; decide +kernel⟩

/-- **C118 is violated by searches for groups**: with filters the range of time is dropped. -/
theorem C118_groups_violated : ∃ e, groupsSearchFilter exPlanMd .ms 1 (some (.between 0 1000000000)) 0 (some [.isNotNull "group_0".toList]) = .ok e ∧
    Selects exSem (exStored 1 7 1001 5) e ∧ ¬ During .ms 0 1000000000 (exStored 1 7 1001 5) := by
  refine ⟨_, rfl, by unfold Selects; decide +kernel, ?_⟩
  rintro ⟨v, h, -, h2⟩
  have : exStored 1 7 1001 5 "created_at".toList = some (.ts 1001) := by decide
  rw [this] at h
  cases h
  revert h2
  decide

/-- **C118 (by identifier).** The look-up of an event keeps exactly the rows of the project with the identifier. -/
theorem C118_by_id (S : Sem) (row : QRow) {p id : Nat} (hp : p < 2 ^ 63) (hid : id < 2 ^ 63) :
    (∃ e, eventByIdFilter p id = .ok e ∧ (Selects S row e ↔ Owned p row ∧ row "event_id".toList = some (.int (id : Int)))) ∧
    (∃ e, groupByIdFilter p id = .ok e ∧ (Selects S row e ↔ Owned p row ∧ row "id".toList = some (.int (id : Int)))) := by
  have e1 : kEventIdCol = "event_id".toList := by decide +kernel
  have e2 : kIdCol = "id".toList := by decide +kernel
  refine ⟨⟨_, rfl, ?_⟩, ⟨_, rfl, ?_⟩⟩
  · rw [multiAnd_selects (show multiAnd [projectExpr p, _] = _ from rfl)]
    simp only [List.mem_cons, List.not_mem_nil, or_false, forall_eq_or_imp, forall_eq, project_selects hp, bin_eq_selects, toInt_ofNat hid, e1]
  · rw [multiAnd_selects (show multiAnd [projectExpr p, _] = _ from rfl)]
    simp only [List.mem_cons, List.not_mem_nil, or_false, forall_eq_or_imp, forall_eq, project_selects hp, bin_eq_selects, e2]

/-- **C118 (values of a property).** The values are those of the rows of the project and, if given, of the event. -/
theorem C118_values (md : Md F) (S : Sem) (row : QRow) (fuel : Nat) {p : Nat} (hp : p < 2 ^ 63) (ev : Option EventRef)
    (hn : ∀ r, ev = some r → Narrow md r) (e : Expr) (h : valuesFilter md fuel p ev = .ok e) :
    Selects S row e ↔ Owned p row ∧ ∀ r, ev = some r → Matches md S row r := by
  unfold valuesFilter at h
  cases ev with
  | none => cases h; rw [project_selects hp]; simp
  | some r =>
    dsimp only at h
    cases he : eventExpression md fuel r with
    | error x => rw [he] at h; cases h
    | ok x =>
      rw [he] at h
      cases h
      rw [and_selects, project_selects hp, C80_partial md S row fuel r (hn r rfl) x he]
      simp

end OptiPrism.Query
