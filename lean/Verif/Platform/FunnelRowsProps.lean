import Verif.Platform.FunnelMeaning

/-!
# The rows of a funnel are those asked for (C130)
-/

namespace OptiPrism.Platform

open OptiPrism.Meta (Str PropOp PropertyRef EventRef Scalar PropFilter Kv Property PropType Event propsC eventsC kEvents dictGetKey dictGetValue)
open OptiPrism.Query
open OptiPrism.Ingest (groupCol World Life KeepsSys)

variable {N : Type} {E : ReqEnv N} {sys : Str → Str} {p : Nat} {kv : Kv} {tbl : List Str}

/-! ## What is asked for -/

/-- The row is of one of the events of the step, and its filters hold. -/
def OfStep (S : Sem) (E : ReqEnv N) (sys : Str → Str) (p : Nat) (kv : Kv) (row : QRow) (s : JStep N) : Prop :=
  ∃ e ∈ s.events, ∃ n, e.event = .regular n ∧ OfEvent p kv n row ∧ ∀ f ∈ e.filters.getD [], Holds S E sys p kv row f

/-- The row is of the event to exclude, and its filters hold. -/
def OfExclusion (S : Sem) (E : ReqEnv N) (sys : Str → Str) (p : Nat) (kv : Kv) (row : QRow) (e : JExclude N) : Prop :=
  ∃ n, e.event = .regular n ∧ OfEvent p kv n row ∧ ∀ f ∈ e.filters.getD [], Holds S E sys p kv row f

def SameOrder : JStepOrder → CStepOrder → Prop
  | .exact, o => o = .exact
  | .any a, o => o = .any a

/-- Steps are counted from 1 in requests and from 0 in plans; all of `n` steps are the first to the last. -/
def SameSteps (n : Nat) : Option JExSteps → Option (Nat × Nat) → Prop
  | none, x => x = none
  | some .all, x => ∃ b, x = some (0, b) ∧ b + 1 = n
  | some (.between f t), x => ∃ a b, x = some (a, b) ∧ a + 1 = f ∧ b + 1 = t

/-- What a plan does with a row of the project (`row'` once decoded), for the moments from `f` to `t`. -/
structure FunnelRow (S : Sem) (E : ReqEnv N) (sys : Str → Str) (p : Nat) (kv : Kv) (f t : Int) (r : JFunnel N) (c : FunnelPlan) (row row' : QRow) : Prop where
  filter : Selects S row' c.filter ↔ During .ms f t row ∧ GroupsHold S E sys p kv row r.filters
  steps : ∀ (i : Nat) (s : JStep N), r.steps[i]? = some s → ∃ x o, c.steps[i]? = some (x, o) ∧ SameOrder s.order o ∧ (Selects S row' x ↔ OfStep S E sys p kv row s)
  exclude : ∀ (i : Nat) (e : JExclude N), (r.exclude.getD [])[i]? = some e →
    ∃ x o, c.exclude[i]? = some (x, o) ∧ SameSteps r.steps.length e.steps o ∧ (Selects S row' x ↔ OfExclusion S E sys p kv row e)

/-- Events are regular ones, steps are counted from 1, and there is one group of filters, all of which are to hold. -/
structure PlainFunnel (r : JFunnel N) : Prop where
  events : ∀ s ∈ r.steps, ∀ e ∈ s.events, ∃ n, e.event = .regular n
  exclude : ∀ e ∈ r.exclude.getD [], ∃ n, e.event = .regular n
  between : ∀ e ∈ r.exclude.getD [], ∀ f t, e.steps = some (.between f t) → 0 < f ∧ 0 < t
  groups : ∀ g, r.filters = some g → ∃ x, g.groups = [x] ∧ (x.filtersOr = true → ∃ f, x.filters = [f])

theorem plain_groups {S : Sem} {row : QRow} {r : JFunnel N} (h : PlainFunnel r) :
    (∀ f ∈ firstGroup r.filters, Holds S E sys p kv row f) ↔ GroupsHold S E sys p kv row r.filters :=
  singleGroup_holds (r := { ask N [] with filters := r.filters }) h.groups

theorem exSteps_same {e : JExclude N} {st : Option CExSteps} {n : Nat} (hn : 0 < n) (h : optConv (exStepsIn E) e.steps = some st)
    (hb : ∀ f t, e.steps = some (.between f t) → 0 < f ∧ 0 < t) : SameSteps n e.steps (exRange n st) := by
  cases hs : e.steps with
  | none => rw [hs] at h; cases h; rfl
  | some s =>
    rw [hs] at h
    cases s with
    | all => cases h; exact ⟨n - 1, rfl, by omega⟩
    | between f t =>
      obtain ⟨h1, h2⟩ := hb f t hs
      obtain ⟨f, rfl⟩ : ∃ k, f = k + 1 := ⟨f - 1, by omega⟩
      obtain ⟨t, rfl⟩ : ∃ k, t = k + 1 := ⟨t - 1, by omega⟩
      cases h
      exact ⟨f, t, rfl, rfl, rfl⟩

theorem funnel_rows (S : Sem) (hS : ∀ a b, S.lt (.ts a) (.ts b) = decide (a < b)) (hd : Dictionaries p kv)
    (hid : ∀ n ev, (eventsC p).getBy .name n kv = .ok ev → ev.id < 2 ^ 63) {wrap : Bool} {fuel : Nat} {cur : Int} {r : JFunnel N} {c : FunnelPlan}
    (h : funnel E wrap sys fuel p kv tbl cur r = .ok c) (ht : TimeInRange r.time) (hc : ClearFunnel E sys p kv r) (hp : PlainFunnel r) :
    ∃ f t, Denotes (timeIn r.time) cur f t ∧ ∀ row row', decodeRow p kv c.decoded row = some row' → (∀ x, row "created_at".toList = some x → ∃ v, x = .ts v) →
      StoredIn sys p kv row (funnelFilters r) → FunnelRow S E sys p kv f t r c row row' := by
  obtain ⟨q, w⟩ := funnel_way h
  obtain ⟨pr, h1, hx⟩ := bind_ok w.plan
  obtain ⟨cols, h2, hx⟩ := bind_ok hx
  obtain ⟨ds, h3, hx⟩ := bind_ok hx
  obtain ⟨fl, h4, hx⟩ := bind_ok hx
  obtain ⟨wd, h5, hx⟩ := bind_ok hx
  obtain ⟨st, h6, hx⟩ := bind_ok hx
  obtain ⟨ex, h7, hx⟩ := bind_ok hx
  obtain ⟨cs, h8, hx⟩ := bind_ok hx
  obtain ⟨bd, h9, hx⟩ := bind_ok hx
  obtain ⟨gs, h10, hx⟩ := bind_ok hx
  obtain ⟨_, h11, hx⟩ := bind_ok hx
  obtain ⟨ns, h12, hx⟩ := bind_ok hx
  have e1 : c.filter = fl := by cases hx; rfl
  have e2 : c.steps = st := by cases hx; rfl
  have e3 : c.exclude = ex := by cases hx; rfl
  have hq : ∀ n, (q.time = .last n .month → -2147483648 ≤ n ∧ n < 2147483648) ∧ (q.time = .last n .year → -178956970 ≤ n ∧ n ≤ 178956970) := by
    rw [w.time]
    intro n
    have := ht n
    constructor
    · intro e
      apply this.1
      cases hr : r.time with
      | between a b => rw [hr] at e; cases e
      | from_ a => rw [hr] at e; cases e
      | last m u => rw [hr] at e; cases u <;> simp [timeIn, unitIn] at e; rw [e]
    · intro e
      apply this.2
      cases hr : r.time with
      | between a b => rw [hr] at e; cases e
      | from_ a => rw [hr] at e; cases e
      | last m u => rw [hr] at e; cases u <;> simp [timeIn, unitIn] at e; rw [e]
  obtain ⟨te, f, t, t1, t2, t3⟩ := range_selects S hS .ms q.time cur hq
  rw [w.time] at t2
  refine ⟨f, t, t2, fun row row' hrow hts hst => ?_⟩
  have hfix := fixed_kept w hc hrow
  -- one event with its filters
  have event : ∀ {e : JEventRef} {fs : Option (List (JFilter N))} {fs' : Option (List PropFilter)} {x : Expr} {n : Str}, e = .regular n →
      withFilters (mdOf sys p kv) (eventExpression (mdOf sys p kv) fuel (eventIn e)) fs' = .ok x →
      (∀ f ∈ fs.getD [], f ∈ funnelFilters r) →
      (∀ f ∈ fs.getD [], f ∈ stepFilters r ++ firstGroup r.filters ∨ ∀ x, PropertyAt p kv f.property x → x.isDictionary = true → ¬ Pattern f.op) →
      (∀ f ∈ fs.getD [], ∃ f' ∈ fs'.getD [], Akin E sys p kv f f') → (∀ f' ∈ fs'.getD [], ∃ f ∈ fs.getD [], Akin E sys p kv f f') →
      (Selects S row' x ↔ OfEvent p kv n row ∧ ∀ f ∈ fs.getD [], Holds S E sys p kv row f) := by
    intro e fs fs' x n hn hx ha hs j1 j2
    obtain ⟨x0, m1, m2⟩ := withFilters_selects (S := S) (row := row') hx
    rw [hn] at m1
    rw [m2, named_selects S hid (hfix _ (by simp)) m1, passes_holds S w hc hd hrow hst ha hs j1 j2 (withFilters_ok hx)]
  refine ⟨?_, fun i s hi => ?_, fun i e hi => ?_⟩
  · rw [e1]
    unfold funnelFilter at h4
    rw [t1] at h4
    obtain ⟨x0, m1, m2⟩ := withFilters_selects (S := S) (row := row') h4
    cases m1
    have hdur : During .ms f t row' ↔ During .ms f t row := by unfold During; rw [hfix _ (by simp)]
    rw [m2, t3 row' (by rw [hfix _ (by simp)]; exact hts), hdur, ← plain_groups hp]
    rw [passes_holds S w hc hd hrow hst (fs := firstGroup r.filters) (fun f hf => List.mem_append_right _ hf) (fun f hf => .inl (List.mem_append_right _ hf))
      (fun f hf => by obtain ⟨f', h1, h2⟩ := w.filters.1 f hf; exact ⟨f', h1, h2.akin⟩)
      (fun f' hf => by obtain ⟨f, h1, h2⟩ := w.filters.2 f' hf; exact ⟨f, h1, h2.akin⟩) (withFilters_ok h4)]
  · obtain ⟨s', hi', ho, hlen, hev⟩ := w.steps i s hi
    obtain ⟨y, hy, hp'⟩ := collect_get h6 hi'
    obtain ⟨x, hx1, hx2⟩ := bind_ok hp'
    cases hx2
    refine ⟨x, s'.order, by rw [e2]; exact hy, by rw [ho]; cases s.order <;> rfl, ?_⟩
    unfold funnelStep at hx1
    cases hes : collect (fun ev : EventReq PropFilter => withFilters (mdOf sys p kv) (eventExpression (mdOf sys p kv) fuel ev.event) ev.filters)
        (s'.events.map fun e => ⟨e.event, e.filters⟩) with
    | error y => rw [hes] at hx1; cases hx1
    | ok es =>
      rw [hes] at hx1
      rw [multiOr_selects hx1, collect_mem hes (Selects S row')]
      have each : ∀ (j : Nat) (e : JFEvent N), s.events[j]? = some e → ∀ e' : CFEvent, s'.events[j]? = some e' → ∀ b,
          withFilters (mdOf sys p kv) (eventExpression (mdOf sys p kv) fuel e'.event) e'.filters = .ok b → ∀ n, e.event = .regular n →
          (Selects S row' b ↔ OfEvent p kv n row ∧ ∀ f ∈ e.filters.getD [], Holds S E sys p kv row f) := by
        intro j e hj e' hj' b hb n hn
        obtain ⟨hv, e'', hj'', g1, g2, g3⟩ := hev j e hj
        rw [hj'] at hj''
        cases hj''
        rw [g1] at hb
        refine event hn hb (fun f hf => ?_) (fun f hf => .inl ?_) (fun f hf => ?_) (fun f' hf' => ?_)
        · exact List.mem_append_left _ (List.mem_append_left _ (mem_stepFilters.mpr ⟨i, s, hi, j, e, hj, hf⟩))
        · exact List.mem_append_left _ (mem_stepFilters.mpr ⟨i, s, hi, j, e, hj, hf⟩)
        · obtain ⟨f', k1, k2⟩ := g2 f hf
          exact ⟨f', k1, step_akin hc hi hj hv hf k2⟩
        · obtain ⟨f, k1, k2⟩ := g3 f' hf'
          exact ⟨f, k1, step_akin hc hi hj hv k1 k2⟩
      constructor
      · rintro ⟨a, ha, b, hb, hs⟩
        obtain ⟨e', he', rfl⟩ := List.mem_map.mp ha
        obtain ⟨j, hj⟩ := List.getElem?_of_mem he'
        have hlt : j < s'.events.length := (List.getElem?_eq_some_iff.mp hj).1
        rw [hlen] at hlt
        have hj0 := List.getElem?_eq_getElem hlt
        obtain ⟨n, hn⟩ := hp.events s (List.mem_of_getElem? hi) _ (List.getElem_mem hlt)
        exact ⟨_, List.getElem_mem hlt, n, hn, (each j _ hj0 e' hj b hb n hn).mp hs⟩
      · rintro ⟨e, he, n, hn, hs⟩
        obtain ⟨j, hj⟩ := List.getElem?_of_mem he
        obtain ⟨-, e', hj', -⟩ := hev j e hj
        have hm : (⟨e'.event, e'.filters⟩ : EventReq PropFilter) ∈ s'.events.map fun e => (⟨e.event, e.filters⟩ : EventReq PropFilter) :=
          List.mem_map.mpr ⟨e', List.mem_of_getElem? hj', rfl⟩
        obtain ⟨b, -, hb⟩ := (collect_spec hes).1 _ hm
        exact ⟨_, hm, b, hb, (each j e hj e' hj' b hb n hn).mpr hs⟩
  · obtain ⟨e', hi', g1, g2, g3, g4⟩ := w.exclude i e hi
    obtain ⟨y, hy, hp'⟩ := collect_get h7 hi'
    obtain ⟨x, hx1, hx2⟩ := bind_ok hp'
    cases hx2
    have hm := List.mem_of_getElem? hi
    obtain ⟨n, hn⟩ := hp.exclude e hm
    have hmem : ∀ f ∈ e.filters.getD [], f ∈ exclusionFilters r := fun f hf => List.mem_flatMap.mpr ⟨e, hm, hf⟩
    have hpos : 0 < q.steps.length := by
      obtain ⟨_, hv, -⟩ := bind_ok h
      obtain ⟨_, v1, hv⟩ := bind_ok hv
      obtain ⟨_, v2, hv⟩ := bind_ok hv
      obtain ⟨_, v3, hv⟩ := bind_ok hv
      rw [w.count]
      cases hs : r.steps with
      | nil => rw [hs] at v3; cases v3
      | cons a l => simp
    refine ⟨x, exRange q.steps.length e'.steps, by rw [e3]; exact hy, by rw [← w.count]; exact exSteps_same hpos g2 (hp.between e hm), ?_⟩
    rw [g1] at hx1
    have hk : ∀ f ∈ e.filters.getD [], ∀ f', filterIn E f = some f' → Akin E sys p kv f f' := fun f hf f' k =>
      akin_of (hc.exclusions f (hmem f hf)) k fun x hx n hn => hc.times f (List.mem_append_right _ (hmem f hf)) x hx n hn
    rw [event hn hx1 (fun f hf => List.mem_append_left _ (List.mem_append_right _ (hmem f hf))) (fun f hf => .inr (hc.patterns f (hmem f hf)))
      (fun f hf => by obtain ⟨f', k1, k2⟩ := g3 f hf; exact ⟨f', k1, hk f hf f' k2⟩)
      (fun f' hf' => by obtain ⟨f, k1, k2⟩ := g4 f' hf'; exact ⟨f, k1, hk f k1 f' k2⟩)]
    constructor
    · exact fun hh => ⟨n, hn, hh⟩
    · rintro ⟨n', hn', hh⟩
      rw [hn] at hn'
      cases hn'
      exact hh

/-- C130 as wanted, for regular events: of the rows of the project a plan takes those asked for, and of other rows none. -/
def C130_full (N : Type) : Prop :=
  ∀ (S : Sem), (∀ a b, S.lt (.ts a) (.ts b) = decide (a < b)) → ∀ (E : ReqEnv N) (wrap : Bool) (sys : Str → Str) (fuel p : Nat) (kv : Kv) (tbl : List Str) (cur : Int)
    (r : JFunnel N) (c : FunnelPlan), funnel E wrap sys fuel p kv tbl cur r = .ok c → (∀ s ∈ r.steps, ∀ e ∈ s.events, ∃ n, e.event = .regular n) →
    ∃ f t, Denotes (timeIn r.time) cur f t ∧ ∀ row row', decodeRow p kv c.decoded row = some row' → (∀ x, row "created_at".toList = some x → ∃ v, x = .ts v) →
      (Owned p row → StoredIn sys p kv row (funnelFilters r)) →
      (Owned p row → FunnelRow S E sys p kv f t r c row row') ∧ (¬ Owned p row → ¬ Selects S row' c.filter)

variable {Q : Type} {M : Meta.Env Q} {T : Str → Bool} {m : Nat} {w : World}

/-- C130 (partial): in every state of the system, of the rows of the project the filter of a funnel takes those of the time asked for that
pass the filters of the request; a step takes those of one of its events that pass the filters of that event; an exclusion those of its event that
pass its filters, between the steps asked for. Missing: rows of other projects (they are taken as well), several groups of filters and filters joined
by "or" (as for charts), numbers for times in steps, patterns in exclusions, filters of exclusions that do not fit the property, and custom events. -/
theorem C130_partial (S : Sem) (hS : ∀ a b, S.lt (.ts a) (.ts b) = decide (a < b)) (hk : KeepsSys M.sys) (h : Life M T m w) (hm : m < 2 ^ 61) {wrap : Bool}
    {fuel : Nat} {cur : Int} {r : JFunnel N} {c : FunnelPlan} (hc : funnel E wrap M.sys fuel p w.kv (eventCols w) cur r = .ok c) (ht : TimeInRange r.time)
    (hclear : ClearFunnel E M.sys p w.kv r) (hp : PlainFunnel r) :
    ∃ f t, Denotes (timeIn r.time) cur f t ∧ ∀ row row', decodeRow p w.kv c.decoded row = some row' → (∀ x, row "created_at".toList = some x → ∃ v, x = .ts v) →
      StoredIn M.sys p w.kv row (funnelFilters r) → FunnelRow S E M.sys p w.kv f t r c row row' :=
  funnel_rows S hS (Life.dictionaries hk h hm p) (fun _ _ hx => Life.eventIds hk h hm hx) hc ht hclear hp

/-- Excluding up to the last step is refused: steps are counted from 1, but compared with the number of steps as if from 0. -/
theorem C130_last_refused {r : JFunnel N} {e : JExclude N} (he : e ∈ r.exclude.getD []) {f t : Nat} (hs : e.steps = some (.between f t)) (ht : r.steps.length ≤ t)
    (wrap : Bool) (fuel : Nat) (cur : Int) (c : FunnelPlan) : funnel E wrap sys fuel p kv tbl cur r ≠ .ok c := by
  intro h
  obtain ⟨_, hv, _⟩ := bind_ok h
  obtain ⟨_, v1, hv⟩ := bind_ok hv
  obtain ⟨_, v2, hv⟩ := bind_ok hv
  obtain ⟨_, v3, hv⟩ := bind_ok hv
  obtain ⟨_, v4, hv⟩ := bind_ok hv
  obtain ⟨_, v5, hv⟩ := bind_ok hv
  obtain ⟨_, v6, hv⟩ := bind_ok hv
  obtain ⟨_, _, w2⟩ := bind_ok (each_ok v6 e he)
  have := require_ok w2
  rw [hs] at this
  simp only [exStepsFit, Bool.and_eq_true, decide_eq_true_eq] at this
  omega

/-! ## Cases -/

/-- What the plan of a request for the example store does with a row: filter, steps, exclusions. -/
def takes (S : Sem) (r : JFunnel Int) (row : QRow) : Option (Bool × List Bool) :=
  match funnel exReqEnv false id 1 1 demoKv demoCols 0 r with
  | .ok c => (decodeRow 1 demoKv c.decoded row).map fun row' =>
      (decide (eval S row' c.filter = some true), (c.steps.map fun x => decide (eval S row' x.1 = some true)) ++ c.exclude.map fun x => decide (eval S row' x.1 = some true))
  | .error _ => none

theorem takes_spec {S : Sem} {r : JFunnel Int} {row : QRow} {b : Bool} {bs : List Bool} (h : takes S r row = some (b, bs)) :
    ∃ c row', funnel exReqEnv false id 1 1 demoKv demoCols 0 r = .ok c ∧ decodeRow 1 demoKv c.decoded row = some row' ∧ (Selects S row' c.filter ↔ b = true) ∧
      bs = (c.steps.map fun x => decide (eval S row' x.1 = some true)) ++ c.exclude.map fun x => decide (eval S row' x.1 = some true) := by
  unfold takes at h
  cases hc : funnel exReqEnv false id 1 1 demoKv demoCols 0 r with
  | error e => rw [hc] at h; cases h
  | ok c =>
    rw [hc] at h
    dsimp only at h
    cases hd : decodeRow 1 demoKv c.decoded row with
    | none => rw [hd] at h; cases h
    | some row' =>
      rw [hd] at h
      simp only [Option.map_some, Option.some.injEq, Prod.mk.injEq] at h
      refine ⟨c, row', rfl, hd, ?_, h.2.symm⟩
      rw [← h.1, decide_eq_true_iff]
      rfl

/-- The example of C129, with the time in the filters of the request only. -/
example : takes exSem demoF (demoRow (some 1) (some 9)) = some (true, [true, true, true, false]) ∧
    takes exSem demoF (demoRow (some 1) (some 3)) = some (false, [true, true, true, false]) ∧
    takes exSem demoF (demoRow (some 2) none) = some (false, [false, false, true, true]) := by
  refine ⟨by decide +kernel, by decide +kernel, by decide +kernel⟩

theorem demoF_filters {f : JFilter Int} (hf : f ∈ funnelFilters demoF) :
    f = ⟨.event "city".toList, .eq, some [.str "Rome".toList]⟩ ∨ f = ⟨.event "when".toList, .exists, none⟩ ∨
    f = ⟨.event "city".toList, .neq, some [.str "Rome".toList]⟩ ∨ f = ⟨.event "when".toList, .gt, some [.num 5]⟩ := by
  simp only [funnelFilters, stepFilters, exclusionFilters, demoF, firstGroup, List.flatMap_cons, List.flatMap_nil, Option.getD_some, Option.getD_none, List.append_nil,
    List.nil_append, List.cons_append, List.mem_cons, List.not_mem_nil, or_false] at hf
  exact hf

/-- The hypotheses hold of it. -/
theorem demoF_clear : ClearFunnel exReqEnv id 1 demoKv demoF where
  clear := demo_clear (by
      intro f hf n hm
      rcases demoF_filters hf with rfl | rfl | rfl | rfl <;> simp at hm
      omega) (by
      intro f hf
      rcases demoF_filters hf with rfl | rfl | rfl | rfl <;> rfl) (by
      intro f hf
      rcases demoF_filters hf with rfl | rfl | rfl | rfl <;> simp [Pattern])
  times f hf x _ n hn := by
    simp only [stepFilters, exclusionFilters, demoF, List.flatMap_cons, List.flatMap_nil, Option.getD_some, Option.getD_none, List.append_nil,
      List.cons_append, List.nil_append, List.mem_cons, List.not_mem_nil, or_false] at hf
    rcases hf with rfl | rfl | rfl <;> simp at hn
  exclusions f hf := by
    simp only [exclusionFilters, demoF, List.flatMap_cons, List.flatMap_nil, Option.getD_some, List.append_nil, List.mem_cons, List.not_mem_nil, or_false] at hf
    subst hf
    have : (match validateFilter (N := Int) 1 demoKv ⟨.event "city".toList, .neq, some [.str "Rome".toList]⟩ with | .ok () => true | _ => false) = true := by decide +kernel
    split at this
    · assumption
    · cases this
  patterns f hf x _ _ := by
    simp only [exclusionFilters, demoF, List.flatMap_cons, List.flatMap_nil, Option.getD_some, List.append_nil, List.mem_cons, List.not_mem_nil, or_false] at hf
    subst hf
    simp [Pattern]

example : Dictionaries 1 demoKv ∧ (∀ n ev, (eventsC 1).getBy .name n demoKv = .ok ev → ev.id < 2 ^ 63) ∧ TimeInRange demoF.time ∧
    ClearFunnel exReqEnv id 1 demoKv demoF ∧ PlainFunnel demoF ∧ (funnel exReqEnv false id 1 1 demoKv demoCols 0 demoF).toOption.isSome = true ∧
    StoredIn id 1 demoKv (demoRow (some 1) (some 9)) (funnelFilters demoF) := by
  refine ⟨demo_dictionaries, fun n ev h => ?_, ?_, demoF_clear, ⟨demoF_supported.events, demoF_supported.exclude, demoF_supported.exSteps, ?_⟩, by decide +kernel,
    demo_stored ?_⟩
  · rw [(demo_event h).2]; decide
  · intro n; simp [demoF, askFunnel]
  · intro g hg
    simp only [demoF, Option.some.injEq] at hg
    subst hg
    exact ⟨_, rfl, fun _ => ⟨_, rfl⟩⟩
  · intro f hf
    rcases demoF_filters hf with rfl | rfl | rfl | rfl <;> rfl

/-! ## What is not as asked for -/

/-- A row of another project. -/
def foreignSeen : QRow := fun c => if c = "project_id".toList then some (.int 2) else demoRow (some 1) (some 9) c

/-- C130 is violated: rows of other projects pass. -/
theorem C130_project_violated : ¬ C130_full Int := by
  intro h
  obtain ⟨c, row', h1, h2, h3, -⟩ := takes_spec (S := exSem) (r := askFunnel Int "buy".toList) (row := foreignSeen) (b := true) (bs := [true]) (by decide +kernel)
  obtain ⟨f, t, -, hr⟩ := h exSem exSem_ts _ _ _ _ _ _ _ _ _ c h1 (by simp [askFunnel])
  have hno : ¬ Owned 1 foreignSeen := by
    intro ho
    cases ho
  exact (hr foreignSeen row' h2 (fun x hx => by cases hx; exact ⟨-5, rfl⟩) (fun ho => absurd ho hno)).2 hno (h3.mpr rfl)

/-- Later than 5 ms, asked in a step. -/
def laterStep : JFunnel Int :=
  { askFunnel Int "buy".toList with steps := [⟨[⟨.regular "buy".toList, some [⟨.event "when".toList, .gt, some [.num 5]⟩]⟩], .exact⟩] }

theorem later_holds : Holds exSem exReqEnv id 1 demoKv (demoRow (some 1) (some 9)) ⟨.event "when".toList, .gt, some [.num 5]⟩ := by
  refine ⟨whenAt, some (.ts 9), [some (.ts 5)], when_at, by unfold ValueAt; rw [if_neg (by decide)]; decide +kernel, fun c => ?_, _, _, rfl, List.mem_singleton.mpr rfl, rfl⟩
  have e : (BitVec.ofInt 128 5).toInt = 5 := by decide
  constructor
  · intro hc
    cases List.mem_singleton.mp hc
    refine ⟨.num 5, .head _, _, _, rfl, ?_⟩
    rw [if_pos (by decide)]
    exact ⟨5, rfl, by rw [e]; rfl⟩
  · rintro ⟨x, hx, hm⟩
    cases List.mem_singleton.mp hx
    obtain ⟨m, s, hd, hk⟩ := hm
    rw [if_pos (by decide)] at hk
    obtain ⟨k, rfl, hk⟩ := hk
    cases hd
    rw [e] at hk
    have : k = 5 := by omega
    subst this
    simp

/-- C130 is violated: in a step, a time is compared with a decimal, which selects nothing (or fails). -/
theorem C130_times_violated : ¬ C130_full Int := by
  intro h
  obtain ⟨c, row', h1, h2, -, h4⟩ := takes_spec (S := exSem) (r := laterStep) (row := demoRow (some 1) (some 9)) (b := true) (bs := [false]) (by decide +kernel)
  obtain ⟨f, t, -, hr⟩ := h exSem exSem_ts _ _ _ _ _ _ _ _ _ c h1 (by simp [laterStep])
  obtain ⟨x, o, k1, -, k3⟩ := ((hr _ row' h2 demoRow_ts fun _ => demo_stored (by
    intro f hf
    simp only [funnelFilters, stepFilters, exclusionFilters, laterStep, askFunnel, firstGroup, List.flatMap_cons, List.flatMap_nil, Option.getD_some, Option.getD_none,
      List.append_nil, List.mem_cons, List.not_mem_nil, or_false] at hf
    subst hf; rfl)).1 rfl).steps 0 _ rfl
  have hs := k3.mpr ⟨_, .head _, _, rfl, ⟨_, buy_at, rfl⟩, fun f hf => by
    simp only [Option.getD_some, List.mem_singleton] at hf
    subst hf
    exact later_holds⟩
  cases hl : c.steps with
  | nil => rw [hl] at k1; simp at k1
  | cons a l =>
    rw [hl] at k1 h4
    simp only [List.getElem?_cons_zero, Option.some.injEq] at k1
    subst k1
    simp only [List.map_cons, List.cons_append, List.cons.injEq] at h4
    have := h4.1.symm
    rw [decide_eq_false_iff_not] at this
    exact this hs

/-- Excluded: a city like "R%". -/
def likeExclude : JFunnel Int :=
  { askFunnel Int "buy".toList with exclude := some [⟨.regular "buy".toList, some [⟨.event "city".toList, .like, some [.str "R%".toList]⟩], none⟩] }

theorem like_holds {w : Option Int} : Holds likeSem exReqEnv id 1 demoKv (demoRow (some 1) w) ⟨.event "city".toList, .like, some [.str "R%".toList]⟩ := by
  refine ⟨cityAt, some (.str "Rome".toList), [some (.str "R%".toList)], city_at,
    .inr ⟨1, "Rome".toList, ?_, ok_of (by decide +kernel), rfl⟩, ?_, _, _, rfl, List.mem_singleton.mpr rfl, rfl⟩
  · rw [show cityAt.columnName id = "e_str_0".toList by decide +kernel]; rfl
  · intro c; simp [Meant]

/-- C130 is violated: in an exclusion, a pattern is matched against the number of the string, so nothing is excluded. -/
theorem C130_pattern_violated : ¬ C130_full Int := by
  intro h
  obtain ⟨c, row', h1, h2, -, h4⟩ := takes_spec (S := likeSem) (r := likeExclude) (row := demoRow (some 1) none) (b := true) (bs := [true, false]) (by decide +kernel)
  obtain ⟨f, t, -, hr⟩ := h likeSem (fun _ _ => rfl) _ _ _ _ _ _ _ _ _ c h1 (by simp [likeExclude, askFunnel])
  have hrow := (hr _ row' h2 demoRow_ts fun _ => demo_stored (by
    intro f hf
    simp only [funnelFilters, stepFilters, exclusionFilters, likeExclude, askFunnel, firstGroup, List.flatMap_cons, List.flatMap_nil, Option.getD_some, Option.getD_none,
      List.append_nil, List.nil_append, List.mem_cons, List.not_mem_nil, or_false] at hf
    subst hf; rfl)).1 rfl
  obtain ⟨x, o, k1, -, k3⟩ := hrow.exclude 0 _ rfl
  have hs := k3.mpr ⟨_, rfl, ⟨_, buy_at, rfl⟩, fun f hf => by
    simp only [Option.getD_some, List.mem_singleton] at hf
    subst hf
    exact like_holds⟩
  obtain ⟨y, o', j1, -, -⟩ := hrow.steps 0 _ rfl
  cases hl : c.steps with
  | nil => rw [hl] at j1; simp at j1
  | cons a l =>
    rw [hl] at h4
    cases l with
    | cons b l =>
      simp only [List.map_cons, List.cons_append, List.cons.injEq] at h4
      cases hl2 : c.exclude with
      | nil => rw [hl2] at k1; simp at k1
      | cons z zs =>
        have := congrArg List.length h4.2.2
        simp [hl2] at this
    | nil =>
      simp only [List.map_cons, List.map_nil, List.cons_append, List.nil_append, List.cons.injEq] at h4
      cases hl2 : c.exclude with
      | nil => rw [hl2] at k1; simp at k1
      | cons z zs =>
        rw [hl2] at k1 h4
        simp only [List.getElem?_cons_zero, Option.some.injEq] at k1
        subst k1
        simp only [List.map_cons, List.cons.injEq] at h4
        have := h4.2.1.symm
        rw [decide_eq_false_iff_not] at this
        exact this hs

end OptiPrism.Platform
