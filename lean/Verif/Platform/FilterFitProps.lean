import Verif.Platform.ChartColsProps
import Verif.Platform.FunnelReqProps

/-!
# Which filters and requests pass validation (C132)
-/

namespace OptiPrism.Platform

open OptiPrism.Meta (Str PropOp PropertyRef EventRef Scalar PropFilter Kv Property PropType Event DType propsC eventsC customC)
open OptiPrism.Query
open OptiPrism.Ingest (World Life KeepsSys)

variable {N : Type} {sys : Str → Str} {p : Nat} {kv : Kv}

/-! ## Spec -/

/-- Values of the type are numbers, or times, which are sent as numbers. -/
def NumberLike (t : DType) : Prop := t = .int8 ∨ t = .int16 ∨ t = .int32 ∨ t = .int64 ∨ t = .decimal ∨ t = .timestamp

/-- The value is one of the property. -/
def ValueOf (rp : Property) : JVal N → Prop
  | .null => rp.nullable = true
  | .bool _ => rp.dataType = .boolean
  | .num _ => NumberLike rp.dataType
  | .str _ => rp.dataType = .string
  | .arr | .obj => False

/-- The operation makes sense for the property. -/
def MeaningfulOp (rp : Property) (op : JOp) : Prop :=
  (op = .gt ∨ op = .gte ∨ op = .lt ∨ op = .lte → NumberLike rp.dataType) ∧ (op = .true ∨ op = .false → rp.dataType = .boolean) ∧
  (op = .exists ∨ op = .empty → rp.nullable = true) ∧ (op = .regex ∨ op = .like ∨ op = .notLike ∨ op = .notRegex → rp.dataType = .string)

/-- The operation compares with values. -/
def Compares (op : JOp) : Prop := op ≠ .true ∧ op ≠ .false ∧ op ≠ .exists ∧ op ≠ .empty

/-- There is such a property; there are five groups. -/
def PropertyFound (p : Nat) (kv : Kv) (ref : JPropertyRef) (rp : Property) : Prop := PropertyAt p kv ref rp ∧ ∀ n g, ref = .group n g → g < 5

/-- The filter is about a property there is, with an operation for it and values of it. -/
def FilterFits (p : Nat) (kv : Kv) (f : JFilter N) : Prop :=
  ∃ rp, PropertyFound p kv f.property rp ∧ MeaningfulOp rp f.op ∧ (Compares f.op → ∃ v vs, f.value = some (v :: vs)) ∧ ∀ v ∈ f.value.getD [], ValueOf rp v

/-- There is such an event. -/
def EventKnown (p : Nat) (kv : Kv) : JEventRef → Prop
  | .regular n => ∃ e, (eventsC p).getBy .name n kv = .ok e
  | .custom i => ∃ e, (customC p).getById i kv = .ok e

def groupsOf (g : Option (JGrouped N)) : List (JGroup N) :=
  match g with
  | none => []
  | some g => g.groups

/-- What a request for a chart must be like. -/
structure ValidChart (F : JFilter N → Prop) (p : Nat) (kv : Kv) (r : JSegReq N) : Prop where
  group : r.group < 5
  time : ∀ f t, r.time = .between f t → f ≤ t
  events : r.events ≠ []
  known : ∀ e ∈ r.events, EventKnown p kv e.event
  queries : ∀ e ∈ r.events, e.queries ≠ []
  filters : ∀ e ∈ r.events, ∀ f ∈ e.filters.getD [], F f
  groups : ∀ g ∈ groupsOf r.filters, g.filters ≠ [] ∧ ∀ f ∈ g.filters, F f
  breakdowns : ∀ b ∈ r.breakdowns.getD [], ∃ rp, PropertyFound p kv b rp
  segments : r.segments = none

/-- What a request for a funnel must be like; `X` is asked of exclusions. -/
structure ValidFunnel (F : JFilter N → Prop) (X : JExclude N → Prop) (p : Nat) (kv : Kv) (r : JFunnel N) : Prop where
  group : r.group < 5
  time : ∀ f t, r.time = .between f t → f ≤ t
  steps : r.steps ≠ [] ∧ r.steps.length ≤ 5
  events : ∀ s ∈ r.steps, s.events ≠ [] ∧ ∀ e ∈ s.events, EventKnown p kv e.event ∧ ∀ f ∈ e.filters.getD [], F f
  order : ∀ s ∈ r.steps, ∀ ps, s.order = .any ps → ∀ x ∈ ps, x.1 < r.steps.length ∧ x.2 < r.steps.length
  exclude : ∀ e ∈ r.exclude.getD [], EventKnown p kv e.event ∧ X e
  breakdowns : (r.breakdowns.getD []).Nodup ∧ ∀ b ∈ r.breakdowns.getD [], ∃ rp, PropertyFound p kv b rp
  constants : ∀ b ∈ r.holdingConstants.getD [], ∃ rp, PropertyFound p kv b rp
  convert : ∀ f t, r.filter = some (.timeToConvert f t) → f ≤ t
  groups : ∀ g ∈ groupsOf r.filters, ∀ f ∈ g.filters, F f
  segments : r.segments = none

/-- Exclusions as they are meant: steps are counted from 1, filters fit. -/
def ExclusionFits (p : Nat) (kv : Kv) (r : JFunnel N) (e : JExclude N) : Prop :=
  (∀ f t, e.steps = some (.between f t) → 1 ≤ f ∧ f ≤ r.steps.length ∧ 1 ≤ t ∧ t ≤ r.steps.length) ∧ ∀ f ∈ e.filters.getD [], FilterFits p kv f

/-- Exclusions as they are checked. -/
def ExclusionPasses (r : JFunnel N) (e : JExclude N) : Prop := ∀ f t, e.steps = some (.between f t) → f < r.steps.length ∧ t < r.steps.length

/-- C132 as wanted. -/
def C132_full (N : Type) : Prop :=
  ∀ (p : Nat) (kv : Kv),
    (∀ f : JFilter N, validateFilter p kv f = .ok () ↔ FilterFits p kv f) ∧
    (∀ r : JSegReq N, validateChart p kv r = .ok () ↔ ValidChart (FilterFits p kv) p kv r) ∧
    ∀ r : JFunnel N, validateFunnel p kv r = .ok () ↔ ValidFunnel (FilterFits p kv) (ExclusionFits p kv r) p kv r

/-! ## Proofs -/

theorem each_iff {α : Type} {f : α → Except QErr Unit} {l : List α} : each f l = .ok () ↔ ∀ a ∈ l, f a = .ok () := by
  refine ⟨each_ok, fun h => ?_⟩
  induction l with
  | nil => rfl
  | cons a l ih =>
    unfold each
    rw [h a List.mem_cons_self]
    exact ih fun b hb => h b (List.mem_cons_of_mem _ hb)

theorem require_iff {b : Bool} : require b = .ok () ↔ b = true := by
  refine ⟨require_ok, fun h => by rw [h]; rfl⟩

theorem seq_iff {x y : Except QErr Unit} : (x >>= fun _ => y) = .ok () ↔ x = .ok () ∧ y = .ok () := by
  cases x with
  | error e => exact ⟨fun h => (by cases h), fun h => (by cases h.1)⟩
  | ok u => exact ⟨fun h => ⟨rfl, h⟩, fun h => h.2⟩

theorem found_iff {ref : JPropertyRef} {rp : Property} : refused (findProp .plan p kv (propIn ref)) = .ok rp ↔ PropertyFound p kv ref rp := by
  constructor
  · intro h
    have h := refused_ok h
    refine ⟨findProp_at h, fun n g e => ?_⟩
    subst e
    simp only [propIn, findProp] at h
    by_cases hg : g < groupsCount
    · exact hg
    · rw [if_neg hg] at h
      cases h
  · rintro ⟨h, hg⟩
    cases ref with
    | custom i => cases h
    | event n => simp only [PropertyAt] at h; simp [propIn, findProp, h, ofStore, refused]
    | group n g =>
      simp only [PropertyAt] at h
      simp [propIn, findProp, show g < groupsCount from hg n g rfl, h, ofStore, refused]

theorem property_iff {ref : JPropertyRef} : validateProperty p kv ref = .ok () ↔ ∃ rp, PropertyFound p kv ref rp := by
  unfold validateProperty
  constructor
  · intro h
    obtain ⟨rp, h1, -⟩ := bind_ok h
    exact ⟨rp, found_iff.mp h1⟩
  · rintro ⟨rp, h⟩
    rw [found_iff.mpr h]
    rfl

theorem event_iff {e : JEventRef} : validateEvent p kv e = .ok () ↔ EventKnown p kv e := by
  cases e with
  | regular n =>
    simp only [validateEvent, EventKnown]
    cases (eventsC p).getBy .name n kv with
    | ok e => simp [ofStore, refused, Bind.bind, Except.bind, Pure.pure, Except.pure]
    | error e => simp [ofStore, refused, Bind.bind, Except.bind]
  | custom i =>
    simp only [validateEvent, EventKnown]
    cases (customC p).getById i kv with
    | ok e => simp [ofStore, refused, Bind.bind, Except.bind, Pure.pure, Except.pure]
    | error e => simp [ofStore, refused, Bind.bind, Except.bind]

theorem valFits_iff {rp : Property} {v : JVal N} : valFits rp v = true ↔ ValueOf rp v := by
  cases v with
  | num n => cases h : rp.dataType <;> simp [valFits, ValueOf, NumberLike, h]
  | _ => simp [valFits, ValueOf]

theorem opFits_iff {rp : Property} {op : JOp} : opFits rp op = true ↔
    MeaningfulOp rp op ∧ ¬ (rp.dataType = .int32 ∧ (op = .gt ∨ op = .gte ∨ op = .lt ∨ op = .lte)) := by
  cases op <;> cases h : rp.dataType <;> simp [opFits, MeaningfulOp, NumberLike, h]

theorem emptyFits_iff {op : JOp} : emptyFits op = true ↔ ¬ Compares op := by
  cases op <;> simp [emptyFits, Compares]

/-- The filters that pass. -/
theorem filter_iff {f : JFilter N} : validateFilter p kv f = .ok () ↔
    ∃ rp, PropertyFound p kv f.property rp ∧ MeaningfulOp rp f.op ∧ ¬ (rp.dataType = .int32 ∧ (f.op = .gt ∨ f.op = .gte ∨ f.op = .lt ∨ f.op = .lte)) ∧
      (f.value = none → rp.nullable = true) ∧ ∀ vs, f.value = some vs → (Compares f.op → vs ≠ []) ∧ ∀ v ∈ vs, ValueOf rp v := by
  have hv : ∀ rp : Property, valuesFit rp f.op f.value = true ↔
      (f.value = none → rp.nullable = true) ∧ ∀ vs, f.value = some vs → (Compares f.op → vs ≠ []) ∧ ∀ v ∈ vs, ValueOf rp v := by
    intro rp
    cases f.value with
    | none => simp [valuesFit]
    | some vs =>
      simp only [valuesFit, Bool.and_eq_true, Bool.or_eq_true, emptyFits_iff, Bool.not_eq_true', List.isEmpty_eq_false_iff, List.all_eq_true, valFits_iff,
        reduceCtorEq, false_implies, true_and, Option.some.injEq, forall_eq']
      refine and_congr ⟨fun h hc => h.resolve_left fun h' => h' hc, fun h => ?_⟩ Iff.rfl
      by_cases hc : Compares f.op
      · exact .inr (h hc)
      · exact .inl hc
  constructor
  · intro h
    obtain ⟨rp, h1, h2⟩ := bind_ok h
    obtain ⟨h3, h4⟩ := seq_iff.mp h2
    obtain ⟨h5, h6⟩ := opFits_iff.mp (require_iff.mp h3)
    exact ⟨rp, found_iff.mp h1, h5, h6, (hv rp).mp (require_iff.mp h4)⟩
  · rintro ⟨rp, h1, h2, h3, h4⟩
    unfold validateFilter
    rw [found_iff.mpr h1]
    exact seq_iff.mpr ⟨require_iff.mpr (opFits_iff.mpr ⟨h2, h3⟩), require_iff.mpr ((hv rp).mpr h4)⟩

theorem time_iff {t : JTime} : timeFits t = true ↔ ∀ f u, t = .between f u → f ≤ u := by
  cases t <;> simp [timeFits]

theorem chart_iff {r : JSegReq N} : validateChart p kv r = .ok () ↔ ValidChart (fun f => validateFilter p kv f = .ok ()) p kv r := by
  unfold validateChart
  simp only [seq_iff, require_iff, each_iff, property_iff, validateChartEvent, validateGroup, event_iff, decide_eq_true_eq, time_iff,
    Bool.not_eq_true', List.isEmpty_eq_false_iff, Option.isNone_iff_eq_none]
  constructor
  · rintro ⟨h1, h2, h3, h4, h5, h6, h7⟩
    exact ⟨h1, h2, h3, fun e he => (h4 e he).1, fun e he => (h4 e he).2.2, fun e he => (h4 e he).2.1, h5, h6, h7⟩
  · rintro ⟨h1, h2, h3, h4, h5, h6, h7, h8, h9⟩
    exact ⟨h1, h2, h3, fun e he => ⟨h4 e he, h6 e he, h5 e he⟩, h7, h8, h9⟩

theorem order_iff {n : Nat} {o : JStepOrder} : orderFits n o = true ↔ ∀ ps, o = .any ps → ∀ x ∈ ps, x.1 < n ∧ x.2 < n := by
  cases o <;> simp [orderFits]

theorem exSteps_iff {n : Nat} {o : Option JExSteps} : exStepsFit n o = true ↔ ∀ f t, o = some (.between f t) → f < n ∧ t < n := by
  cases o with
  | none => simp [exStepsFit]
  | some o => cases o <;> simp [exStepsFit]

theorem fFilter_iff {o : Option JFFilter} : fFilterFits o = true ↔ ∀ f t, o = some (.timeToConvert f t) → f ≤ t := by
  cases o with
  | none => simp [fFilterFits]
  | some o => cases o <;> simp [fFilterFits]

theorem funnel_iff {r : JFunnel N} : validateFunnel p kv r = .ok () ↔ ValidFunnel (fun f => validateFilter p kv f = .ok ()) (ExclusionPasses r) p kv r := by
  unfold validateFunnel
  simp only [seq_iff, require_iff, each_iff, property_iff, validateStep, validateFEvent, validateExclude, event_iff, decide_eq_true_eq, time_iff,
    Bool.not_eq_true', List.isEmpty_eq_false_iff, Option.isNone_iff_eq_none, order_iff, exSteps_iff, fFilter_iff]
  constructor
  · rintro ⟨h1, h2, h3, h4, h5, h6, h7, h8, h9, h10, h11, h12⟩
    exact ⟨h1, h2, ⟨h3, h4⟩, fun s hs => ⟨(h5 s hs).1, (h5 s hs).2.1⟩, fun s hs => (h5 s hs).2.2, h6, ⟨h7, h8⟩, h10, h11, h12, h9⟩
  · rintro ⟨h1, h2, ⟨h3, h4⟩, h5, h6, h7, ⟨h8, h9⟩, h10, h11, h12, h13⟩
    exact ⟨h1, h2, h3, h4, fun s hs => ⟨(h5 s hs).1, (h5 s hs).2, h6 s hs⟩, h7, h8, h9, h13, h10, h11, h12⟩

/-- C132 (partial): a filter with a list of values that is not a comparison of a 32-bit number passes exactly if it is about a property there is, with an
operation for it and values of it. A request for a chart passes exactly if it is as it must be and its filters pass, and so does a request for a
funnel, up to its exclusions. Missing: comparisons of 32-bit numbers (refused), filters without list of values (they pass
exactly if the property may be missing), filters and steps of exclusions. -/
theorem C132_partial (p : Nat) (kv : Kv) :
    (∀ f : JFilter N, f.value ≠ none → (∀ rp, PropertyAt p kv f.property rp → rp.dataType = .int32 → ¬ (f.op = .gt ∨ f.op = .gte ∨ f.op = .lt ∨ f.op = .lte)) →
      (validateFilter p kv f = .ok () ↔ FilterFits p kv f)) ∧
    (∀ f : JFilter N, f.value = none → (validateFilter p kv f = .ok () → ∃ rp, PropertyFound p kv f.property rp ∧ MeaningfulOp rp f.op)) ∧
    (∀ r : JSegReq N, validateChart p kv r = .ok () ↔ ValidChart (fun f => validateFilter p kv f = .ok ()) p kv r) ∧
    ∀ r : JFunnel N, validateFunnel p kv r = .ok () ↔ ValidFunnel (fun f => validateFilter p kv f = .ok ()) (ExclusionPasses r) p kv r := by
  refine ⟨fun f hv hi => ?_, fun f _ h => ?_, fun r => chart_iff, fun r => funnel_iff⟩
  · rw [filter_iff]
    cases hval : f.value with
    | none => exact absurd hval hv
    | some vs =>
      refine ⟨?_, ?_⟩
      · rintro ⟨rp, h1, h2, -, -, h4⟩
        obtain ⟨h5, h6⟩ := h4 vs rfl
        refine ⟨rp, h1, h2, fun hc => ?_, by rw [hval]; exact h6⟩
        cases vs with
        | nil => exact absurd rfl (h5 hc)
        | cons v vs => exact ⟨v, vs, hval⟩
      · rintro ⟨rp, h1, h2, h3, h4⟩
        rw [hval] at h4
        refine ⟨rp, h1, h2, fun h => hi rp h1.1 h.1 h.2, fun h => (by cases h), fun vs' e => ?_⟩
        cases e
        refine ⟨fun hc => ?_, h4⟩
        obtain ⟨v, vs'', e⟩ := h3 hc
        rw [hval] at e
        cases e
        simp
  · obtain ⟨rp, h1, h2, -⟩ := filter_iff.mp h
    exact ⟨rp, h1, h2⟩

/-! ## Cases -/

theorem passes_of {x : Except QErr Unit} (h : x.toOption = some ()) : x = .ok () := by
  cases x with
  | ok _ => rfl
  | error e => cases h

/-- The filter "city is Rome" fits; a filter by a time with strings does not, nor one for a pattern of times. -/
example : FilterFits 1 demoKv (N := Int) ⟨.event "city".toList, .eq, some [.str "Rome".toList]⟩ :=
  ((C132_partial 1 demoKv).1 ⟨.event "city".toList, .eq, some [.str "Rome".toList]⟩ (by simp) fun _ _ _ => (by simp)).mp (by apply passes_of; decide +kernel)

example : ¬ FilterFits 1 demoKv (N := Int) ⟨.event "when".toList, .like, some [.str "Rome".toList]⟩ := by
  rintro ⟨rp, h1, h2, -⟩
  have := propertyAt_unique (p := 1) (kv := demoKv) (ref := .event "when".toList) when_at h1.1
  subst this
  exact absurd (h2.2.2.2 (by simp)) (by decide)

example : (validateFilter 1 demoKv (N := Int) ⟨.event "when".toList, .like, some [.str "Rome".toList]⟩).toOption = none := by decide +kernel

/-- A request that passes. -/
example : ValidChart (fun f => validateFilter 1 demoKv f = .ok ()) 1 demoKv demo := ((C132_partial 1 demoKv).2.2.1 demo).mp (by apply passes_of; decide +kernel)

example : ValidFunnel (fun f => validateFilter 1 demoKv f = .ok ()) (ExclusionPasses demoF) 1 demoKv demoF :=
  ((C132_partial 1 demoKv).2.2.2 demoF).mp (by apply passes_of; decide +kernel)

/-- A property with numbers of 32 bits, and one with truth values that are always there. -/
def sizeProp : Property :=
  ⟨0, ⟨0, 0⟩, 1, none, none, 0, none, "size".toList, none, none, 0, .event, .int32, .enabled, false, false, false, false, false, none⟩

def paidProp : Property :=
  ⟨0, ⟨0, 0⟩, 1, none, none, 0, none, "paid".toList, none, none, 0, .event, .boolean, .enabled, false, false, false, false, false, none⟩

def sizeKv : Kv :=
  (Meta.runCall (Meta.propCreate id 1 .event ⟨7, 0⟩ paidProp (.ok ())) (Meta.runCall (Meta.propCreate id 1 .event ⟨7, 0⟩ sizeProp (.ok ())) demoKv).2).2

theorem size_at : ∃ rp, PropertyAt 1 sizeKv (.event "size".toList) rp ∧ rp.dataType = .int32 := by
  have h : ((propsC 1 .event).getBy .name "size".toList sizeKv).toOption.map (·.dataType) = some .int32 := by decide +kernel
  cases hx : (propsC 1 .event).getBy .name "size".toList sizeKv with
  | error e => rw [hx] at h; cases h
  | ok rp =>
    rw [hx] at h
    simp only [Except.toOption, Option.map_some, Option.some.injEq] at h
    exact ⟨rp, hx, h⟩

theorem paid_at : ∃ rp, PropertyAt 1 sizeKv (.event "paid".toList) rp ∧ rp.dataType = .boolean := by
  have h : ((propsC 1 .event).getBy .name "paid".toList sizeKv).toOption.map (·.dataType) = some .boolean := by decide +kernel
  cases hx : (propsC 1 .event).getBy .name "paid".toList sizeKv with
  | error e => rw [hx] at h; cases h
  | ok rp =>
    rw [hx] at h
    simp only [Except.toOption, Option.map_some, Option.some.injEq] at h
    exact ⟨rp, hx, h⟩

/-- C132 is violated: whether a number of 32 bits is larger cannot be asked. -/
theorem C132_violated : ¬ C132_full Int := by
  intro h
  obtain ⟨rp, h1, h2⟩ := size_at
  have hok := ((h 1 sizeKv).1 ⟨.event "size".toList, .gt, some [.num 5]⟩).mpr
    ⟨rp, ⟨h1, fun _ _ e => (by cases e)⟩, ⟨fun _ => .inr (.inr (.inl h2)), by simp, by simp, by simp⟩, fun _ => ⟨_, _, rfl⟩, fun v hv => by
      cases List.mem_singleton.mp hv
      exact .inr (.inr (.inl h2))⟩
  exact absurd (congrArg Except.toOption hok) (by decide +kernel)

/-- C132 fails, no values: "is true" is refused without an (empty) list of values, and "equals" is accepted without one (and panics, C125). -/
theorem C132_values_violated : ¬ C132_full Int := by
  intro h
  obtain ⟨rp, h1, h2⟩ := paid_at
  have hok := ((h 1 sizeKv).1 ⟨.event "paid".toList, .true, none⟩).mpr
    ⟨rp, ⟨h1, fun _ _ e => (by cases e)⟩, ⟨by simp, fun _ => h2, by simp, by simp⟩, fun hc => absurd rfl hc.1, fun v hv => by simp at hv⟩
  exact absurd (congrArg Except.toOption hok) (by decide +kernel)

theorem C132_none_violated : ¬ C132_full Int := by
  intro h
  obtain ⟨rp, -, -, h3, -⟩ := ((h 1 demoKv).1 ⟨.event "city".toList, .eq, none⟩).mp (by apply passes_of; decide +kernel)
  obtain ⟨v, vs, e⟩ := h3 (by simp [Compares])
  cases e

/-- C132 fails, exclusions: a filter by a property that does not exist passes in an exclusion. -/
theorem C132_exclusions_violated : ¬ C132_full Int := by
  intro h
  have hv := ((h 1 demoKv).2.2 { askFunnel Int "buy".toList with exclude := some [⟨.regular "buy".toList, some [⟨.custom 3, .eq, none⟩], none⟩] }).mp
    (by apply passes_of; decide +kernel)
  obtain ⟨rp, h1, -⟩ := (hv.exclude _ (.head _)).2.2 _ (.head _)
  exact h1.1

end OptiPrism.Platform
