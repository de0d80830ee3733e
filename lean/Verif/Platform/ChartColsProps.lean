import Verif.Platform.ChartDecodeProps

/-!
# C126: a chart reads the columns it needs, groups by what was asked for and computes what was asked for
-/

namespace OptiPrism.Platform

open OptiPrism.Meta (Str PropOp PropertyRef EventRef Scalar PropFilter Kv Property PropType Event propsC customC eventsC kEvents dictGetValue dictGetKey)
open OptiPrism.Query
open OptiPrism.Ingest (groupCol dictRoom dictCell World Life KeepsSys)

variable {N : Type} {E : ReqEnv N} {sys : Str → Str} {p : Nat} {kv : Kv} {tbl : List Str}

/-! ## Spec -/

/-- The columns an expression is about. -/
def exprUses : Expr → List Str
  | .bin _ c _ | .isTrue c | .isFalse c | .isNull c | .isNotNull c => [c]
  | .and a b | .or a b => exprUses a ++ exprUses b

/-- The columns an aggregate is about, apart from that of the group. -/
def aggUses : AggPlan → List Str
  | .count c | .partitionedAggregate _ _ c | .aggregate _ c => [c]
  | .partitionedCount _ _ => []

/-- The properties a query is about. -/
def queryAbout : JQuery → List JPropertyRef
  | .aggregatePropertyPerGroup p _ _ => [p]
  | .aggregateProperty p _ => [p]
  | _ => []

/-- The request names the property. -/
def NamedIn (r : JSegReq N) (ref : JPropertyRef) : Prop :=
  (∃ f ∈ allFilters r, f.property = ref) ∨ (∃ e ∈ r.events, ∃ q ∈ e.queries, ref ∈ queryAbout q) ∨ (∃ e ∈ r.events, ref ∈ e.breakdowns.getD []) ∨
    ref ∈ r.breakdowns.getD []

/-- The column of a property. -/
def ColumnAt (sys : Str → Str) (p : Nat) (kv : Kv) (ref : JPropertyRef) (x : Str) : Prop := ∃ rp, PropertyAt p kv ref rp ∧ x = rp.columnName sys

def SameAgg : JAgg → CAgg → Prop
  | .count, .count | .sum, .sum | .min, .min | .max, .max | .avg, .avg => True
  | _, _ => False

def SamePAgg : JPAgg → CPAgg → Prop
  | .count, .count | .sum, .sum | .min, .min | .max, .max | .avg, .avg => True
  | _, _ => False

/-- The aggregate is what the query asks for. -/
def Computes (sys : Str → Str) (p : Nat) (kv : Kv) : JQuery → AggPlan → Prop
  | .countEvents, a => a = .count "event".toList
  | .countUniqueGroups, a => a = .partitionedCount .count true
  | .dailyActiveGroups, a => a = .partitionedCount .count true
  | .countPerGroup g, a => ∃ g', SameAgg g g' ∧ a = .partitionedCount g' false
  | .aggregatePropertyPerGroup ref i g, a => ∃ i' g' x, SamePAgg i i' ∧ SameAgg g g' ∧ ColumnAt sys p kv ref x ∧ a = .partitionedAggregate i' g' x
  | .aggregateProperty ref g, a => ∃ g' x, SameAgg g g' ∧ ColumnAt sys p kv ref x ∧ a = .aggregate g' x
  | _, _ => False

/-- The full claim: every column a plan uses is read. -/
def C126_full (N : Type) : Prop :=
  ∀ (E : ReqEnv N) (sys : Str → Str) (fuel p : Nat) (kv : Kv) (tbl : List Str) (cur : Int) (r : JSegReq N) (c : Chart), chart E sys fuel p kv tbl cur r = .ok c →
    ∀ pl ∈ c.events, ∀ x ∈ exprUses pl.filter ++ pl.groups ++ pl.aggs.flatMap aggUses, x ∈ c.cols

/-! ## Helpers -/

theorem multiOr_uses {es : List Expr} {e : Expr} (h : multiOr es = .ok e) {x : Str} (hx : x ∈ exprUses e) : ∃ a ∈ es, x ∈ exprUses a := by
  have fold : ∀ (l : List Expr) (a : Expr), x ∈ exprUses (l.foldl .or a) → x ∈ exprUses a ∨ ∃ b ∈ l, x ∈ exprUses b := by
    intro l
    induction l with
    | nil => exact fun a h => .inl h
    | cons b l ih =>
      intro a h
      rcases ih _ h with h | ⟨c, hc, h⟩
      · rcases List.mem_append.mp h with h | h
        · exact .inl h
        · exact .inr ⟨b, .head _, h⟩
      · exact .inr ⟨c, .tail _ hc, h⟩
  match es, h with
  | [a], h => cases h; exact ⟨_, .head _, hx⟩
  | a :: b :: l, h =>
    cases h
    rcases fold l _ hx with h | ⟨c, hc, h⟩
    · rcases List.mem_append.mp h with h | h
      · exact ⟨a, .head _, h⟩
      · exact ⟨b, .tail _ (.head _), h⟩
    · exact ⟨c, .tail _ (.tail _ hc), h⟩

theorem multiAnd_uses {es : List Expr} {e : Expr} (h : multiAnd es = .ok e) {x : Str} (hx : x ∈ exprUses e) : ∃ a ∈ es, x ∈ exprUses a := by
  have fold : ∀ (l : List Expr) (a : Expr), x ∈ exprUses (l.foldl .and a) → x ∈ exprUses a ∨ ∃ b ∈ l, x ∈ exprUses b := by
    intro l
    induction l with
    | nil => exact fun a h => .inl h
    | cons b l ih =>
      intro a h
      rcases ih _ h with h | ⟨c, hc, h⟩
      · rcases List.mem_append.mp h with h | h
        · exact .inl h
        · exact .inr ⟨b, .head _, h⟩
      · exact .inr ⟨c, .tail _ hc, h⟩
  match es, h with
  | [a], h => cases h; exact ⟨_, .head _, hx⟩
  | a :: b :: l, h =>
    cases h
    rcases fold l _ hx with h | ⟨c, hc, h⟩
    · rcases List.mem_append.mp h with h | h
      · exact ⟨a, .head _, h⟩
      · exact ⟨b, .tail _ (.head _), h⟩
    · exact ⟨c, .tail _ (.tail _ hc), h⟩

theorem named_uses {col : Str} {op : PropOp} {vs : Option (List (Option Cell))} {e : Expr} (h : namedPropertyExpression col op vs = .ok e) {x : Str}
    (hx : x ∈ exprUses e) : x = col := by
  have many : ∀ (o : Op) (l : List (Option Cell)), multiOr (l.map (.bin o col)) = .ok e → x = col := by
    intro o l hl
    obtain ⟨y, hy, hx⟩ := multiOr_uses hl hx
    obtain ⟨v, -, rfl⟩ := List.mem_map.mp hy
    simpa [exprUses] using hx
  cases vs with
  | none => cases op <;> first | (cases h; done) | (cases h; simpa [exprUses] using hx)
  | some l =>
    match l, h with
    | [], h => cases op <;> first | (cases h; done) | (cases h; simpa [exprUses] using hx)
    | [v], h => cases op <;> (cases h; simpa [exprUses] using hx)
    | a :: b :: l, h => cases op <;> first | exact many _ (a :: b :: l) h | (cases h; simpa [exprUses] using hx)

theorem prop_uses {t : Str} {rp : Property} {op : PropOp} {vs : Option (List (Option Cell))} {e : Expr} (h : propExpression sys p t rp kv op vs = .ok e) {x : Str}
    (hx : x ∈ exprUses e) : x = rp.columnName sys := by
  unfold propExpression at h
  dsimp only at h
  split at h
  · exact named_uses h hx
  · split at h <;> try exact named_uses h hx
    split at h
    · split at h
      · cases h
      · exact named_uses h hx
    · exact named_uses h hx

theorem findProp_at {ref : JPropertyRef} {c : QErr} {rp : Property} (h : findProp c p kv (propIn ref) = .ok rp) : PropertyAt p kv ref rp := by
  refine propertyAt_iff ?_
  cases ref with
  | custom i => cases h
  | event n => exact h
  | group n g => exact h

theorem colName_at {ref : JPropertyRef} {x : Str} (h : colName sys p kv (propIn ref) = .ok x) : ColumnAt sys p kv ref x := by
  obtain ⟨rp, h1, h2⟩ := bind_ok h
  cases h2
  exact ⟨rp, findProp_at h1, rfl⟩

theorem breakdownCol_at {ref : JPropertyRef} {x : Str} (h : breakdownCol sys p kv (propIn ref) = .ok x) : ColumnAt sys p kv ref x := by
  obtain ⟨rp, h1, h2⟩ := bind_ok h
  cases h2
  exact ⟨rp, findProp_at h1, rfl⟩

theorem columnAt_unique {ref : JPropertyRef} {x y : Str} (h : ColumnAt sys p kv ref x) (h' : ColumnAt sys p kv ref y) : y = x := by
  obtain ⟨a, h1, rfl⟩ := h
  obtain ⟨b, h2, rfl⟩ := h'
  rw [propertyAt_unique h1 h2]

theorem withFilters_uses {md : Md PropFilter} {e0 : Except QErr Expr} {fs : Option (List PropFilter)} {e : Expr} (h : withFilters md e0 fs = .ok e) :
    ∃ e1, e0 = .ok e1 ∧ ∀ x ∈ exprUses e, x ∈ exprUses e1 ∨ ∃ f ∈ fs.getD [], ∃ ef, md.filter f = .ok ef ∧ x ∈ exprUses ef := by
  unfold withFilters at h
  cases e0 with
  | error x => cases h
  | ok e1 =>
    refine ⟨e1, rfl, fun x hx => ?_⟩
    cases fs with
    | none => cases h; exact .inl hx
    | some l =>
      dsimp only at h
      unfold eventFiltersExpression at h
      cases hl : collect md.filter l with
      | error x => rw [hl] at h; cases h
      | ok es =>
        rw [hl] at h
        dsimp only at h
        cases hm : multiAnd es with
        | error x => rw [hm] at h; cases h
        | ok m =>
          rw [hm] at h
          cases h
          rcases List.mem_append.mp hx with hx | hx
          · exact .inl hx
          · obtain ⟨a, ha, hx⟩ := multiAnd_uses hm hx
            obtain ⟨f, hf, he⟩ := (collect_spec hl).2.1 a ha
            exact .inr ⟨f, hf, a, he, hx⟩

theorem queryAbout_in {q : JQuery} {q' : CQuery} (h : queryIn q = some q') : q'.properties = (queryAbout q).map propIn := by
  cases q with
  | countPerGroup a => simp only [queryIn, Option.map_eq_some_iff] at h; obtain ⟨_, _, rfl⟩ := h; rfl
  | aggregatePropertyPerGroup r g a => simp only [queryIn, Option.map_eq_some_iff] at h; obtain ⟨_, _, rfl⟩ := h; rfl
  | aggregateProperty r a => simp only [queryIn, Option.map_eq_some_iff] at h; obtain ⟨_, _, rfl⟩ := h; rfl
  | _ => cases h; rfl

theorem named_queries (ev : JEventRef) (i : Nat) (qs : List CQuery) : (named E ev i qs).map Prod.fst = qs := by
  induction qs generalizing i with
  | nil => rfl
  | cons q qs ih => simp [named, ih]

theorem mapM_mem {α β : Type} {f : α → Option β} {l : List α} {bs : List β} (h : l.mapM f = some bs) : (∀ a ∈ l, ∃ b ∈ bs, f a = some b) ∧ ∀ b ∈ bs, ∃ a ∈ l, f a = some b := by
  constructor
  · intro a ha
    obtain ⟨i, hi⟩ := List.getElem?_of_mem ha
    obtain ⟨b, hb, hf⟩ := mapM_get h hi
    exact ⟨b, List.mem_of_getElem? hb, hf⟩
  · intro b hb
    obtain ⟨i, hi⟩ := List.getElem?_of_mem hb
    have hlt : i < bs.length := (List.getElem?_eq_some_iff.mp hi).1
    rw [mapM_length h] at hlt
    obtain ⟨b', hb', hf⟩ := mapM_get h (List.getElem?_eq_getElem hlt)
    rw [hi] at hb'
    cases hb'
    exact ⟨_, List.getElem_mem hlt, hf⟩

/-- The events of the request and of the query, side by side. -/
theorem Way.event_of {fuel : Nat} {cur : Int} {r : JSegReq N} {q : CSegReq} {c : Chart} (w : Way E sys fuel p kv tbl cur r q c) {e' : CEvent} (he : e' ∈ q.events) :
    ∃ e ∈ r.events, e'.event = eventIn e.event ∧ (∀ x, x ∈ e'.breakdowns.getD [] ↔ ∃ b ∈ e.breakdowns.getD [], propIn b = x) ∧
      (∃ qs, e.queries.mapM queryIn = some qs ∧ e'.queries = named E e.event 0 qs) ∧
      (∀ f ∈ e.filters.getD [], ∃ f' ∈ e'.filters.getD [], Linked E p kv f f') ∧ ∀ f' ∈ e'.filters.getD [], ∃ f ∈ e.filters.getD [], Linked E p kv f f' := by
  obtain ⟨i, hi⟩ := List.getElem?_of_mem he
  have hlt : i < q.events.length := (List.getElem?_eq_some_iff.mp hi).1
  rw [w.count] at hlt
  obtain ⟨e'', he'', h⟩ := w.events i _ (List.getElem?_eq_getElem hlt)
  rw [hi] at he''
  cases he''
  exact ⟨_, List.getElem_mem hlt, h⟩

theorem Linked.property {f : JFilter N} {f' : PropFilter} (h : Linked E p kv f f') : f'.property = propIn f.property := by
  obtain ⟨_, _, _, _, _, rfl, _⟩ := h
  rfl

theorem Way.properties {fuel : Nat} {cur : Int} {r : JSegReq N} {q : CSegReq} {c : Chart} (w : Way E sys fuel p kv tbl cur r q c) (x : PropertyRef) :
    x ∈ q.properties ↔ ∃ ref, NamedIn r ref ∧ propIn ref = x := by
  have qs : ∀ (e : JEvent N) (e' : CEvent), (∃ qs, e.queries.mapM queryIn = some qs ∧ e'.queries = named E e.event 0 qs) →
      ((∃ y ∈ e'.queries, x ∈ y.1.properties) ↔ ∃ y ∈ e.queries, ∃ ref ∈ queryAbout y, propIn ref = x) := by
    rintro e e' ⟨qs, h1, h2⟩
    have hm : (∃ y ∈ e'.queries, x ∈ y.1.properties) ↔ ∃ y ∈ qs, x ∈ y.properties := by
      have hn := named_queries (E := E) e.event 0 qs
      rw [← h2] at hn
      rw [← hn]
      simp only [List.mem_map, exists_exists_and_eq_and]
    rw [hm]
    constructor
    · rintro ⟨y, hy, hx⟩
      obtain ⟨a, ha, hf⟩ := (mapM_mem h1).2 y hy
      rw [queryAbout_in hf] at hx
      obtain ⟨ref, hr, rfl⟩ := List.mem_map.mp hx
      exact ⟨a, ha, ref, hr, rfl⟩
    · rintro ⟨a, ha, ref, hr, rfl⟩
      obtain ⟨y, hy, hf⟩ := (mapM_mem h1).1 a ha
      exact ⟨y, hy, by rw [queryAbout_in hf]; exact List.mem_map.mpr ⟨ref, hr, rfl⟩⟩
  simp only [CSegReq.properties, CEvent.properties, List.mem_append, List.mem_flatMap, List.mem_map]
  constructor
  · rintro ((⟨e', he', (⟨f', hf', rfl⟩ | hq) | hb⟩ | ⟨f', hf', rfl⟩) | hb)
    · obtain ⟨e, he, -, -, -, -, l2⟩ := w.event_of he'
      obtain ⟨f, hf, hl⟩ := l2 f' hf'
      exact ⟨f.property, .inl ⟨f, List.mem_append_left _ (List.mem_flatMap.mpr ⟨e, he, hf⟩), rfl⟩, hl.property.symm⟩
    · obtain ⟨e, he, -, -, h, -, -⟩ := w.event_of he'
      obtain ⟨y, hy, ref, hr, rfl⟩ := (qs e e' h).mp hq
      exact ⟨ref, .inr (.inl ⟨e, he, y, hy, hr⟩), rfl⟩
    · obtain ⟨e, he, -, h, -, -, -⟩ := w.event_of he'
      obtain ⟨b, hb', rfl⟩ := (h x).mp hb
      exact ⟨b, .inr (.inr (.inl ⟨e, he, hb'⟩)), rfl⟩
    · obtain ⟨f, hf, hl⟩ := w.filters.2 f' hf'
      exact ⟨f.property, .inl ⟨f, List.mem_append_right _ hf, rfl⟩, hl.property.symm⟩
    · obtain ⟨b, hb', rfl⟩ := (w.breakdowns x).mp hb
      exact ⟨b, .inr (.inr (.inr hb')), rfl⟩
  · rintro ⟨ref, (⟨f, hf, rfl⟩ | ⟨e, he, y, hy, hr⟩ | ⟨e, he, hb⟩ | hb), rfl⟩
    · rcases List.mem_append.mp hf with hf | hf
      · obtain ⟨e, he, hf⟩ := List.mem_flatMap.mp hf
        obtain ⟨i, hi⟩ := List.getElem?_of_mem he
        obtain ⟨e', he', -, -, -, l1, -⟩ := w.events i e hi
        obtain ⟨f', hf', hl⟩ := l1 f hf
        exact .inl (.inl ⟨e', List.mem_of_getElem? he', .inl (.inl ⟨f', hf', hl.property⟩)⟩)
      · obtain ⟨f', hf', hl⟩ := w.filters.1 f hf
        exact .inl (.inr ⟨f', hf', hl.property⟩)
    · obtain ⟨i, hi⟩ := List.getElem?_of_mem he
      obtain ⟨e', he', -, -, h, -, -⟩ := w.events i e hi
      exact .inl (.inl ⟨e', List.mem_of_getElem? he', .inl (.inr ((qs e e' h).mpr ⟨y, hy, ref, hr, rfl⟩))⟩)
    · obtain ⟨i, hi⟩ := List.getElem?_of_mem he
      obtain ⟨e', he', -, h, -, -, -⟩ := w.events i e hi
      exact .inl (.inl ⟨e', List.mem_of_getElem? he', .inr ((h _).mpr ⟨ref, hb, rfl⟩)⟩)
    · exact .inr ((w.breakdowns _).mpr ⟨ref, hb, rfl⟩)

/-- The columns every chart reads. -/
def alwaysRead (r : JSegReq N) : List Str := ["project_id".toList, groupCol r.group, "created_at".toList, "event".toList]

theorem Way.cols {fuel : Nat} {cur : Int} {r : JSegReq N} {q : CSegReq} {c : Chart} (w : Way E sys fuel p kv tbl cur r q c) :
    (∀ x, x ∈ c.cols ↔ x ∈ alwaysRead r ∨ ∃ ref, NamedIn r ref ∧ ColumnAt sys p kv ref x) ∧ ∀ x ∈ c.cols, x ∈ tbl := by
  obtain ⟨pr, h1, h⟩ := bind_ok w.plan
  obtain ⟨cols, h2, h⟩ := bind_ok h
  obtain ⟨ds, h3, h⟩ := bind_ok h
  obtain ⟨es, h4, h⟩ := bind_ok h
  cases h
  obtain ⟨cs, h5, h6⟩ := bind_ok h1
  cases h6
  unfold scan at h2
  split at h2
  · rename_i hall
    cases h2
    simp only [List.all_eq_true, List.contains_iff_mem] at hall
    have hin : ∀ x, x ∈ [kProjectCol, groupCol q.groupId, kCreatedCol, kEventCol] ++ cs ↔
        x ∈ alwaysRead r ∨ ∃ ref, NamedIn r ref ∧ ColumnAt sys p kv ref x := by
      intro x
      rw [List.mem_append, kProjectCol_eq, kCreatedCol_eq, kEventCol_eq, w.group]
      refine or_congr Iff.rfl ⟨fun hx => ?_, ?_⟩
      · obtain ⟨y, hy, hc⟩ := (collect_spec h5).2.1 x hx
        obtain ⟨ref, hr, rfl⟩ := (w.properties y).mp hy
        exact ⟨ref, hr, colName_at hc⟩
      · rintro ⟨ref, hr, hx⟩
        obtain ⟨y, hy, hc⟩ := (collect_spec h5).1 _ ((w.properties _).mpr ⟨ref, hr, rfl⟩)
        rw [columnAt_unique (colName_at hc) hx]
        exact hy
    refine ⟨fun x => ?_, fun x hx => (List.mem_filter.mp hx).1⟩
    rw [← hin x, List.mem_filter, List.contains_iff_mem]
    exact ⟨fun h => h.2, fun h => ⟨hall x h, h⟩⟩
  · cases h2

theorem agg_same {a : JAgg} {a' : CAgg} (h : aggIn a = some a') : SameAgg a a' := by cases a <;> cases h <;> trivial

theorem computes_of {q : JQuery} {q' : CQuery} (h : queryIn q = some q') {a : AggPlan} (ha : aggPlan sys p kv q' = .ok a) : Computes sys p kv q a := by
  cases q with
  | countEvents => cases h; cases ha; simp [Computes, kEventCol_eq]
  | countUniqueGroups => cases h; cases ha; rfl
  | dailyActiveGroups => cases h; cases ha; rfl
  | weeklyActiveGroups => cases h; cases ha
  | monthlyActiveGroups => cases h; cases ha
  | countPerGroup g =>
    simp only [queryIn, Option.map_eq_some_iff] at h
    obtain ⟨g', hg, rfl⟩ := h
    cases ha
    exact ⟨g', agg_same hg, rfl⟩
  | aggregatePropertyPerGroup ref i g =>
    simp only [queryIn, Option.map_eq_some_iff] at h
    obtain ⟨g', hg, rfl⟩ := h
    obtain ⟨x, hx, e⟩ := bind_ok ha
    cases e
    exact ⟨paggIn i, g', x, by cases i <;> trivial, agg_same hg, colName_at hx, rfl⟩
  | aggregateProperty ref g =>
    simp only [queryIn, Option.map_eq_some_iff] at h
    obtain ⟨g', hg, rfl⟩ := h
    obtain ⟨x, hx, e⟩ := bind_ok ha
    cases e
    exact ⟨g', x, agg_same hg, colName_at hx, rfl⟩
  | formula f => cases h; cases ha

/-! ## C126 -/

/-- C126 (partial): a chart reads the columns every chart needs and those of the properties the request names, all of the table; every
event is planned, the plans decode, filter (regular events), group and aggregate by columns read; the groups are the moments and the
properties broken down by; and the aggregates are what the queries ask for, in their order. Missing: the filters of custom events. -/
theorem C126_partial {fuel : Nat} {cur : Int} {r : JSegReq N} {c : Chart} (h : chart E sys fuel p kv tbl cur r = .ok c) :
    (∀ x, x ∈ c.cols ↔ x ∈ alwaysRead r ∨ ∃ ref, NamedIn r ref ∧ ColumnAt sys p kv ref x) ∧ (∀ x ∈ c.cols, x ∈ tbl) ∧
    (∀ d ∈ c.decoded, d.1 ∈ c.cols) ∧ c.events.length = r.events.length ∧
    ∀ (i : Nat) (e : JEvent N) (pl : EventPlan), r.events[i]? = some e → c.events[i]? = some pl →
      (∀ n, e.event = .regular n → ∀ x ∈ exprUses pl.filter, x ∈ c.cols) ∧
      (∀ x ∈ pl.groups ++ pl.aggs.flatMap aggUses, x ∈ c.cols) ∧
      (∀ x, x ∈ pl.groups ↔ x = "created_at".toList ∨ ∃ ref ∈ e.breakdowns.getD [] ++ r.breakdowns.getD [], ColumnAt sys p kv ref x) ∧
      pl.aggs.length = e.queries.length ∧ ∀ (j : Nat) (q : JQuery) (a : AggPlan), e.queries[j]? = some q → pl.aggs[j]? = some a → Computes sys p kv q a := by
  obtain ⟨q, w⟩ := chart_way h
  obtain ⟨hcols, htbl⟩ := w.cols
  have cre : "created_at".toList ∈ c.cols := (hcols _).mpr (.inl (by simp [alwaysRead]))
  have pro : "project_id".toList ∈ c.cols := (hcols _).mpr (.inl (by simp [alwaysRead]))
  have eve : "event".toList ∈ c.cols := (hcols _).mpr (.inl (by simp [alwaysRead]))
  refine ⟨hcols, htbl, fun d hd => ?_, ?_, fun i e pl he hpl => ?_⟩
  · obtain ⟨f, hf, rf, h1, -, -, rfl⟩ := (decoded_mem w d).mp hd
    exact (hcols _).mpr (.inr ⟨f.property, .inl ⟨f, hf, rfl⟩, rf, h1, rfl⟩)
  · obtain ⟨pr, h1, h⟩ := bind_ok w.plan
    obtain ⟨cols, h2, h⟩ := bind_ok h
    obtain ⟨ds, h3, h⟩ := bind_ok h
    obtain ⟨es, h4, h⟩ := bind_ok h
    cases h
    rw [← w.count]
    exact (collect_spec h4).2.2
  · have hplan := w.plan
    obtain ⟨pr, h1, hplan⟩ := bind_ok hplan
    obtain ⟨cols, h2, hplan⟩ := bind_ok hplan
    obtain ⟨ds, h3, hplan⟩ := bind_ok hplan
    obtain ⟨es, h4, hplan⟩ := bind_ok hplan
    cases hplan
    dsimp only at hpl hcols cre pro eve ⊢
    obtain ⟨e', he', hev, hbr, ⟨qs, hqs, hqn⟩, -, hfl⟩ := w.events i e he
    obtain ⟨pl', hpl', hp⟩ := collect_get h4 he'
    rw [hpl] at hpl'
    cases hpl'
    obtain ⟨f, p1, hp⟩ := bind_ok hp
    obtain ⟨bs, p2, hp⟩ := bind_ok hp
    obtain ⟨as, p3, hp⟩ := bind_ok hp
    cases hp
    dsimp only
    have hgroups : ∀ x, x ∈ cols.filter (fun c => (kCreatedCol :: bs).contains c) ↔
        x = "created_at".toList ∨ ∃ ref ∈ e.breakdowns.getD [] ++ r.breakdowns.getD [], ColumnAt sys p kv ref x := by
      intro x
      rw [List.mem_filter, List.contains_iff_mem, List.mem_cons, kCreatedCol_eq]
      constructor
      · rintro ⟨-, rfl | hx⟩
        · exact .inl rfl
        · obtain ⟨y, hy, hc⟩ := (collect_spec p2).2.1 x hx
          rcases List.mem_append.mp hy with hy | hy
          · obtain ⟨b, hb, rfl⟩ := (hbr y).mp hy
            exact .inr ⟨b, List.mem_append_left _ hb, breakdownCol_at hc⟩
          · obtain ⟨b, hb, rfl⟩ := (w.breakdowns y).mp hy
            exact .inr ⟨b, List.mem_append_right _ hb, breakdownCol_at hc⟩
      · rintro (rfl | ⟨b, hb, hx⟩)
        · exact ⟨cre, .inl rfl⟩
        · have hn : NamedIn r b := by
            rcases List.mem_append.mp hb with hb | hb
            · exact .inr (.inr (.inl ⟨e, List.mem_of_getElem? he, hb⟩))
            · exact .inr (.inr (.inr hb))
          refine ⟨(hcols x).mpr (.inr ⟨b, hn, hx⟩), .inr ?_⟩
          have : propIn b ∈ e'.breakdowns.getD [] ++ q.breakdowns.getD [] := by
            rcases List.mem_append.mp hb with hb | hb
            · exact List.mem_append_left _ ((hbr _).mpr ⟨b, hb, rfl⟩)
            · exact List.mem_append_right _ ((w.breakdowns _).mpr ⟨b, hb, rfl⟩)
          obtain ⟨y, hy, hc⟩ := (collect_spec p2).1 _ this
          rw [columnAt_unique (breakdownCol_at hc) hx]
          exact hy
    have hlen : as.length = e.queries.length := by
      rw [(collect_spec p3).2.2, hqn, ← List.length_map (f := Prod.fst), named_queries, mapM_length hqs]
    have hcomp : ∀ (j : Nat) (q : JQuery) (a : AggPlan), e.queries[j]? = some q → as[j]? = some a → Computes sys p kv q a := by
      intro j jq a hj ha
      obtain ⟨q', hq', hin⟩ := mapM_get hqs hj
      have hn : (e'.queries.map Prod.fst)[j]? = some q' := by rw [hqn, named_queries, hq']
      rw [List.getElem?_map, Option.map_eq_some_iff] at hn
      obtain ⟨y, hy, rfl⟩ := hn
      obtain ⟨a', ha', hag⟩ := collect_get p3 hy
      rw [ha] at ha'
      cases ha'
      exact computes_of hin hag
    refine ⟨fun n hn x hx => ?_, fun x hx => ?_, hgroups, hlen, hcomp⟩
    · unfold segmentationFilter at p1
      cases ht : timeExpression kCreatedCol .ms q.time cur with
      | error y => rw [ht] at p1; cases p1
      | ok te =>
        rw [ht] at p1
        dsimp only at p1
        have htime : ∀ x ∈ exprUses te, x = "created_at".toList := by
          unfold timeExpression at ht
          split at ht
          · cases ht
          · cases ht
            intro x hx
            simpa [exprUses, kCreatedCol_eq] using hx
        rw [hev, hn] at p1
        have hone : ∀ ee, eventExpression (mdOf sys p kv) fuel (.regularName n) = .ok ee → ∀ x ∈ exprUses ee, x = "event".toList := by
          intro ee hee x hx
          unfold eventExpression at hee
          split at hee
          · cases hee
          · dsimp only at hee
            split at hee
            · cases hee
            · cases hee
              simpa [exprUses, kEventCol_eq] using hx
        have hfilter : ∀ f', (∃ f, NamedIn r f.property ∧ Linked E p kv f f') → ∀ ef, propertyExpression sys p kv f' = .ok ef → ∀ x ∈ exprUses ef, x ∈ cols := by
          rintro f' ⟨f, hnam, hl⟩ ef hef x hx
          obtain ⟨rp, g1, g2⟩ := bind_ok hef
          rw [hl.property] at g1
          rw [prop_uses g2 hx]
          exact (hcols _).mpr (.inr ⟨f.property, hnam, rp, findProp_at g1, rfl⟩)
        cases hee : eventExpression (mdOf sys p kv) fuel (.regularName n) with
        | error y => simp only [eventIn] at p1; rw [hee] at p1; cases p1
        | ok ee =>
          simp only [eventIn] at p1
          rw [hee] at p1
          dsimp only at p1
          obtain ⟨e1, w1, u1⟩ := withFilters_uses p1
          obtain ⟨e2, w2, u2⟩ := withFilters_uses w1
          cases w2
          rcases u1 x hx with hx | ⟨f', hf', ef, hef, hx⟩
          · rcases u2 x hx with hx | ⟨f', hf', ef, hef, hx⟩
            · simp only [exprUses, projectExpr, List.mem_append, List.mem_singleton, kProjectCol_eq] at hx
              rcases hx with (rfl | hx) | hx
              · exact pro
              · rw [htime x hx]; exact cre
              · rw [hone ee hee x hx]; exact eve
            · obtain ⟨f, hf, hl⟩ := hfl f' hf'
              exact hfilter f' ⟨f, .inl ⟨f, List.mem_append_left _ (List.mem_flatMap.mpr ⟨e, List.mem_of_getElem? he, hf⟩), rfl⟩, hl⟩ ef hef x hx
          · obtain ⟨f, hf, hl⟩ := w.filters.2 f' hf'
            exact hfilter f' ⟨f, .inl ⟨f, List.mem_append_right _ hf, rfl⟩, hl⟩ ef hef x hx
    · rcases List.mem_append.mp hx with hx | hx
      · exact (List.mem_filter.mp hx).1
      · obtain ⟨a, ha, hx⟩ := List.mem_flatMap.mp hx
        obtain ⟨j, hj⟩ := List.getElem?_of_mem ha
        have hlt : j < as.length := (List.getElem?_eq_some_iff.mp hj).1
        rw [hlen] at hlt
        have hc := hcomp j _ a (List.getElem?_eq_getElem hlt) hj
        have hmem : e.queries[j] ∈ e.queries := List.getElem_mem hlt
        generalize e.queries[j] = jq at hc hmem
        cases jq <;> simp only [Computes] at hc
        case countEvents => subst hc; simp only [aggUses, List.mem_singleton] at hx; rw [hx]; exact eve
        case countUniqueGroups => subst hc; simp [aggUses] at hx
        case dailyActiveGroups => subst hc; simp [aggUses] at hx
        case countPerGroup => obtain ⟨_, _, rfl⟩ := hc; simp [aggUses] at hx
        case aggregatePropertyPerGroup ref _ _ =>
          obtain ⟨_, _, y, _, _, hy, rfl⟩ := hc
          simp only [aggUses, List.mem_singleton] at hx
          subst hx
          exact (hcols _).mpr (.inr ⟨ref, .inr (.inl ⟨e, List.mem_of_getElem? he, _, hmem, by simp [queryAbout]⟩), hy⟩)
        case aggregateProperty ref _ =>
          obtain ⟨_, y, _, hy, rfl⟩ := hc
          simp only [aggUses, List.mem_singleton] at hx
          subst hx
          exact (hcols _).mpr (.inr ⟨ref, .inr (.inl ⟨e, List.mem_of_getElem? he, _, hmem, by simp [queryAbout]⟩), hy⟩)

/-- A chart that filters, groups and aggregates. -/
def colsReq : JSegReq Int :=
  { demo with events := [⟨.regular "buy".toList, some [⟨.event "when".toList, .gt, some [.num 5]⟩], some [.event "city".toList],
      [.countEvents, .aggregateProperty (.event "when".toList) .max]⟩] }

example : (chart exReqEnv id 1 1 demoKv demoCols 0 colsReq).toOption.map (fun c => (c.cols, c.events.map fun pl => (exprUses pl.filter, pl.groups))) =
    some (["project_id", "group_0", "created_at", "event", "e_str_0", "e_ts_0"].map String.toList,
      [(["project_id", "created_at", "created_at", "event", "e_ts_0"].map String.toList, ["created_at", "e_str_0"].map String.toList)]) := by decide +kernel

example : (chart exReqEnv id 1 1 demoKv demoCols 0 colsReq).toOption.map (fun c => c.events.map fun pl => pl.aggs) =
    some [[.count "event".toList, .aggregate .max "e_ts_0".toList]] := by decide +kernel

/-- The store with a custom event: "buy" where there is a city. -/
def customKv : Kv :=
  (Meta.runCall (Meta.customCreate 1 ⟨7, 0⟩ ⟨0, ⟨0, 0⟩, 1, none, none, 0, none, "sold".toList, none, .enabled, false,
    [⟨.regularName "buy".toList, some [⟨.event "city".toList, .exists, none⟩]⟩]⟩) demoKv).2

/-- How often was the custom event counted? -/
def customReq : JSegReq Int := { ask Int "buy".toList with events := [⟨.custom 1, none, none, [.countEvents]⟩] }

/-- C126 is violated: the filter of the custom event is about a column that is not read. -/
theorem C126_violated : ¬ C126_full Int := by
  intro h
  have hok : (chart exReqEnv id 2 1 customKv demoCols 0 customReq).toOption.map (fun c => (c.cols, c.events.map fun pl => exprUses pl.filter)) =
      some (["project_id", "group_0", "created_at", "event"].map String.toList,
        [["project_id", "created_at", "created_at", "event", "e_str_0"].map String.toList]) := by decide +kernel
  cases hc : chart exReqEnv id 2 1 customKv demoCols 0 customReq with
  | error e => rw [hc] at hok; cases hok
  | ok c =>
    rw [hc] at hok
    simp only [Except.toOption, Option.map_some, Option.some.injEq, Prod.mk.injEq] at hok
    obtain ⟨h1, h2⟩ := hok
    cases hl : c.events with
    | nil => rw [hl] at h2; cases h2
    | cons pl l =>
      rw [hl] at h2
      simp only [List.map_cons, List.cons.injEq] at h2
      have := h _ _ _ _ _ _ _ _ c hc pl (by rw [hl]; exact .head _) "e_str_0".toList (by
        rw [h2.1]
        exact List.mem_append_left _ (List.mem_append_left _ (by decide +kernel)))
      rw [h1] at this
      revert this
      decide +kernel

end OptiPrism.Platform
