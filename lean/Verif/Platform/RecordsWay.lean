import Verif.Platform.Records
import Verif.Platform.FunnelMeaning

/-!
# From the request of a search to the rows its filter keeps
-/

namespace OptiPrism.Platform

open OptiPrism.Meta (Str PropOp PropertyRef EventRef Scalar PropFilter Kv Property PropType Event propsC customC eventsC kEvents)
open OptiPrism.Query
open OptiPrism.Ingest (groupCol)

variable {N : Type} {E : ReqEnv N} {sys : Str → Str} {p : Nat} {kv : Kv} {tbl : List Str} {fuel : Nat} {cur : Int}

/-- All filters a search looks up. -/
def searchFilters (r : JSearch N) : List (JFilter N) := (r.events.getD []).flatMap (fun e => e.filters.getD []) ++ firstGroup r.filters

/-- Filters put right, one for one. -/
def LinkedAll (E : ReqEnv N) (p : Nat) (kv : Kv) (fs : List (JFilter N)) (fs' : List PropFilter) : Prop :=
  (∀ f ∈ fs, ∃ f' ∈ fs', Linked E p kv f f') ∧ ∀ f' ∈ fs', ∃ f ∈ fs, Linked E p kv f f'

theorem firstGroup_linked {g : Option (JGrouped N)} (hv : each (validateGroup p kv) (match g with | none => [] | some g => g.groups) = .ok ())
    {fs fs' : Option (List PropFilter)} (h1 : groupedIn E g = some fs) (h2 : fixFilters p kv fs = .ok fs') : LinkedAll E p kv (firstGroup g) (fs'.getD []) := by
  unfold LinkedAll firstGroup
  cases g with
  | none => cases h1; cases h2; simp
  | some g =>
    obtain ⟨cond, gs⟩ := g
    cases gs with
    | nil => cases h1
    | cons g0 gs =>
      have hv0 := each_ok hv g0 (by simp)
      obtain ⟨_, _, hv0⟩ := bind_ok hv0
      exact filters_linked (fs := some g0.filters) (each_ok hv0) h1 h2

theorem fixEvents_link {evs : List (JFEvent N)} (hv : ∀ e ∈ evs, ∀ f ∈ e.filters.getD [], validateFilter p kv f = .ok ())
    {es es' : List (EventReq PropFilter)} (h1 : evs.mapM (searchEventIn E) = some es) (h2 : fixEvents (fixFilter p kv) es = .ok es') :
    (∀ e ∈ evs, e.filters ≠ none → ∃ e' ∈ es', e'.event = eventIn e.event ∧ LinkedAll E p kv (e.filters.getD []) (e'.filters.getD [])) ∧
    ∀ e' ∈ es', ∃ e ∈ evs, e.filters ≠ none ∧ e'.event = eventIn e.event ∧ LinkedAll E p kv (e.filters.getD []) (e'.filters.getD []) := by
  induction evs generalizing es es' with
  | nil => simp at h1; subst h1; cases h2; simp
  | cons a evs ih =>
    simp only [List.mapM_cons, Option.bind_eq_bind, Option.pure_def, Option.bind_eq_some_iff] at h1
    obtain ⟨b, hb, bs, hbs, e⟩ := h1
    cases e
    simp only [searchEventIn, Option.bind_eq_bind, Option.pure_def, Option.bind_eq_some_iff] at hb
    obtain ⟨fs, hfs, e⟩ := hb
    cases e
    have ih' := @ih (fun e he => hv e (List.mem_cons_of_mem _ he)) bs
    simp only [fixEvents] at h2
    cases ha : a.filters with
    | none =>
      rw [ha] at hfs
      cases hfs
      dsimp only at h2
      obtain ⟨i1, i2⟩ := ih' hbs h2
      refine ⟨fun e he hn => ?_, fun e' he' => ?_⟩
      · rcases List.mem_cons.mp he with rfl | he
        · exact absurd ha hn
        · exact i1 e he hn
      · obtain ⟨e, he, h⟩ := i2 e' he'
        exact ⟨e, List.mem_cons_of_mem _ he, h⟩
    | some l =>
      rw [ha] at hfs
      simp only [keepEmpty, Option.map_eq_some_iff] at hfs
      obtain ⟨l', hl', rfl⟩ := hfs
      dsimp only at h2
      cases hc : collect (fixFilter p kv) l' with
      | error x => rw [hc] at h2; cases h2
      | ok l'' =>
        rw [hc] at h2
        dsimp only at h2
        cases hr : fixEvents (fixFilter p kv) bs with
        | error x => rw [hr] at h2; cases h2
        | ok rest =>
          rw [hr] at h2
          cases h2
          obtain ⟨i1, i2⟩ := ih' hbs hr
          have hva := hv a (by simp)
          rw [ha, Option.getD_some] at hva
          have hlink : LinkedAll E p kv l ((if l''.isEmpty then none else some l'' : Option (List PropFilter)).getD []) := by
            have e0 : (if l''.isEmpty then none else some l'' : Option (List PropFilter)).getD [] = l'' := by cases l'' <;> rfl
            rw [e0]
            constructor
            · intro f hf
              obtain ⟨f', m1, e1⟩ := mapM_back hl' hf
              obtain ⟨f'', m2, e2⟩ := (collect_spec hc).1 f' m1
              exact ⟨f'', m2, linked_of (hva f hf) e1 e2⟩
            · intro f'' hf
              obtain ⟨f', m1, e1⟩ := (collect_spec hc).2.1 f'' hf
              obtain ⟨f, m2, e2⟩ := (mapM_mem_iff hl' f').mp m1
              exact ⟨f, m2, linked_of (hva f m2) e2 e1⟩
          refine ⟨fun e he hn => ?_, fun e' he' => ?_⟩
          · rcases List.mem_cons.mp he with rfl | he
            · exact ⟨_, List.mem_cons_self .., rfl, by rw [ha]; exact hlink⟩
            · obtain ⟨e', he', h⟩ := i1 e he hn
              exact ⟨e', List.mem_cons_of_mem _ he', h⟩
          · rcases List.mem_cons.mp he' with rfl | he'
            · exact ⟨a, List.mem_cons_self .., by rw [ha]; simp, rfl, by rw [ha]; exact hlink⟩
            · obtain ⟨e, he, h⟩ := i2 e' he'
              exact ⟨e, List.mem_cons_of_mem _ he, h⟩

/-- The way of a search that is planned. -/
structure SearchWay (E : ReqEnv N) (sys : Str → Str) (fuel : Nat) (p : Nat) (kv : Kv) (tbl : List Str) (cur : Int) (r : JSearch N) (q : CSearch)
    (c : RecordsPlan) : Prop where
  plan : searchPlan sys fuel p kv tbl cur q = .ok c
  time : q.time = timeIn r.time
  properties : q.properties = (noneIfEmpty r.properties).map fun l => l.map propIn
  asked : ∀ ref ∈ r.properties.getD [], validateProperty p kv ref = .ok ()
  known : ∀ e ∈ r.events.getD [], validateEvent p kv e.event = .ok ()
  there : r.events.isSome = q.events.isSome
  some_ : r.events ≠ some []
  events1 : ∀ e ∈ r.events.getD [], e.filters ≠ none → ∃ e' ∈ q.events.getD [], e'.event = eventIn e.event ∧
    LinkedAll E p kv (e.filters.getD []) (e'.filters.getD [])
  events2 : ∀ e' ∈ q.events.getD [], ∃ e ∈ r.events.getD [], e.filters ≠ none ∧ e'.event = eventIn e.event ∧
    LinkedAll E p kv (e.filters.getD []) (e'.filters.getD [])
  filters : LinkedAll E p kv (firstGroup r.filters) (q.filters.getD [])

theorem keepEmpty_props {l : Option (List JPropertyRef)} {v : Option (List PropertyRef)} (h : keepEmpty (fun p => some (propIn p)) l = some v) :
    v = l.map fun l => l.map propIn := by
  cases l with
  | none => cases h; rfl
  | some l =>
    simp only [keepEmpty, Option.map_eq_some_iff] at h
    obtain ⟨a, ha, rfl⟩ := h
    have : ∀ l : List JPropertyRef, l.mapM (fun p => some (propIn p)) = some (l.map propIn) := by
      intro l
      induction l with
      | nil => rfl
      | cons a l ih => simp [List.mapM_cons, ih]
    rw [this] at ha
    cases ha
    rfl

theorem noneIfEmpty_map {α β : Type} (f : α → β) (l : Option (List α)) : noneIfEmpty (l.map fun l => l.map f) = (noneIfEmpty l).map fun l => l.map f := by
  cases l with
  | none => rfl
  | some l => cases l <;> rfl

theorem search_way {r : JSearch N} {c : RecordsPlan} (h : search E sys fuel p kv tbl cur r = .ok c) : ∃ q, SearchWay E sys fuel p kv tbl cur r q c := by
  obtain ⟨_, hv, h⟩ := bind_ok h
  cases hi : searchIn E r with
  | none => rw [hi] at h; cases h
  | some r' =>
    rw [hi] at h
    dsimp only at h
    obtain ⟨q, hq, hc⟩ := bind_ok h
    obtain ⟨_, v1, hv⟩ := bind_ok hv
    obtain ⟨_, v2, hv⟩ := bind_ok hv
    obtain ⟨_, v3, hv⟩ := bind_ok hv
    obtain ⟨_, v4, v5⟩ := bind_ok hv
    have hev : ∀ e ∈ r.events.getD [], validateEvent p kv e.event = .ok () ∧ ∀ f ∈ e.filters.getD [], validateFilter p kv f = .ok () := by
      intro e he
      obtain ⟨_, h1, h⟩ := bind_ok (each_ok v3 e he)
      exact ⟨h1, each_ok h⟩
    simp only [searchIn, Option.bind_eq_bind, Option.pure_def, Option.bind_eq_some_iff] at hi
    obtain ⟨es, i1, fs, i2, ps, i3, e⟩ := hi
    cases e
    obtain ⟨es', f1, hq⟩ := bind_ok hq
    obtain ⟨fs', f2, hq⟩ := bind_ok hq
    cases hq
    have hprops := keepEmpty_props i3
    have hevents : r.events.isSome = es'.isSome ∧ (∀ e ∈ r.events.getD [], e.filters ≠ none → ∃ e' ∈ es'.getD [], e'.event = eventIn e.event ∧
        LinkedAll E p kv (e.filters.getD []) (e'.filters.getD [])) ∧ ∀ e' ∈ es'.getD [], ∃ e ∈ r.events.getD [], e.filters ≠ none ∧ e'.event = eventIn e.event ∧
        LinkedAll E p kv (e.filters.getD []) (e'.filters.getD []) := by
      cases hr : r.events with
      | none => rw [hr] at i1; cases i1; cases f1; simp
      | some evs =>
        rw [hr] at i1 hev
        simp only [keepEmpty, Option.map_eq_some_iff] at i1
        obtain ⟨bs, i1, rfl⟩ := i1
        obtain ⟨cs, f1', e⟩ := bind_ok f1
        cases e
        exact ⟨rfl, fixEvents_link (fun e he => (hev e he).2) i1 f1'⟩
    refine ⟨_, hc, rfl, ?_, each_ok v5, fun e he => (hev e he).1, hevents.1, ?_, hevents.2.1, hevents.2.2, firstGroup_linked v4 i2 f2⟩
    · show noneIfEmpty ps = _
      rw [hprops, noneIfEmpty_map]
    · intro h0
      rw [h0] at v2
      cases require_ok v2

/-! ## Decoded columns -/

theorem decoded_of {fs : List (JFilter N)} {fs' : List PropFilter} (hl : LinkedAll E p kv fs fs') {ds : List (List (Str × Str))}
    (h : collect (decodeFilter sys p kv) fs' = .ok ds) (d : Str × Str) :
    d ∈ ds.flatten ↔ ∃ f ∈ fs, ∃ rf, PropertyAt p kv f.property rf ∧ rf.isDictionary = true ∧ Pattern f.op ∧ d = (rf.columnName sys, tableAt f.property) := by
  simp only [List.mem_flatten]
  constructor
  · rintro ⟨l, hm, hd⟩
    obtain ⟨f', hf', hx⟩ := (collect_spec h).2.1 l hm
    obtain ⟨f, hf, hk⟩ := hl.2 f' hf'
    exact ⟨f, hf, (decodeFilter_mem hk.akin hx d).mp hd⟩
  · rintro ⟨f, hf, hx⟩
    obtain ⟨f', hf', hk⟩ := hl.1 f hf
    obtain ⟨l, hm, he⟩ := (collect_spec h).1 f' hf'
    exact ⟨l, hm, (decodeFilter_mem hk.akin he d).mpr hx⟩

theorem linkedAll_append {fs gs : List (JFilter N)} {fs' gs' : List PropFilter} (h1 : LinkedAll E p kv fs fs') (h2 : LinkedAll E p kv gs gs') :
    LinkedAll E p kv (fs ++ gs) (fs' ++ gs') := by
  constructor
  · intro f hf
    rcases List.mem_append.mp hf with hf | hf
    · obtain ⟨f', a, b⟩ := h1.1 f hf; exact ⟨f', List.mem_append_left _ a, b⟩
    · obtain ⟨f', a, b⟩ := h2.1 f hf; exact ⟨f', List.mem_append_right _ a, b⟩
  · intro f hf
    rcases List.mem_append.mp hf with hf | hf
    · obtain ⟨f', a, b⟩ := h1.2 f hf; exact ⟨f', List.mem_append_left _ a, b⟩
    · obtain ⟨f', a, b⟩ := h2.2 f hf; exact ⟨f', List.mem_append_right _ a, b⟩

variable {r : JSearch N} {q : CSearch} {c : RecordsPlan}

theorem SearchWay.linked (w : SearchWay E sys fuel p kv tbl cur r q c) :
    LinkedAll E p kv (searchFilters r) ((q.events.getD []).flatMap (fun e => e.filters.getD []) ++ q.filters.getD []) := by
  refine linkedAll_append ⟨fun f hf => ?_, fun f' hf' => ?_⟩ w.filters
  · obtain ⟨e, he, hf⟩ := List.mem_flatMap.mp hf
    have hn : e.filters ≠ none := by intro h0; rw [h0] at hf; simp at hf
    obtain ⟨e', he', -, hl⟩ := w.events1 e he hn
    obtain ⟨f', hf', h⟩ := hl.1 f hf
    exact ⟨f', List.mem_flatMap.mpr ⟨e', he', hf'⟩, h⟩
  · obtain ⟨e', he', hf'⟩ := List.mem_flatMap.mp hf'
    obtain ⟨e, he, -, -, hl⟩ := w.events2 e' he'
    obtain ⟨f, hf, h⟩ := hl.2 f' hf'
    exact ⟨f, List.mem_flatMap.mpr ⟨e, he, hf⟩, h⟩

/-- What the plan is made of. -/
theorem searchPlan_parts {q : CSearch} {c : RecordsPlan} (h : searchPlan sys fuel p kv tbl cur q = .ok c) :
    ∃ found ds props, searchColumns sys p kv tbl q = .ok c.cols ∧ collect (findProp .plan p kv) (q.properties.getD []) = .ok found ∧
      collect (decodeFilter sys p kv) ((q.events.getD []).flatMap (fun e => e.filters.getD []) ++ q.filters.getD []) = .ok ds ∧
      eventsSearchFilter (mdOf sys p kv) fuel .ms p q.time cur q.events q.filters = .ok c.filter ∧
      eventProperties p kv (uniqueColumns sys [] found) = .ok props ∧
      namedColumns sys (eventColumns sys c.cols (uniqueColumns sys [] found)) props = .ok c.names ∧
      c.decoded = ds.flatten ∧ c.shown = eventColumns sys c.cols (uniqueColumns sys [] found) ∧ c.props = props ∧
      c.after = decodedAfter sys eventTable (c.decoded.map (·.1)) c.shown props := by
  unfold searchPlan at h
  obtain ⟨cols, h1, h⟩ := bind_ok h
  obtain ⟨found, h2, h⟩ := bind_ok h
  obtain ⟨ds, h3, h⟩ := bind_ok h
  obtain ⟨f, h4, h⟩ := bind_ok h
  obtain ⟨props, h5, h⟩ := bind_ok h
  obtain ⟨names, h6, h⟩ := bind_ok h
  cases h
  exact ⟨found, ds, props, h1, h2, h3, h4, h5, h6, rfl, rfl, rfl, rfl⟩

theorem SearchWay.decoded (w : SearchWay E sys fuel p kv tbl cur r q c) (d : Str × Str) :
    d ∈ c.decoded ↔ ∃ f ∈ searchFilters r, ∃ rf, PropertyAt p kv f.property rf ∧ rf.isDictionary = true ∧ Pattern f.op ∧
      d = (rf.columnName sys, tableAt f.property) := by
  obtain ⟨found, ds, props, -, -, h3, -, -, -, h7, -⟩ := searchPlan_parts w.plan
  rw [h7]
  exact decoded_of w.linked h3 d

/-! ## Rows -/

/-- Filters planned, of a row decoded. -/
theorem passes_linked (S : Sem) {all : List (JFilter N)} {ds : List (Str × Str)} (hds : ∀ d, d ∈ ds ↔ ∃ f ∈ all, ∃ rf, PropertyAt p kv f.property rf ∧
      rf.isDictionary = true ∧ Pattern f.op ∧ d = (rf.columnName sys, tableAt f.property)) (hd : Dictionaries p kv) (hc : Clear E sys p kv all)
    {row row' : QRow} (hrow : decodeRow p kv ds row = some row') (hst : StoredIn sys p kv row all) {fs : List (JFilter N)} {fs' : Option (List PropFilter)}
    (hall : ∀ f ∈ fs, f ∈ all) (hl : LinkedAll E p kv fs (fs'.getD [])) (j3 : ∀ f ∈ fs'.getD [], ∃ x, (mdOf sys p kv).filter f = .ok x) :
    PassesAll (mdOf sys p kv) S row' fs' ↔ ∀ f ∈ fs, Holds S E sys p kv row f := by
  have mean : ∀ f ∈ fs, ∀ f', Linked E p kv f f' → ∀ x, propertyExpression sys p kv f' = .ok x → (Selects S row' x ↔ Holds S E sys p kv row f) :=
    fun f hf f' hl x hx => filter_meaning_of S (fun d => (hds d).mp) hd hc hrow (hall f hf) hl hx
      (fun rp h1 h2 h3 => (hds _).mpr ⟨f, hall f hf, rp, h1, h2, h3, rfl⟩) (hst f (hall f hf))
  constructor
  · intro hpa f hf
    obtain ⟨f', hf', hk⟩ := hl.1 f hf
    cases hq : fs' with
    | none => rw [hq] at hf'; simp at hf'
    | some l =>
      rw [hq] at hf'
      obtain ⟨x, hx, hs⟩ := hpa l hq f' hf'
      exact (mean f hf f' hk x hx).mp hs
  · intro hh l hq f' hf'
    have hf'' : f' ∈ fs'.getD [] := by rw [hq]; exact hf'
    obtain ⟨f, hf, hk⟩ := hl.2 f' hf''
    obtain ⟨x, hx⟩ := j3 f' hf''
    exact ⟨x, hx, (mean f hf f' hk x hx).mpr (hh f hf)⟩

theorem fixed_of {all : List (JFilter N)} {ds : List (Str × Str)} (hds : ∀ d, d ∈ ds ↔ ∃ f ∈ all, ∃ rf, PropertyAt p kv f.property rf ∧
      rf.isDictionary = true ∧ Pattern f.op ∧ d = (rf.columnName sys, tableAt f.property)) (hc : Clear E sys p kv all)
    {row row' : QRow} (hrow : decodeRow p kv ds row = some row') : ∀ col ∈ ["project_id".toList, "created_at".toList, "event".toList], row' col = row col := by
  intro col hcol
  refine decodeRow_other hrow fun d hm hcd => ?_
  obtain ⟨g, hg, rg, a1, a2, a3, rfl⟩ := (hds d).mp hm
  apply hc.fixed g hg rg a1 a2 a3
  rw [show rg.columnName sys = col from hcd]
  exact hcol

theorem timeIn_range {t : JTime} (ht : TimeInRange t) :
    ∀ n, (timeIn t = .last n .month → -2147483648 ≤ n ∧ n < 2147483648) ∧ (timeIn t = .last n .year → -178956970 ≤ n ∧ n ≤ 178956970) := by
  intro n
  have := ht n
  constructor
  · intro e
    apply this.1
    cases t with
    | between a b => cases e
    | from_ a => cases e
    | last m u => cases u <;> simp [timeIn, unitIn] at e; rw [e]
  · intro e
    apply this.2
    cases t with
    | between a b => cases e
    | from_ a => cases e
    | last m u => cases u <;> simp [timeIn, unitIn] at e; rw [e]

/-- The row is of one of the events of the search, or of any if there are none. -/
def OfEvents (S : Sem) (E : ReqEnv N) (sys : Str → Str) (p : Nat) (kv : Kv) (row : QRow) : Option (List (JFEvent N)) → Prop
  | none => True
  | some evs => ∃ e ∈ evs, (∃ n, e.event = .regular n ∧ OfEvent p kv n row) ∧ ∀ f ∈ e.filters.getD [], Holds S E sys p kv row f

theorem search_rows (S : Sem) (hS : ∀ a b, S.lt (.ts a) (.ts b) = decide (a < b)) (hd : Dictionaries p kv)
    (hid : ∀ n ev, (eventsC p).getBy .name n kv = .ok ev → ev.id < 2 ^ 63) (hp : p < 2 ^ 63) (w : SearchWay E sys fuel p kv tbl cur r q c)
    (ht : TimeInRange r.time) (hc : Clear E sys p kv (searchFilters r))
    (he : ∀ e ∈ r.events.getD [], (∃ n, e.event = .regular n) ∧ e.filters ≠ none) :
    ∃ f t, Denotes (timeIn r.time) cur f t ∧
      ∀ row row', decodeRow p kv c.decoded row = some row' → (∀ x, row "created_at".toList = some x → ∃ v, x = .ts v) →
        (Owned p row → StoredIn sys p kv row (searchFilters r)) →
        (Selects S row' c.filter ↔ Owned p row ∧ During .ms f t row ∧ OfEvents S E sys p kv row r.events) := by
  obtain ⟨found, ds, props, -, -, -, h4, -⟩ := searchPlan_parts w.plan
  obtain ⟨te, f, t, t1, t2, t3⟩ := range_selects S hS .ms q.time cur (by rw [w.time]; exact timeIn_range ht)
  rw [w.time] at t2
  refine ⟨f, t, t2, fun row row' hrow hts hst => ?_⟩
  have hfix := fixed_of w.decoded hc hrow
  have hown : Owned p row' ↔ Owned p row := by unfold Owned; rw [hfix _ (by simp)]
  have hdur : During .ms f t row' ↔ During .ms f t row := by unfold During; rw [hfix _ (by simp)]
  have hbase : Selects S row' te ↔ During .ms f t row := by rw [t3 row' (by rw [hfix _ (by simp)]; exact hts), hdur]
  have hproj : Selects S row' (projectExpr p) ↔ Owned p row := by rw [project_selects hp, hown]
  unfold eventsSearchFilter at h4
  rw [t1] at h4
  dsimp only at h4
  cases hr : r.events with
  | none =>
    have hq : q.events = none := by
      have := w.there
      rw [hr] at this
      cases hq : q.events with
      | none => rfl
      | some l => rw [hq] at this; cases this
    rw [hq] at h4
    dsimp only at h4
    rw [multiAnd_selects h4]
    simp [hbase, hproj, OfEvents]
  | some evs =>
    have hne : evs ≠ [] := fun h0 => w.some_ (by rw [hr, h0])
    have e1 := w.events1
    have e2 := w.events2
    have e3 := w.there
    rw [hr] at e1 e2 e3 he
    cases hq : q.events with
    | none => rw [hq] at e3; cases e3
    | some l =>
      rw [hq] at e1 e2 h4
      simp only [Option.getD_some] at e1 e2 he
      have hlne : l ≠ [] := by
        cases evs with
        | nil => exact (hne rfl).elim
        | cons a evs =>
          obtain ⟨e', he', -⟩ := e1 a (by simp) (he a (by simp)).2
          intro h0
          rw [h0] at he'
          cases he'
      cases l with
      | nil => exact (hlne rfl).elim
      | cons l0 ls =>
        dsimp only at h4
        cases hco : collect (fun ev => withFilters (mdOf sys p kv) (eventExpression (mdOf sys p kv) fuel ev.event) (nonEmpty ev.filters)) (l0 :: ls) with
        | error x => rw [hco] at h4; cases h4
        | ok es =>
          rw [hco] at h4
          dsimp only at h4
          cases hmo : multiOr es with
          | error x => rw [hmo] at h4; cases h4
          | ok eo =>
            rw [hmo] at h4
            dsimp only at h4
            rw [multiAnd_selects h4]
            simp only [List.mem_cons, List.not_mem_nil, or_false, forall_eq_or_imp, forall_eq, hbase, hproj]
            refine and_congr_right fun ho => and_congr_right fun _ => ?_
            rw [multiOr_selects hmo]
            have one : ∀ e ∈ evs, ∀ e' ∈ l0 :: ls, e'.event = eventIn e.event → LinkedAll E p kv (e.filters.getD []) (e'.filters.getD []) → ∀ x,
                withFilters (mdOf sys p kv) (eventExpression (mdOf sys p kv) fuel e'.event) (nonEmpty e'.filters) = .ok x →
                (Selects S row' x ↔ (∃ n, e.event = .regular n ∧ OfEvent p kv n row) ∧ ∀ f ∈ e.filters.getD [], Holds S E sys p kv row f) := by
              intro e hem e' hem' hev hl x hx
              obtain ⟨n, hn⟩ := (he e hem).1
              rw [hev, hn] at hx
              cases hee : eventExpression (mdOf sys p kv) fuel (eventIn (.regular n)) with
              | error y => rw [hee] at hx; cases hx
              | ok ee =>
                rw [hee] at hx
                obtain ⟨x0, m1, m2⟩ := withFilters_selects (S := S) (row := row') hx
                cases m1
                have o1 := withFilters_ok hx
                have hne2 : (nonEmpty e'.filters).getD [] = e'.filters.getD [] := by
                  cases hf : e'.filters with
                  | none => rfl
                  | some l => cases l <;> rfl
                rw [m2, passes_linked S w.decoded hd hc hrow (hst ho) (fs := e.filters.getD [])
                  (fun f hf => List.mem_append_left _ (List.mem_flatMap.mpr ⟨e, by rw [hr]; exact hem, hf⟩)) (by rw [hne2]; exact hl) o1,
                  named_selects S hid (hfix _ (by simp)) hee]
                simp [hn]
            unfold OfEvents
            constructor
            · rintro ⟨x, hx, hs⟩
              obtain ⟨e', he', hx'⟩ := (collect_spec hco).2.1 x hx
              obtain ⟨e, hem, -, hev, hl⟩ := e2 e' he'
              exact ⟨e, hem, (one e hem e' he' hev hl x hx').mp hs⟩
            · rintro ⟨e, hem, hh⟩
              obtain ⟨e', he', hev, hl⟩ := e1 e hem (he e hem).2
              obtain ⟨x, hx, hx'⟩ := (collect_spec hco).1 e' he'
              exact ⟨x, hx, (one e hem e' he' hev hl x hx').mpr hh⟩

end OptiPrism.Platform
