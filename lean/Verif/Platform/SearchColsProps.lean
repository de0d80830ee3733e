import Verif.Platform.EventSearchProps

/-!
# C134: the columns a search for events reads
-/

namespace OptiPrism.Platform

open OptiPrism.Meta (Str PropOp PropertyRef EventRef Scalar PropFilter Kv Property PropType Event propsC customC eventsC kEvents)
open OptiPrism.Query
open OptiPrism.Ingest (groupCol)

variable {N : Type} {E : ReqEnv N} {sys : Str → Str} {p : Nat} {kv : Kv} {tbl : List Str} {fuel : Nat} {cur : Int}

/-! ## Spec -/

/-- The columns every search for events is about. -/
def searchReads : List Str := ["project_id".toList, "event".toList, "created_at".toList, "event_id".toList]

/-- The table has these columns and those of all properties. -/
def Wide (sys : Str → Str) (p : Nat) (kv : Kv) (tbl : List Str) : Prop := (∀ x ∈ searchReads, x ∈ tbl) ∧ ∀ ref x, ColumnAt sys p kv ref x → x ∈ tbl

/-- **C134.** A search for events that is planned reads every column that its filter names, that is shown, or that is decoded. -/
def C134_full (N : Type) : Prop :=
  ∀ (E : ReqEnv N) (sys : Str → Str) (fuel p : Nat) (kv : Kv) (tbl : List Str) (cur : Int) (r : JSearch N) (c : RecordsPlan), Wide sys p kv tbl →
    search E sys fuel p kv tbl cur r = .ok c → ∀ x ∈ exprUses c.filter ++ c.shown ++ c.decoded.map (·.1), x ∈ c.cols

/-! ## Proofs -/

theorem time_uses {u : TsUnit} {q : QueryTime} {te : Expr} (ht : timeExpression kCreatedCol u q cur = .ok te) {x : Str} (hx : x ∈ exprUses te) :
    x = "created_at".toList := by
  unfold timeExpression at ht
  split at ht
  · cases ht
  · cases ht
    simpa [exprUses, kCreatedCol_eq] using hx

theorem regular_uses {n : Str} {ee : Expr} (hee : eventExpression (mdOf sys p kv) fuel (.regularName n) = .ok ee) {x : Str} (hx : x ∈ exprUses ee) :
    x = "event".toList := by
  unfold eventExpression at hee
  split at hee
  · cases hee
  · dsimp only at hee
    split at hee
    · cases hee
    · cases hee
      simpa [exprUses, kEventCol_eq] using hx

theorem linked_uses {f : JFilter N} {f' : PropFilter} (hl : Linked E p kv f f') {ef : Expr} (hef : propertyExpression sys p kv f' = .ok ef) {x : Str}
    (hx : x ∈ exprUses ef) : ColumnAt sys p kv f.property x := by
  obtain ⟨rp, g1, g2⟩ := bind_ok hef
  rw [hl.property] at g1
  exact ⟨rp, findProp_at g1, prop_uses g2 hx⟩

/-- What the filter of a search is about. -/
theorem search_uses {r : JSearch N} {q : CSearch} {c : RecordsPlan} (w : SearchWay E sys fuel p kv tbl cur r q c)
    (he : ∀ e ∈ r.events.getD [], e.filters ≠ none → ∃ n, e.event = .regular n) {x : Str} (hx : x ∈ exprUses c.filter) :
    x ∈ searchReads ∨ ∃ e ∈ r.events.getD [], ∃ f ∈ e.filters.getD [], ColumnAt sys p kv f.property x := by
  obtain ⟨found, ds, props, -, -, -, h4, -⟩ := searchPlan_parts w.plan
  unfold eventsSearchFilter at h4
  cases ht : timeExpression kCreatedCol .ms q.time cur with
  | error y => rw [ht] at h4; cases h4
  | ok te =>
    rw [ht] at h4
    dsimp only at h4
    have base : ∀ y ∈ [projectExpr p, te], x ∈ exprUses y → x ∈ searchReads := by
      intro y hy hx
      simp only [List.mem_cons, List.not_mem_nil, or_false] at hy
      rcases hy with rfl | rfl
      · simp only [exprUses, projectExpr, List.mem_singleton, kProjectCol_eq] at hx
        simp [searchReads, hx]
      · rw [time_uses ht hx]; simp [searchReads]
    split at h4
    · obtain ⟨y, hy, hx⟩ := multiAnd_uses h4 hx
      exact .inl (base y hy hx)
    · obtain ⟨y, hy, hx⟩ := multiAnd_uses h4 hx
      exact .inl (base y hy hx)
    · rename_i evs _ hq
      cases hco : collect (fun ev => withFilters (mdOf sys p kv) (eventExpression (mdOf sys p kv) fuel ev.event) (nonEmpty ev.filters)) evs with
      | error x => rw [hco] at h4; cases h4
      | ok es =>
        rw [hco] at h4
        dsimp only at h4
        cases hmo : multiOr es with
        | error x => rw [hmo] at h4; cases h4
        | ok eo =>
          rw [hmo] at h4
          obtain ⟨y, hy, hx⟩ := multiAnd_uses h4 hx
          rcases List.mem_cons.mp hy with rfl | hy
          · exact .inl (base _ (by simp) hx)
          rcases List.mem_cons.mp hy with rfl | hy
          · exact .inl (base _ (by simp) hx)
          simp only [List.mem_singleton] at hy
          subst hy
          obtain ⟨z, hz, hx⟩ := multiOr_uses hmo hx
          obtain ⟨e', he', hz⟩ := (collect_spec hco).2.1 z hz
          obtain ⟨e, hem, hn, hev, hl⟩ := w.events2 e' (by rw [hq]; exact he')
          obtain ⟨n, hn⟩ := he e hem hn
          obtain ⟨e1, w1, u1⟩ := withFilters_uses hz
          rw [hev, hn] at w1
          rcases u1 x hx with hx | ⟨f', hf', ef, hef, hx⟩
          · rw [regular_uses w1 hx]
            simp [searchReads]
          · have hf' : f' ∈ e'.filters.getD [] := by
              cases hf : e'.filters with
              | none => rw [hf] at hf'; cases hf'
              | some l =>
                rw [hf] at hf'
                cases l with
                | nil => cases hf'
                | cons a l => exact hf'
            obtain ⟨f, hf, hl⟩ := hl.2 f' hf'
            exact .inr ⟨e, hem, f, hf, linked_uses hl hef hx⟩

/-- What is read where properties are asked for. -/
theorem search_reads {r : JSearch N} {q : CSearch} {c : RecordsPlan} (w : SearchWay E sys fuel p kv tbl cur r q c) {refs : List JPropertyRef}
    (hr : r.properties = some refs) (hne : refs ≠ []) :
    (∀ x, x ∈ c.cols ↔ x ∈ searchReads ∨ (∃ f ∈ firstGroup r.filters, ColumnAt sys p kv f.property x) ∨ ∃ ref ∈ refs, ColumnAt sys p kv ref x) ∧
      ∀ x ∈ c.cols, x ∈ tbl := by
  obtain ⟨found, ds, props, h1, -⟩ := searchPlan_parts w.plan
  have hq : q.properties = some (refs.map propIn) := by
    rw [w.properties, hr]
    cases refs with
    | nil => exact (hne rfl).elim
    | cons a l => rfl
  unfold searchColumns at h1
  rw [hq] at h1
  obtain ⟨cs, h5, h2⟩ := bind_ok h1
  unfold scan at h2
  split at h2
  · rename_i hall
    have e := Except.ok.inj h2
    simp only [List.all_eq_true, List.contains_iff_mem] at hall
    have hin : ∀ x, x ∈ [kProjectCol, kEventCol, kCreatedCol, kEventIdCol] ++ cs ↔
        x ∈ searchReads ∨ (∃ f ∈ firstGroup r.filters, ColumnAt sys p kv f.property x) ∨ ∃ ref ∈ refs, ColumnAt sys p kv ref x := by
      intro x
      rw [List.mem_append, kProjectCol_eq, kCreatedCol_eq, kEventCol_eq, kEventIdCol_eq]
      refine or_congr Iff.rfl ⟨fun hx => ?_, ?_⟩
      · obtain ⟨y, hy, hc⟩ := (collect_spec h5).2.1 x hx
        rcases List.mem_append.mp hy with hy | hy
        · obtain ⟨f', hf', rfl⟩ := List.mem_map.mp hy
          obtain ⟨f, hf, hl⟩ := w.filters.2 f' hf'
          rw [hl.property] at hc
          exact .inl ⟨f, hf, colName_at hc⟩
        · obtain ⟨ref, hm, rfl⟩ := List.mem_map.mp hy
          exact .inr ⟨ref, hm, colName_at hc⟩
      · rintro (⟨f, hf, hx⟩ | ⟨ref, hm, hx⟩)
        · obtain ⟨f', hf', hl⟩ := w.filters.1 f hf
          obtain ⟨y, hy, hc⟩ := (collect_spec h5).1 (propIn f.property) (List.mem_append_left _ (List.mem_map.mpr ⟨f', hf', hl.property⟩))
          rw [columnAt_unique (colName_at hc) hx]
          exact hy
        · obtain ⟨y, hy, hc⟩ := (collect_spec h5).1 (propIn ref) (List.mem_append_right _ (List.mem_map.mpr ⟨ref, hm, rfl⟩))
          rw [columnAt_unique (colName_at hc) hx]
          exact hy
    refine ⟨fun x => ?_, fun x hx => ?_⟩
    · rw [← hin x, ← e, List.mem_filter, List.contains_iff_mem]
      exact ⟨fun h => h.2, fun h => ⟨hall x h, h⟩⟩
    · rw [← e] at hx
      exact (List.mem_filter.mp hx).1
  · cases h2

/-- **C134 (part).** All columns are read where no properties are asked for. Otherwise those of the properties asked for and of the
filters of the request are, but not those of the filters of its events: the claim holds where these are among them and there are no custom
events. Missing: the rest. -/
theorem C134_partial {r : JSearch N} {c : RecordsPlan} (hw : Wide sys p kv tbl) (h : search E sys fuel p kv tbl cur r = .ok c)
    (he : ∀ e ∈ r.events.getD [], e.filters ≠ none → ∃ n, e.event = .regular n) :
    (∀ x ∈ c.cols, x ∈ tbl) ∧ (∀ x ∈ c.shown, x ∈ c.cols) ∧ ((∀ l, r.properties = some l → l = []) → c.cols = tbl) ∧
    (∀ refs, r.properties = some refs → refs ≠ [] → ∀ x, x ∈ c.cols ↔
      x ∈ searchReads ∨ (∃ f ∈ firstGroup r.filters, ColumnAt sys p kv f.property x) ∨ ∃ ref ∈ refs, ColumnAt sys p kv ref x) ∧
    ((∀ a l, r.properties = some (a :: l) → ∀ e ∈ r.events.getD [], ∀ f ∈ e.filters.getD [], f.property ∈ a :: l ∨ ∃ g ∈ firstGroup r.filters, g.property = f.property) →
      ∀ x ∈ exprUses c.filter ++ c.shown ++ c.decoded.map (·.1), x ∈ c.cols) := by
  obtain ⟨q, w⟩ := search_way h
  have hall : (∀ l, r.properties = some l → l = []) → c.cols = tbl ∧ c.shown = tbl := by
    intro hr
    obtain ⟨hs, -⟩ := C133_all exSem h id [] hr
    obtain ⟨found, ds, props, h1, -⟩ := searchPlan_parts w.plan
    have hq : q.properties = none := by
      rw [w.properties]
      cases hp : r.properties with
      | none => rfl
      | some l => rw [hr l hp]; rfl
    unfold searchColumns at h1
    rw [hq] at h1
    exact ⟨(Except.ok.inj h1).symm, hs⟩
  have hshown : ∀ refs, r.properties = some refs → refs ≠ [] → ∀ x ∈ c.shown, x ∈ c.cols := by
    intro refs hr hne x hx
    obtain ⟨hc, -⟩ := search_reads w hr hne
    obtain ⟨found, g1, g2, g3, -⟩ := search_props w hr hne
    have hprop : x ∈ c.props.map (fun r => r.columnName sys) → x ∈ c.cols := by
      intro hx
      obtain ⟨rp, hp, rfl⟩ := List.mem_map.mp hx
      rw [g2] at hp
      obtain ⟨pr, hm', hx'⟩ := (collect_spec g1).2.1 rp ((uniqueColumns_spec [] found).2.1 rp hp).1
      obtain ⟨ref, hm'', rfl⟩ := List.mem_map.mp hm'
      exact (hc _).mpr (.inr (.inr ⟨ref, hm'', rp, findProp_at hx', rfl⟩))
    rw [g3] at hx
    split at hx
    · exact hprop hx
    · rcases List.mem_cons.mp hx with rfl | hx
      · exact (hc _).mpr (.inl (by rw [kEventIdCol_eq]; simp [searchReads]))
      · exact hprop hx
  have hdec : ∀ x ∈ c.decoded.map (·.1), ∃ f ∈ searchFilters r, ColumnAt sys p kv f.property x := by
    intro x hx
    obtain ⟨d, hd, rfl⟩ := List.mem_map.mp hx
    obtain ⟨f, hf, rf, a1, -, -, rfl⟩ := (w.decoded d).mp hd
    exact ⟨f, hf, rf, a1, rfl⟩
  have cases_ : (∀ l, r.properties = some l → l = []) ∨ ∃ a l, r.properties = some (a :: l) := by
    cases hp : r.properties with
    | none => exact .inl fun l hl => by cases hl
    | some l =>
      cases l with
      | nil => exact .inl fun l hl => by cases hl; rfl
      | cons a l => exact .inr ⟨a, l, rfl⟩
  refine ⟨?_, ?_, fun hr => (hall hr).1, fun refs hr hne => (search_reads w hr hne).1, fun hin x hx => ?_⟩
  · rcases cases_ with hr | ⟨a, l, hr⟩
    · rw [(hall hr).1]; exact fun x hx => hx
    · exact (search_reads w hr (by simp)).2
  · rcases cases_ with hr | ⟨a, l, hr⟩
    · rw [(hall hr).1, (hall hr).2]; exact fun x hx => hx
    · exact hshown _ hr (by simp)
  · rcases cases_ with hr | ⟨a, l, hr⟩
    · rw [(hall hr).1]
      simp only [List.mem_append] at hx
      rcases hx with (hx | hx) | hx
      · rcases search_uses w he hx with hx | ⟨e, _, f, _, hx⟩
        · exact hw.1 x hx
        · exact hw.2 _ x hx
      · rw [(hall hr).2] at hx; exact hx
      · obtain ⟨f, _, hx⟩ := hdec x hx
        exact hw.2 _ x hx
    · obtain ⟨hc, -⟩ := search_reads w hr (by simp)
      have hev : ∀ e ∈ r.events.getD [], ∀ f ∈ e.filters.getD [], ColumnAt sys p kv f.property x → x ∈ c.cols := by
        intro e hem f hf hx
        rcases hin a l hr e hem f hf with hm | ⟨g, hg, e⟩
        · exact (hc x).mpr (.inr (.inr ⟨_, hm, hx⟩))
        · exact (hc x).mpr (.inr (.inl ⟨g, hg, by rw [e]; exact hx⟩))
      simp only [List.mem_append] at hx
      rcases hx with (hx | hx) | hx
      · rcases search_uses w he hx with hx | ⟨e, hem, f, hf, hx⟩
        · exact (hc x).mpr (.inl hx)
        · exact hev e hem f hf hx
      · exact hshown _ hr (by simp) x hx
      · obtain ⟨f, hf, hx⟩ := hdec x hx
        rcases List.mem_append.mp hf with hf | hf
        · obtain ⟨e, hem, hf⟩ := List.mem_flatMap.mp hf
          exact hev e hem f hf hx
        · exact (hc x).mpr (.inr (.inl ⟨f, hf, hx⟩))

/-! ## Cases -/

theorem records_wide : Wide id 1 recordsKv recordsCols := by
  refine ⟨by decide +kernel, ?_⟩
  rintro ref x ⟨r, hr, rfl⟩
  rcases records_prop hr with ⟨rfl, rfl⟩ | ⟨rfl, rfl⟩ | ⟨rfl, rfl⟩ <;> decide +kernel

/-- The hypotheses hold of the example request: its filter is about the city, which is shown. -/
example : Wide id 1 recordsKv recordsCols ∧ (∀ e ∈ recordsReq.events.getD [], e.filters ≠ none → ∃ n, e.event = .regular n) ∧
    (∀ a l, recordsReq.properties = some (a :: l) → ∀ e ∈ recordsReq.events.getD [], ∀ f ∈ e.filters.getD [], f.property ∈ a :: l) := by
  refine ⟨records_wide, by simp [recordsReq], fun a l h => ?_⟩
  cases h
  simp [recordsReq]

example : (search exReqEnv id 1 1 recordsKv recordsCols 0 recordsReq).toOption.map (fun c => (c.cols, exprUses c.filter)) =
    some (["project_id", "created_at", "event", "e_str_0", "e_ts_0", "event_id"].map String.toList,
      ["project_id", "created_at", "created_at", "event", "e_str_0"].map String.toList) := by decide +kernel

/-- **C134 is violated**: the purchases made in Rome, by number: the city is not read. -/
theorem C134_violated : ¬ C134_full Int := by
  intro h
  have hok : (search exReqEnv id 1 1 recordsKv recordsCols 0 { recordsReq with properties := some [.event "event_id".toList] }).toOption.map
      (fun c => (decide ("e_str_0".toList ∈ exprUses c.filter), decide ("e_str_0".toList ∈ c.cols))) = some (true, false) := by decide +kernel
  cases hs : search exReqEnv id 1 1 recordsKv recordsCols 0 { recordsReq with properties := some [.event "event_id".toList] } with
  | error e => rw [hs] at hok; cases hok
  | ok c =>
    rw [hs] at hok
    simp only [Except.toOption, Option.map_some, Option.some.injEq, Prod.mk.injEq, decide_eq_true_eq, decide_eq_false_iff_not] at hok
    exact hok.2 (h exReqEnv id 1 1 recordsKv recordsCols 0 _ c records_wide hs _ (List.mem_append_left _ (List.mem_append_left _ hok.1)))

end OptiPrism.Platform
