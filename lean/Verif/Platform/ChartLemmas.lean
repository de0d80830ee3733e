import Verif.Platform.Chart
import Verif.Platform.RequestLemmas
import Verif.Meta.SystemReach

/-!
# Lemmas about planning a chart
-/

namespace OptiPrism.Platform

open OptiPrism.Meta (Str PropOp PropertyRef EventRef Scalar PropFilter Kv Property PropType Event propsC customC eventsC kEvents Coll getBy_eq getById_eq
  dictGetKey mapM_isSome Ix)
open OptiPrism.Query
open OptiPrism.Ingest (groupCol)

variable {N : Type}

/-! ## Not a panic -/

/-- Done or refused. -/
def Fine {α : Type} (x : Except QErr α) : Prop := ∀ e, x = .error e → e ≠ .panic ∧ e ≠ .store .panic

theorem Fine.ok {α : Type} (a : α) : Fine (.ok a) := fun _ h => nomatch h

theorem Fine.pure {α : Type} (a : α) : Fine (Pure.pure a : Except QErr α) := Fine.ok a

theorem Fine.plan {α : Type} : Fine (.error .plan : Except QErr α) := fun e h => by
  injection h with h; subst h; exact ⟨by simp, by simp⟩

theorem Fine.bind {α β : Type} {x : Except QErr α} {f : α → Except QErr β} (h : Fine x) (hf : ∀ a, x = .ok a → Fine (f a)) : Fine (x >>= f) := by
  cases x with
  | error e => exact fun e' he => h e' (by simpa [Bind.bind, Except.bind] using he)
  | ok a => exact hf a rfl

theorem bind_ok {α β : Type} {x : Except QErr α} {f : α → Except QErr β} {b : β} (h : (x >>= f) = .ok b) : ∃ a, x = .ok a ∧ f a = .ok b := by
  cases x with
  | error e => simp [Bind.bind, Except.bind] at h
  | ok a => exact ⟨a, rfl, h⟩

theorem Fine.collect {α β : Type} {f : α → Except QErr β} {l : List α} (h : ∀ a ∈ l, Fine (f a)) : Fine (collect f l) := by
  induction l with
  | nil => exact Fine.ok _
  | cons a l ih =>
    have ha := h a (by simp)
    have hl := ih fun b hb => h b (by simp [hb])
    unfold Query.collect
    cases hx : f a with
    | error e => rw [hx] at ha; exact fun e' he => ha e' (by simpa using he)
    | ok b =>
      cases hy : Query.collect f l with
      | error e => rw [hy] at hl; exact fun e' he => hl e' (by simpa using he)
      | ok bs => exact Fine.ok _

theorem collect_spec {α β : Type} {f : α → Except QErr β} {l : List α} {bs : List β} (h : collect f l = .ok bs) :
    (∀ a ∈ l, ∃ b ∈ bs, f a = .ok b) ∧ (∀ b ∈ bs, ∃ a ∈ l, f a = .ok b) ∧ bs.length = l.length := by
  induction l generalizing bs with
  | nil => cases h; simp
  | cons a l ih =>
    unfold collect at h
    cases hx : f a with
    | error e => rw [hx] at h; cases h
    | ok b =>
      rw [hx] at h
      cases hy : collect f l with
      | error e => rw [hy] at h; cases h
      | ok bs' =>
        rw [hy] at h
        cases h
        obtain ⟨h1, h2, h3⟩ := ih hy
        refine ⟨fun x hx' => ?_, fun y hy' => ?_, by simp [h3]⟩
        · rcases List.mem_cons.mp hx' with rfl | h
          · exact ⟨b, by simp, hx⟩
          · obtain ⟨y, m, e⟩ := h1 x h; exact ⟨y, by simp [m], e⟩
        · rcases List.mem_cons.mp hy' with rfl | h
          · exact ⟨a, by simp, hx⟩
          · obtain ⟨x, m, e⟩ := h2 y h; exact ⟨x, by simp [m], e⟩

theorem Fine.each {α : Type} {f : α → Except QErr Unit} {l : List α} (h : ∀ a ∈ l, Fine (f a)) : Fine (each f l) := by
  induction l with
  | nil => exact Fine.ok _
  | cons a l ih => exact (h a (by simp)).bind fun _ _ => ih fun b hb => h b (by simp [hb])

theorem each_ok {α : Type} {f : α → Except QErr Unit} {l : List α} (h : each f l = .ok ()) : ∀ a ∈ l, f a = .ok () := by
  induction l with
  | nil => simp
  | cons a l ih =>
    obtain ⟨u, h1, h2⟩ := bind_ok h
    intro b hb
    rcases List.mem_cons.mp hb with rfl | hb
    · exact h1
    · exact ih h2 b hb

theorem Fine.require (b : Bool) : Fine (require b) := by
  unfold Platform.require
  split
  · exact Fine.ok _
  · exact Fine.plan

theorem require_ok {b : Bool} (h : require b = .ok ()) : b = true := by
  unfold require at h
  split at h
  · assumption
  · cases h

theorem Fine.refused {α : Type} {x : Except QErr α} (h : x ≠ .error .panic) : Fine (refused x) := by
  cases x with
  | ok a => exact Fine.ok a
  | error e =>
    cases e with
    | plan => exact Fine.plan
    | store e => exact Fine.plan
    | panic => exact absurd rfl h

theorem refused_ok {α : Type} {x : Except QErr α} {a : α} (h : refused x = .ok a) : x = .ok a := by
  cases x with
  | ok a => exact h
  | error e => cases e <;> cases h

/-! ## What the state must give -/

/-- The table of the dictionaries of the properties of a kind. -/
def tableOf : PropType → Str
  | .event => kEvents
  | .group g => groupCol g

/-- The state a chart is computed in: the collections are consistent, the numbers kept in dictionaries can be read, and the
properties have their columns. Every history of requests leads to one (`Life.served`). -/
structure Served (sys : Str → Str) (p : Nat) (kv : Kv) (tbl : List Str) : Prop where
  props : ∀ ty, (propsC p ty).Inv Property.Valid kv
  events : (eventsC p).Inv Event.Valid kv
  dicts : ∀ ty id r v, (propsC p ty).live kv id = some r → dictGetKey p (tableOf ty) (r.columnName sys) v kv ≠ .error .panic
  cols : ∀ ty id r, (propsC p ty).live kv id = some r → r.columnName sys ∈ tbl
  fixed : kProjectCol ∈ tbl ∧ kCreatedCol ∈ tbl ∧ kEventCol ∈ tbl ∧ ∀ g, g < groupsCount → groupCol g ∈ tbl

variable {sys : Str → Str} {p : Nat} {kv : Kv} {tbl : List Str}

/-- A reference to an existing kind of property. -/
def SaneRef : PropertyRef → Prop
  | .group _ g => g < groupsCount
  | .event _ => True
  | .custom _ => False

theorem name_ix (ty : PropType) : (Ix.name, fun r : Property => some r.name) ∈ (propsC p ty).ixs := by simp [propsC]

theorem getBy_fine (h : Served sys p kv tbl) (ty : PropType) (n : Str) : Fine (ofStore ((propsC p ty).getBy .name n kv)) := by
  rcases (getBy_eq (h.props ty) (name_ix ty) n _).mp rfl with ⟨id, r, -, -, e⟩ | ⟨-, e⟩
  · rw [e]; exact Fine.ok _
  · rw [e]
    intro e' he
    injection he with he
    subst he
    simp

theorem getBy_live (h : Served sys p kv tbl) {ty : PropType} {n : Str} {r : Property} (hr : ofStore ((propsC p ty).getBy .name n kv) = .ok r) :
    ∃ id, (propsC p ty).live kv id = some r ∧ r.name = n := by
  rcases (getBy_eq (h.props ty) (name_ix ty) n _).mp rfl with ⟨id, r', h1, h2, e⟩ | ⟨-, e⟩
  · rw [e] at hr
    injection hr with hr
    subst hr
    exact ⟨id, h1, by simpa using h2⟩
  · rw [e] at hr; cases hr

theorem findProp_fine (h : Served sys p kv tbl) {c : QErr} {ref : PropertyRef} (hr : SaneRef ref ∨ (c = .plan ∧ ∀ n g, ref = .group n g → g < groupsCount)) :
    Fine (findProp c p kv ref) := by
  cases ref with
  | group n g =>
    have hg : g < groupsCount := by
      rcases hr with h | ⟨-, h⟩
      · exact h
      · exact h n g rfl
    simp only [findProp, if_pos hg]
    exact getBy_fine h _ n
  | event n => exact getBy_fine h _ n
  | custom id =>
    rcases hr with h | ⟨rfl, -⟩
    · exact h.elim
    · exact Fine.plan

/-- The kind of the property referred to. -/
def kindOf : PropertyRef → PropType
  | .group _ g => .group g
  | _ => .event

theorem findProp_ok {c : QErr} {ref : PropertyRef} {r : Property} (hr : findProp c p kv ref = .ok r) :
    SaneRef ref ∧ (∀ c', findProp c' p kv ref = .ok r) := by
  cases ref with
  | group n g =>
    unfold findProp at hr ⊢
    by_cases hg : g < groupsCount
    · exact ⟨hg, fun _ => by simpa [hg] using hr⟩
    · simp [hg] at hr
  | event n => exact ⟨trivial, fun _ => hr⟩
  | custom id => cases hr

theorem findProp_live (h : Served sys p kv tbl) {c : QErr} {ref : PropertyRef} {r : Property} (hr : findProp c p kv ref = .ok r) :
    ∃ id, (propsC p (kindOf ref)).live kv id = some r := by
  cases ref with
  | group n g =>
    unfold findProp at hr
    by_cases hg : g < groupsCount
    · simp only [hg, if_true] at hr
      obtain ⟨id, h1, -⟩ := getBy_live h hr
      exact ⟨id, h1⟩
    · simp [hg] at hr
  | event n =>
    obtain ⟨id, h1, -⟩ := getBy_live h hr
    exact ⟨id, h1⟩
  | custom id => cases hr

theorem dictTable_kind {ref : PropertyRef} : dictTable ref = tableOf (kindOf ref) := by cases ref <;> rfl

/-! ## Planning -/

/-- The operators that compare with values. -/
def takesValues : PropOp → Bool
  | .true | .false | .exists | .empty => false
  | _ => true

theorem multiOr_fine {l : List Expr} (h : l ≠ []) : Fine (multiOr l) := by
  cases l with
  | nil => exact absurd rfl h
  | cons a l => cases l <;> exact Fine.ok _

theorem multiAnd_fine {l : List Expr} (h : l ≠ []) : Fine (multiAnd l) := by
  cases l with
  | nil => exact absurd rfl h
  | cons a l => cases l <;> exact Fine.ok _

theorem named_fine {col : Str} {op : PropOp} {vs : List (Option Cell)} (h : takesValues op = true → vs ≠ []) :
    Fine (namedPropertyExpression col op (some vs)) := by
  have key : vs ≠ [] → ∀ o : Op, Fine (match some vs with
      | none => .error .plan
      | some [v] => .ok (.bin o col v)
      | some vs => multiOr (vs.map (.bin o col)) : Except QErr Expr) := by
    intro hv o
    cases vs with
    | nil => exact absurd rfl hv
    | cons a l =>
      cases l with
      | nil => exact Fine.ok _
      | cons b l => exact multiOr_fine (by simp)
  cases op <;> first
    | exact Fine.ok _
    | exact key (h rfl) _

theorem encode_fine {t d : Str} {dt : Meta.DictType} (hd : ∀ v, dictGetKey p t d v kv ≠ .error .panic) (vs : List (Option Cell)) :
    Fine (encodeDictValues p t d dt kv vs) ∧ ∀ l, encodeDictValues p t d dt kv vs = .ok l → l.length = vs.length := by
  induction vs with
  | nil => exact ⟨Fine.ok _, fun l h => by cases h; rfl⟩
  | cons v vs ih =>
    obtain ⟨ih1, ih2⟩ := ih
    cases v with
    | none =>
      simp only [encodeDictValues]
      cases hx : encodeDictValues p t d dt kv vs with
      | error e => rw [hx] at ih1; exact ⟨fun e' he => ih1 e' (by simpa using he), fun l h => nomatch h⟩
      | ok l => exact ⟨Fine.ok _, fun l' h => by cases h; simp [ih2 l hx]⟩
    | some c =>
      cases c with
      | str s =>
        simp only [encodeDictValues]
        cases hk : dictGetKey p t d s kv with
        | error e =>
          refine ⟨fun e' he => ?_, fun l h => nomatch h⟩
          injection he with he
          subst he
          refine ⟨by simp, fun h => ?_⟩
          injection h with h
          subst h
          exact hd s hk
        | ok k =>
          cases hx : encodeDictValues p t d dt kv vs with
          | error e => rw [hx] at ih1; exact ⟨fun e' he => ih1 e' (by simpa using he), fun l h => nomatch h⟩
          | ok l => exact ⟨Fine.ok _, fun l' h => by cases h; simp [ih2 l hx]⟩
      | _ => exact ⟨Fine.plan, fun l h => nomatch h⟩

theorem propExpression_fine {t : Str} {r : Property} (hd : ∀ v, dictGetKey p t (r.columnName sys) v kv ≠ .error .panic) {op : PropOp} {vs : List (Option Cell)}
    (h : takesValues op = true → vs ≠ []) : Fine (propExpression sys p t r kv op (some vs)) := by
  have key : Fine (match r.dictType with
      | some dt => match encodeDictValues p t (r.columnName sys) dt kv vs with
        | .error e => .error e
        | .ok vs => namedPropertyExpression (r.columnName sys) op (some vs)
      | none => namedPropertyExpression (r.columnName sys) op (some vs)) := by
    cases r.dictType with
    | none => exact named_fine h
    | some dt =>
      obtain ⟨h1, h2⟩ := encode_fine (dt := dt) hd vs
      dsimp only
      cases hx : encodeDictValues p t (r.columnName sys) dt kv vs with
      | error e => rw [hx] at h1; exact fun e' he => h1 e' (by simpa using he)
      | ok l =>
        refine named_fine fun ht hl => h ht ?_
        have := h2 l hx
        rw [hl] at this
        exact List.length_eq_zero_iff.mp this.symm
  cases op <;> first
    | exact named_fine h
    | exact key

/-- A filter as planning needs it. -/
structure SaneFilter (f : PropFilter) : Prop where
  ref : SaneRef f.property
  vals : ∀ vs, f.value = some vs → takesValues f.op = true → vs ≠ []

theorem propertyExpression_fine (h : Served sys p kv tbl) {f : PropFilter} (hf : SaneFilter f) : Fine (propertyExpression sys p kv f) := by
  unfold propertyExpression
  refine (findProp_fine h (.inl hf.ref)).bind fun r hr => ?_
  obtain ⟨id, hl⟩ := findProp_live h hr
  cases hv : f.value with
  | none => cases f.op <;> first | exact Fine.plan | exact Fine.ok _
  | some vs =>
    refine propExpression_fine (fun v => ?_) fun ht he => hf.vals vs hv ht (by simpa using he)
    rw [dictTable_kind]
    exact h.dicts _ id r v hl

theorem withFilters_fine (h : Served sys p kv tbl) {x : Except QErr Expr} (hx : Fine x) {fs : Option (List PropFilter)}
    (hf : ∀ l, fs = some l → l ≠ [] ∧ ∀ f ∈ l, SaneFilter f) : Fine (withFilters (mdOf sys p kv) x fs) := by
  unfold withFilters
  cases x with
  | error e => exact fun e' he => hx e' (by simpa using he)
  | ok e =>
    cases fs with
    | none => exact Fine.ok _
    | some l =>
      obtain ⟨hne, hl⟩ := hf l rfl
      have hc : Fine (collect (mdOf sys p kv).filter l) := Fine.collect fun f hm => propertyExpression_fine h (hl f hm)
      have he : Fine (eventFiltersExpression (mdOf sys p kv) l) := by
        unfold eventFiltersExpression
        cases hy : collect (mdOf sys p kv).filter l with
        | error e => rw [hy] at hc; exact fun e' he => hc e' (by simpa using he)
        | ok es =>
          refine multiAnd_fine fun h0 => hne ?_
          have := (collect_spec hy).2.2
          rw [h0] at this
          exact List.length_eq_zero_iff.mp this.symm
      dsimp only
      cases hy : eventFiltersExpression (mdOf sys p kv) l with
      | error e => rw [hy] at he; exact fun e' he' => he e' (by simpa using he')
      | ok f => exact Fine.ok _

theorem event_fine (h : Served sys p kv tbl) (fuel : Nat) (n : Str) : Fine (eventExpression (mdOf sys p kv) (fuel + 1) (.regularName n)) := by
  have hix : (Ix.name, fun r : Event => some r.name) ∈ (eventsC p).ixs := by simp [eventsC]
  simp only [eventExpression, mdOf]
  rcases (getBy_eq h.events hix n _).mp rfl with ⟨id, r, -, -, e⟩ | ⟨-, e⟩
  · rw [e]; exact Fine.ok _
  · rw [e]
    intro e' he
    injection he with he
    subst he
    simp

/-- The queries that are implemented. -/
def SaneQuery : CQuery → Prop
  | .weeklyActiveGroups | .monthlyActiveGroups | .formula _ => False
  | .aggregatePropertyPerGroup r _ _ => SaneRef r
  | .aggregateProperty r _ => SaneRef r
  | _ => True

structure SaneEvent (e : CEvent) : Prop where
  event : ∃ n, e.event = .regularName n
  filters : ∀ l, e.filters = some l → l ≠ [] ∧ ∀ f ∈ l, SaneFilter f
  queries : ∀ q ∈ e.queries, SaneQuery q.1
  breakdowns : ∀ r ∈ e.breakdowns.getD [], SaneRef r

structure SaneChart (cur : Int) (r : CSegReq) : Prop where
  events : ∀ e ∈ r.events, SaneEvent e
  filters : ∀ l, r.filters = some l → l ≠ [] ∧ ∀ f ∈ l, SaneFilter f
  breakdowns : ∀ x ∈ r.breakdowns.getD [], SaneRef x
  group : r.groupId < groupsCount
  time : (r.time.range cur).isSome

theorem colName_fine (h : Served sys p kv tbl) {ref : PropertyRef} (hr : SaneRef ref) : Fine (colName sys p kv ref) :=
  (findProp_fine h (.inl hr)).bind fun _ _ => Fine.pure _

theorem colName_mem (h : Served sys p kv tbl) {ref : PropertyRef} {c : Str} (hc : colName sys p kv ref = .ok c) : c ∈ tbl := by
  obtain ⟨r, h1, h2⟩ := bind_ok hc
  obtain ⟨id, hl⟩ := findProp_live h h1
  cases h2
  exact h.cols _ id r hl

theorem properties_sane {cur : Int} {r : CSegReq} (hs : SaneChart cur r) : ∀ x ∈ r.properties, SaneRef x := by
  have filt : ∀ fs : Option (List PropFilter), (∀ l, fs = some l → l ≠ [] ∧ ∀ f ∈ l, SaneFilter f) → ∀ x ∈ (fs.getD []).map (·.property), SaneRef x := by
    intro fs hf x hx
    obtain ⟨f, hm, rfl⟩ := List.mem_map.mp hx
    cases fs with
    | none => simp at hm
    | some l => exact ((hf l rfl).2 f hm).ref
  intro x hx
  simp only [CSegReq.properties, List.mem_append, List.mem_flatMap] at hx
  rcases hx with (⟨e, he, hx⟩ | hx) | hx
  · have se := hs.events e he
    simp only [CEvent.properties, List.mem_append, List.mem_flatMap] at hx
    rcases hx with (hx | ⟨q, hq, hx⟩) | hx
    · exact filt _ se.filters x hx
    · have := se.queries q hq
      obtain ⟨q, nm⟩ := q
      cases q <;> simp only [CQuery.properties, List.mem_cons, List.not_mem_nil, or_false] at hx
      · subst hx; exact this
      · subst hx; exact this
    · exact se.breakdowns x hx
  · exact filt _ hs.filters x hx
  · exact hs.breakdowns x hx

theorem aggPlan_fine (h : Served sys p kv tbl) {q : CQuery} (hq : SaneQuery q) : Fine (aggPlan sys p kv q) := by
  cases q with
  | weeklyActiveGroups => exact hq.elim
  | monthlyActiveGroups => exact hq.elim
  | formula f => exact hq.elim
  | aggregatePropertyPerGroup r g a => exact (colName_fine h hq).bind fun _ _ => Fine.pure _
  | aggregateProperty r a => exact (colName_fine h hq).bind fun _ _ => Fine.pure _
  | _ => exact Fine.ok _

theorem eventPlan_fine (h : Served sys p kv tbl) {cur : Int} {r : CSegReq} (hs : SaneChart cur r) {e : CEvent} (he : SaneEvent e) (fuel : Nat) (cols : List Str) :
    Fine (eventPlan sys (fuel + 1) p kv cur cols r e) := by
  unfold eventPlan
  refine Fine.bind ?_ fun _ _ => Fine.bind (Fine.collect fun x hx => ?_) fun _ _ => Fine.bind (Fine.collect fun q hq => aggPlan_fine h (he.queries q hq)) fun _ _ => Fine.pure _
  · unfold segmentationFilter timeExpression
    obtain ⟨n, hn⟩ := he.event
    cases ht : r.time.range cur with
    | none => have := hs.time; rw [ht] at this; simp at this
    | some ft =>
      obtain ⟨f, t⟩ := ft
      dsimp only
      rw [hn]
      have h1 := event_fine h fuel n
      cases hx : eventExpression (mdOf sys p kv) (fuel + 1) (.regularName n) with
      | error e => rw [hx] at h1; exact fun e' he' => h1 e' (by simpa using he')
      | ok ee => exact withFilters_fine h (withFilters_fine h (Fine.ok _) he.filters) hs.filters
  · refine (findProp_fine h (.inl ?_)).bind fun _ _ => Fine.pure _
    rcases List.mem_append.mp hx with hx | hx
    · exact he.breakdowns x hx
    · exact hs.breakdowns x hx

theorem chartPlan_fine (h : Served sys p kv tbl) {cur : Int} {r : CSegReq} (hs : SaneChart cur r) (fuel : Nat) :
    Fine (chartPlan sys (fuel + 1) p kv tbl cur r) := by
  unfold chartPlan
  have hp := properties_sane hs
  refine Fine.bind ((Fine.collect fun x hx => colName_fine h (hp x hx)).bind fun _ _ => Fine.pure _) fun pr hpr => ?_
  have hall : (pr.all fun c => tbl.contains c) = true := by
    obtain ⟨cs, h1, h2⟩ := bind_ok hpr
    cases h2
    obtain ⟨f1, f2, f3, f4⟩ := h.fixed
    simp only [List.all_eq_true, List.contains_iff_mem]
    intro c hc
    simp only [List.mem_append, List.mem_cons, List.not_mem_nil, or_false] at hc
    rcases hc with (rfl | rfl | rfl | rfl) | hc
    · exact f1
    · exact f4 _ hs.group
    · exact f2
    · exact f3
    · obtain ⟨x, -, hx⟩ := (collect_spec h1).2.1 c hc
      exact colName_mem h hx
  refine Fine.bind (by unfold scan; rw [if_pos hall]; exact Fine.ok _) fun cols _ => ?_
  refine Fine.bind (Fine.collect fun f hf => ?_) fun ds _ => Fine.bind (Fine.collect fun e he => eventPlan_fine h hs (hs.events e he) fuel cols) fun _ _ => Fine.pure _
  unfold decodeFilter
  split
  · refine (findProp_fine h (.inl ?_)).bind fun _ _ => Fine.pure _
    have filt : ∀ fs : Option (List PropFilter), (∀ l, fs = some l → l ≠ [] ∧ ∀ f ∈ l, SaneFilter f) → f ∈ fs.getD [] → SaneRef f.property := by
      intro fs hfs hm
      cases fs with
      | none => simp at hm
      | some l => exact ((hfs l rfl).2 f hm).ref
    rcases List.mem_append.mp hf with hf | hf
    · obtain ⟨e, he, hm⟩ := List.mem_flatMap.mp hf
      exact filt _ (hs.events e he).filters hm
    · exact filt _ hs.filters hf
  · exact Fine.ok _

end OptiPrism.Platform
