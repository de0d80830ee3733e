import Verif.Platform.ChartFix
import Verif.Ingest.SetupProps
import Verif.Ingest.AcceptProps
import Verif.Platform.ReportApiProps

/-!
# C125: A request for a chart is planned or refused
-/

namespace OptiPrism.Platform

open OptiPrism.Meta (Str PropOp PropertyRef EventRef Scalar PropFilter Kv Property PropType Event propsC customC eventsC kEvents mapM_isSome Ix getBy_eq
  hist_props hist_events props_ok events_ok readU64 dictGetKey Key)
open OptiPrism.Query
open OptiPrism.Ingest (groupCol)

variable {N : Type} {E : ReqEnv N} {sys : Str → Str} {p : Nat} {kv : Kv} {tbl : List Str}

/-! ## What must not be in a request -/

/-- The index of the kind of group exists. -/
def InRange : JPropertyRef → Prop
  | .group _ g => g < 5
  | _ => True

/-- A filter that cannot cause a panic: no NULL among the values, no number too large, and no missing list of values. -/
structure Plain (E : ReqEnv N) (f : JFilter N) : Prop where
  ref : InRange f.property
  null : ∀ v ∈ f.value.getD [], v ≠ .null
  nums : ∀ n, .num n ∈ f.value.getD [] → E.dec n ≠ none
  vals : f.value = none → f.op = .true ∨ f.op = .false ∨ f.op = .exists ∨ f.op = .empty

/-- The aggregates there are. -/
def KnownAgg (a : JAgg) : Prop := a = .count ∨ a = .sum ∨ a = .min ∨ a = .max ∨ a = .avg

def NotCustom (r : JPropertyRef) : Prop := ∀ id, r ≠ .custom id

/-- The queries that are implemented. -/
def Answered : JQuery → Prop
  | .weeklyActiveGroups | .monthlyActiveGroups | .formula _ => False
  | .countPerGroup a => KnownAgg a
  | .aggregatePropertyPerGroup r _ a => InRange r ∧ NotCustom r ∧ KnownAgg a
  | .aggregateProperty r a => InRange r ∧ NotCustom r ∧ KnownAgg a
  | _ => True

/-- A request none of whose parts is unimplemented or out of range. -/
structure Supported (E : ReqEnv N) (r : JSegReq N) : Prop where
  events : ∀ e ∈ r.events, ∃ n, e.event = .regular n
  filters : ∀ e ∈ r.events, ∀ f ∈ e.filters.getD [], Plain E f
  breaks : ∀ e ∈ r.events, ∀ b ∈ e.breakdowns.getD [], InRange b ∧ NotCustom b
  queries : ∀ e ∈ r.events, ∀ q ∈ e.queries, Answered q
  grouped : ∀ g, r.filters = some g → g.groups ≠ [] ∧ ∀ x ∈ g.groups, ∀ f ∈ x.filters, Plain E f
  breakdowns : ∀ b ∈ r.breakdowns.getD [], InRange b
  time : ∀ n, r.time = .last n .year → -178956970 ≤ n ∧ n ≤ 178956970

theorem inRange_sane {r : JPropertyRef} (h : InRange r) : ∀ n g, propIn r = .group n g → g < groupsCount := by
  cases r with
  | group n g => intro n' g' e; cases e; exact h
  | event n => intro n' g' e; cases e
  | custom i => intro n' g' e; cases e

theorem sane_of {r : JPropertyRef} (h : InRange r) (hc : NotCustom r) : SaneRef (propIn r) := by
  cases r with
  | group n g => exact h
  | event n => trivial
  | custom i => exact (hc i rfl).elim

theorem findProp_noPanic (h : Served sys p kv tbl) {r : JPropertyRef} (hr : InRange r) : findProp .plan p kv (propIn r) ≠ .error .panic :=
  fun e => (findProp_fine h (.inr ⟨rfl, inRange_sane hr⟩) _ e).1 rfl

theorem validateFilter_fine (h : Served sys p kv tbl) {f : JFilter N} (hf : Plain E f) : Fine (validateFilter p kv f) :=
  (Fine.refused (findProp_noPanic h hf.ref)).bind fun _ _ => (Fine.require _).bind fun _ _ => Fine.require _

theorem validateChart_fine (h : Served sys p kv tbl) {r : JSegReq N} (hs : Supported E r) : Fine (validateChart p kv r) := by
  refine (Fine.require _).bind fun _ _ => (Fine.require _).bind fun _ _ => (Fine.require _).bind fun _ _ => ?_
  refine Fine.bind (Fine.each fun e he => ?_) fun _ _ => Fine.bind (Fine.each fun g hg => ?_) fun _ _ =>
    Fine.bind (Fine.each fun b hb => ?_) fun _ _ => Fine.require _
  · refine Fine.bind ?_ fun _ _ => (Fine.each fun f hf => validateFilter_fine h (hs.filters e he f hf)).bind fun _ _ => Fine.require _
    obtain ⟨n, hn⟩ := hs.events e he
    rw [hn]
    refine Fine.bind (Fine.refused fun e => ?_) fun _ _ => Fine.pure _
    have hix : (Ix.name, fun r : Event => some r.name) ∈ (eventsC p).ixs := by simp [eventsC]
    rcases (getBy_eq h.events hix n _).mp rfl with ⟨id, r, -, -, e'⟩ | ⟨-, e'⟩ <;> rw [e'] at e <;> cases e
  · refine (Fine.require _).bind fun _ _ => Fine.each fun f hf => ?_
    cases hr : r.filters with
    | none => rw [hr] at hg; simp at hg
    | some gs => rw [hr] at hg; exact validateFilter_fine h ((hs.grouped gs hr).2 g hg f hf)
  · exact (Fine.refused (findProp_noPanic h (hs.breakdowns b hb))).bind fun _ _ => Fine.pure _

theorem filterIn_some {f : JFilter N} (hv : validateFilter p kv f = .ok ()) (hf : Plain E f) : ∃ f', filterIn E f = some f' := by
  obtain ⟨r, -, -, h3⟩ := validFilter_ok hv
  have hall : ∀ v ∈ f.value.getD [], (jsonToScalar E v).isSome := by
    intro v hm
    have hfit : valFits r v = true := by
      cases hx : f.value with
      | none => rw [hx] at hm; simp at hm
      | some l =>
        rw [hx] at hm h3
        simp only [valuesFit, Bool.and_eq_true, List.all_eq_true] at h3
        exact h3.2 v hm
    cases v with
    | null => exact (hf.null _ hm rfl).elim
    | num n =>
      have := hf.nums n hm
      cases hd : E.dec n with
      | none => exact (this hd).elim
      | some x => simp [jsonToScalar, hd]
    | bool b => rfl
    | str s => rfl
    | arr => simp [valFits] at hfit
    | obj => simp [valFits] at hfit
  have : ∃ v, dropEmpty (jsonToScalar E) f.value = some v := by
    cases hx : f.value with
    | none => exact ⟨_, rfl⟩
    | some l =>
      cases l with
      | nil => exact ⟨_, rfl⟩
      | cons a l =>
        obtain ⟨bs, e⟩ := mapM_isSome (jsonToScalar E) (a :: l) (fun v hv => hall v (by rw [hx]; exact hv))
        exact ⟨some bs, by simp [dropEmpty, e]⟩
  obtain ⟨v, e⟩ := this
  exact ⟨⟨propIn f.property, opIn f.op, v⟩, by simp [filterIn, e]⟩

theorem fixFilter_sane {f : JFilter N} (hv : validateFilter p kv f = .ok ()) (hf : Plain E f) {f' : PropFilter} (hi : filterIn E f = some f') :
    ∃ f'', fixFilter p kv f' = .ok f'' ∧ SaneFilter f'' := by
  obtain ⟨r, vs, h1, h2, h3, h4, -, h6⟩ := fixed_filter hv hi
  refine ⟨_, h4, (findProp_ok (h1 .plan)).1, fun vs' e' ht he => ?_⟩
  cases e'
  have := h6 he
  cases hx : f.value with
  | none => rcases hf.vals hx with e | e | e | e <;> simp [e, opIn, takesValues] at ht
  | some l =>
    rw [hx] at this h3
    simp only [Option.getD_some] at this
    subst this
    cases ho : f.op <;> simp [valuesFit, emptyFits, ho] at h3 <;> simp [ho, opIn, takesValues] at ht

theorem mapM_collect {α β γ : Type} {f : α → Option β} {g : β → Except QErr γ} {P : γ → Prop} {l : List α}
    (h : ∀ a ∈ l, ∃ b, f a = some b ∧ ∃ c, g b = .ok c ∧ P c) : ∃ bs, l.mapM f = some bs ∧ ∃ cs, collect g bs = .ok cs ∧ ∀ c ∈ cs, P c := by
  induction l with
  | nil => exact ⟨[], rfl, [], rfl, by simp⟩
  | cons a l ih =>
    obtain ⟨b, h1, c, h2, h3⟩ := h a (by simp)
    obtain ⟨bs, i1, cs, i2, i3⟩ := ih fun x hx => h x (by simp [hx])
    exact ⟨b :: bs, by simp [h1, i1], c :: cs, by simp [collect, h2, i2], by simpa using ⟨h3, i3⟩⟩

/-- The filters of an event or of the request. -/
theorem fixFilters_sane {fs : Option (List (JFilter N))} (hv : ∀ f ∈ fs.getD [], validateFilter p kv f = .ok ()) (hf : ∀ f ∈ fs.getD [], Plain E f) :
    ∃ fs', dropEmpty (filterIn E) fs = some fs' ∧ ∃ fs'', fixFilters p kv fs' = .ok fs'' ∧ ∀ l, fs'' = some l → l ≠ [] ∧ ∀ f ∈ l, SaneFilter f := by
  cases fs with
  | none => exact ⟨none, rfl, none, rfl, fun l h => nomatch h⟩
  | some l =>
    cases l with
    | nil => exact ⟨none, rfl, none, rfl, fun l h => nomatch h⟩
    | cons a l =>
      obtain ⟨bs, e, l', hx, hs⟩ := mapM_collect (f := filterIn E) (g := fixFilter p kv) (P := SaneFilter) (l := a :: l) fun f hm => by
        obtain ⟨f', e⟩ := filterIn_some (hv f hm) (hf f hm)
        exact ⟨f', e, fixFilter_sane (hv f hm) (hf f hm) e⟩
      refine ⟨some bs, by simp only [dropEmpty, e, Option.map_some], some l', ?_, fun l2 hl => ?_⟩
      · cases bs with
        | nil => have := (mapM_nil_iff e).mp rfl; cases this
        | cons b bs =>
          show (do let fs ← collect (fixFilter p kv) (b :: bs); pure (some fs)) = _
          rw [hx]; rfl
      · cases hl
        refine ⟨fun h0 => ?_, hs⟩
        have h3 := (collect_spec hx).2.2
        rw [h0] at h3
        have := (mapM_nil_iff e).mp (List.length_eq_zero_iff.mp h3.symm)
        cases this

theorem queryIn_sane {q : JQuery} (h : Answered q) : ∃ q', queryIn q = some q' ∧ SaneQuery q' := by
  have agg : ∀ a, KnownAgg a → ∃ a', aggIn a = some a' := by
    rintro a (rfl | rfl | rfl | rfl | rfl) <;> exact ⟨_, rfl⟩
  cases q with
  | countEvents => exact ⟨_, rfl, trivial⟩
  | countUniqueGroups => exact ⟨_, rfl, trivial⟩
  | dailyActiveGroups => exact ⟨_, rfl, trivial⟩
  | weeklyActiveGroups => exact h.elim
  | monthlyActiveGroups => exact h.elim
  | countPerGroup a => obtain ⟨a', e⟩ := agg a h; exact ⟨.countPerGroup a', by simp [queryIn, e], trivial⟩
  | aggregatePropertyPerGroup r g a => obtain ⟨a', e⟩ := agg a h.2.2; exact ⟨.aggregatePropertyPerGroup (propIn r) (paggIn g) a', by simp [queryIn, e], sane_of h.1 h.2.1⟩
  | aggregateProperty r a => obtain ⟨a', e⟩ := agg a h.2.2; exact ⟨.aggregateProperty (propIn r) a', by simp [queryIn, e], sane_of h.1 h.2.1⟩
  | formula f => exact h.elim

theorem named_mem (e : JEventRef) (idx : Nat) (qs : List CQuery) : ∀ x ∈ named E e idx qs, x.1 ∈ qs := by
  induction qs generalizing idx with
  | nil => simp [named]
  | cons q qs ih =>
    intro x hx
    rcases List.mem_cons.mp hx with rfl | hx
    · simp
    · exact List.mem_cons_of_mem _ (ih _ x hx)

theorem dropEmpty_refs {bs : Option (List JPropertyRef)} :
    ∃ bs', dropEmpty (fun r => some (propIn r)) bs = some bs' ∧ ∀ x, x ∈ bs'.getD [] ↔ ∃ b ∈ bs.getD [], propIn b = x := by
  cases bs with
  | none => exact ⟨none, rfl, by simp⟩
  | some l =>
    cases l with
    | nil => exact ⟨none, rfl, by simp⟩
    | cons a l =>
      refine ⟨some ((a :: l).map propIn), by simp only [dropEmpty, mapM_some_map, Option.map_some], fun x => ?_⟩
      simp only [Option.getD_some, List.mem_map]

theorem event_sane {e : JEvent N} (hv : ∀ f ∈ e.filters.getD [], validateFilter p kv f = .ok ()) (hn : ∃ n, e.event = .regular n)
    (hf : ∀ f ∈ e.filters.getD [], Plain E f) (hb : ∀ b ∈ e.breakdowns.getD [], InRange b ∧ NotCustom b) (hq : ∀ q ∈ e.queries, Answered q) :
    ∃ e', esEventIn E e = some e' ∧ ∃ e'', fixChartEvent p kv e' = .ok e'' ∧ SaneEvent e'' := by
  obtain ⟨fs', h1, fs'', h2, h3⟩ := fixFilters_sane hv hf
  obtain ⟨bs', h4, h5⟩ := dropEmpty_refs (bs := e.breakdowns)
  obtain ⟨qs, h6⟩ := mapM_isSome queryIn e.queries fun q hm => by obtain ⟨q', e, -⟩ := queryIn_sane (hq q hm); simp [e]
  refine ⟨⟨eventIn e.event, fs', bs', named E e.event 0 qs⟩, by simp [esEventIn, h1, h4, h6], ⟨eventIn e.event, fs'', bs', named E e.event 0 qs⟩, ?_, ?_⟩
  · show (do let fs ← fixFilters p kv fs'; pure _) = _
    rw [h2]; rfl
  · refine ⟨?_, h3, fun q hm => ?_, fun x hx => ?_⟩
    · obtain ⟨n, hn⟩ := hn
      exact ⟨n, by rw [hn]; rfl⟩
    · have := named_mem _ _ _ q hm
      obtain ⟨q0, hm0, e0⟩ := (mapM_mem_iff h6 q.1).mp this
      obtain ⟨q', e1, h⟩ := queryIn_sane (hq q0 hm0)
      rw [e0] at e1; cases e1; exact h
    · obtain ⟨b, hm, rfl⟩ := (h5 x).mp hx
      exact sane_of (hb b hm).1 (hb b hm).2

theorem range_some {t : JTime} (h : ∀ n, t = .last n .year → -178956970 ≤ n ∧ n ≤ 178956970) (cur : Int) : ((timeIn t).range cur).isSome := by
  cases t with
  | between f t => rfl
  | from_ f => rfl
  | last n u =>
    cases u <;> try rfl
    obtain ⟨h1, h2⟩ := h n rfl
    have h3 : asI32 n = n := by unfold asI32; omega
    have h4 : -2147483648 ≤ asI32 n * 12 ∧ asI32 n * 12 < 2147483648 := by rw [h3]; omega
    simp [timeIn, unitIn, QueryTime.range, relativeDuration, h4]

/-- A valid and supported request is converted, and what is planned is sane. -/
theorem chart_sane {r : JSegReq N} (hv : validateChart p kv r = .ok ()) (hs : Supported E r) (cur : Int) :
    ∃ r', segReqIn E r = some r' ∧ ∃ r'', fixChart p kv r' = .ok r'' ∧ SaneChart cur r'' := by
  obtain ⟨_, v1, hv⟩ := bind_ok hv
  obtain ⟨_, v2, hv⟩ := bind_ok hv
  obtain ⟨_, v3, hv⟩ := bind_ok hv
  obtain ⟨_, v4, hv⟩ := bind_ok hv
  obtain ⟨_, v5, hv⟩ := bind_ok hv
  obtain ⟨_, v6, v7⟩ := bind_ok hv
  have hsg : r.segments = none := by simpa using require_ok v7
  have hev : ∀ e ∈ r.events, ∀ f ∈ e.filters.getD [], validateFilter p kv f = .ok () := by
    intro e he
    obtain ⟨_, _, h⟩ := bind_ok (each_ok v4 e he)
    obtain ⟨_, h, _⟩ := bind_ok h
    exact each_ok h
  obtain ⟨es', h1, es'', h2, h3⟩ := mapM_collect (f := esEventIn E) (g := fixChartEvent p kv) (P := SaneEvent) (l := r.events)
    fun e he => event_sane (hev e he) (hs.events e he) (hs.filters e he) (hs.breaks e he) (hs.queries e he)
  obtain ⟨fs', g1, fs'', g2, g3⟩ : ∃ fs', groupedIn E r.filters = some fs' ∧ ∃ fs'', fixFilters p kv fs' = .ok fs'' ∧ ∀ l, fs'' = some l → l ≠ [] ∧ ∀ f ∈ l, SaneFilter f := by
    cases hf : r.filters with
    | none => exact ⟨none, rfl, none, rfl, fun l h => nomatch h⟩
    | some g =>
      obtain ⟨hne, hp⟩ := hs.grouped g hf
      rw [hf] at v5
      cases hg : g.groups with
      | nil => exact absurd hg hne
      | cons g0 gs =>
        have hv0 := each_ok v5 g0 (by show g0 ∈ g.groups; rw [hg]; simp)
        obtain ⟨_, _, hv0⟩ := bind_ok hv0
        have := fixFilters_sane (E := E) (fs := some g0.filters) (each_ok hv0) (hp g0 (by rw [hg]; simp))
        simpa [groupedIn, hg] using this
  obtain ⟨bs', b1, b2⟩ := dropEmpty_refs (bs := r.breakdowns)
  refine ⟨⟨timeIn r.time, r.group, unitIn r.intervalUnit, chartIn r.chartType, analysisIn r.analysis, r.compare.map compareIn, es', fs', bs', none⟩,
    by simp only [segReqIn, h1, g1, b1, hsg, Option.bind_eq_bind, Option.bind_some, Option.pure_def]; rfl, ⟨timeIn r.time, r.group, unitIn r.intervalUnit, chartIn r.chartType, analysisIn r.analysis,
      r.compare.map compareIn, es'', fs'', bs', none⟩, ?_, ?_⟩
  · simp only [fixChart, h2, g2]; rfl
  · refine ⟨h3, g3, fun x hx => ?_, by simpa using require_ok v1, range_some hs.time cur⟩
    obtain ⟨b, hm, rfl⟩ := (b2 x).mp hx
    obtain ⟨r0, h0, _⟩ := bind_ok (each_ok v6 b hm)
    exact (findProp_ok (refused_ok h0)).1

theorem chart_fine (h : Served sys p kv tbl) {r : JSegReq N} (hs : Supported E r) (fuel : Nat) (cur : Int) :
    Fine (chart E sys (fuel + 1) p kv tbl cur r) := by
  unfold chart
  refine (validateChart_fine h hs).bind fun _ hv => ?_
  obtain ⟨r', h1, r'', h2, h3⟩ := chart_sane hv hs cur
  rw [h1]
  dsimp only
  rw [h2]
  exact chartPlan_fine h h3 fuel

/-! ## The states -/

open OptiPrism.Ingest (World Life KeepsSys column_ok HasCol allSetup kProjectId kCreatedAt slash_kEvents slash_groupCol sysTypes)

variable {Q : Type} {S : Meta.Env Q} {T : Str → Bool} {n : Nat} {w : World}

/-- The names of the columns of the table of events. -/
def eventCols (w : World) : List Str := (w.tbl kEvents).schema.map fun f => f.name.toList

/-- Every state of the system is one a chart can be computed in. -/
theorem Life.served (hk : KeepsSys S.sys) (h : Life S T n w) (hn : n < 2 ^ 61) {project : Meta.Project} (hp : Meta.projectsC.getById p w.kv = .ok project) :
    Served S.sys p w.kv (eventCols w) := by
  have hL := h.inv hk hn
  obtain ⟨m, hm, hr⟩ := hL.inv.kv.runs
  have hcols : ∀ ty id r, (propsC p ty).live w.kv id = some r → r.columnName S.sys ∈ eventCols w := by
    intro ty id r hl
    obtain ⟨f, hf, e⟩ := (hL.inv.cols p ty id r hl).1
    exact List.mem_map.mpr ⟨f, hf, by rw [e]; simp⟩
  have hpi := (hL.inv.kv.pinv (by omega)).1
  have hlast : 0 < p ∧ p ≤ Meta.lastId w.kv (.top .projects) := by
    rw [hpi.getById] at hp
    cases hl : Meta.projectsC.live w.kv p with
    | none => rw [hl] at hp; cases hp
    | some r => exact ⟨(hpi.live hl).2.1, (hpi.live hl).2.2.1⟩
  have ready := hL.ready p hlast.1 hlast.2
  have hfix : ∀ c, (∃ x ∈ allSetup, x.typ = .event ∧ x.system = true ∧ x.name = c) → S.sys c = c → c ∈ eventCols w := by
    rintro c ⟨x, hx, h1, h2, rfl⟩ hs
    obtain ⟨id, r, g1, g2, -, g4, -⟩ := ready.props x hx
    have := hcols x.typ id r g1
    unfold Property.columnName at this
    rw [if_pos (by rw [g4]; exact h2), g2, hs] at this
    exact this
  refine ⟨fun ty => (hL.inv.kv.prop (by omega) p ty).inv (props_ok _ _), (hL.inv.kv.event (by omega) p).inv (events_ok p), fun ty id r v hl => ?_, hcols, ?_⟩
  · have hru := (hL.inv.kv.ruled p ty id r hl).1
    have ht : '/' ∉ tableOf ty := by cases ty with | event => exact slash_kEvents | group g => exact slash_groupCol g
    unfold dictGetKey
    cases hb : Meta.getK w.kv (.dictVal p (tableOf ty) (r.columnName S.sys) v) with
    | none => simp
    | some b =>
      have := hL.inv.kv.u64 (.dictVal p (tableOf ty) (r.columnName S.sys) v) b ⟨ht, column_ok hk hru⟩ trivial hb
      simp [readU64, this]
  · have e1 : kProjectCol = kProjectId := by decide +kernel
    have e2 : kCreatedCol = kCreatedAt := by decide +kernel
    have e3 : kEventCol = Meta.kEvent := by decide +kernel
    rw [e1, e2, e3]
    refine ⟨hfix _ (by decide +kernel) (hk _ (by simp [sysTypes])), hfix _ (by decide +kernel) (hk _ (by simp [sysTypes])),
      hfix _ (by decide +kernel) (hk _ (by simp [sysTypes])), fun g hg => ?_⟩
    have : g = 0 ∨ g = 1 ∨ g = 2 ∨ g = 3 ∨ g = 4 := by unfold groupsCount at hg; omega
    rcases this with rfl | rfl | rfl | rfl | rfl <;> exact hfix _ (by decide +kernel) (hk _ (by simp [sysTypes]))

/-- C125 (partial): in every state of the system, a request for a chart without the parts that are not implemented is planned or refused;
it never panics. Missing: what `Supported` excludes (each of it panics, see below), and custom events. -/
theorem C125_partial (hk : KeepsSys S.sys) (h : Life S T n w) (hn : n < 2 ^ 61) {project : Meta.Project} (hp : Meta.projectsC.getById p w.kv = .ok project)
    {r : JSegReq N} (hs : Supported E r) (fuel : Nat) (cur : Int) :
    (∃ c, chart E S.sys (fuel + 1) p w.kv (eventCols w) cur r = .ok c) ∨ chart E S.sys (fuel + 1) p w.kv (eventCols w) cur r = .error .plan ∨
    ∃ e, chart E S.sys (fuel + 1) p w.kv (eventCols w) cur r = .error (.store e) ∧ e ≠ .panic := by
  have hf := chart_fine (E := E) (Life.served hk h hn hp) hs fuel cur
  cases hc : chart E S.sys (fuel + 1) p w.kv (eventCols w) cur r with
  | ok c => exact .inl ⟨c, rfl⟩
  | error e =>
    cases e with
    | plan => exact .inr (.inl rfl)
    | panic => exact absurd rfl (hf _ hc).1
    | store e => exact .inr (.inr ⟨e, rfl, fun h => (hf _ hc).2 (by rw [h])⟩)

/-! ## What panics -/

/-- A request that counts one event. -/
def ask (N : Type) (n : Str) : JSegReq N where
  time := .last 7 .day
  group := 0
  intervalUnit := .day
  chartType := .line
  analysis := .linear
  compare := none
  events := [⟨.regular n, none, none, [.countEvents]⟩]
  filters := none
  breakdowns := none
  segments := none

/-- C125 as wanted. -/
def C125_full (E : ReqEnv N) (sys : Str → Str) (p : Nat) (kv : Kv) (tbl : List Str) : Prop :=
  ∀ r fuel cur, Fine (chart E sys (fuel + 1) p kv tbl cur r)

/-- C125 fails: in every state with an event, a breakdown by a group that does not exist, an empty list of groups of filters, an aggregate that is
not implemented, a breakdown of one event by a custom property, a period of too many years and a query that is not implemented all panic. -/
theorem C125_violated (E : ReqEnv N) (h : Served sys p kv tbl) {ev : Event} {n : Str} (hev : (eventsC p).getBy .name n kv = .ok ev) (fuel : Nat) (cur : Int) :
    (∀ x g, 5 ≤ g → chart E sys fuel p kv tbl cur { ask N n with breakdowns := some [.group x g] } = .error .panic) ∧
    (∀ c, chart E sys fuel p kv tbl cur { ask N n with filters := some ⟨c, []⟩ } = .error .panic) ∧
    (∀ a, ¬ KnownAgg a → chart E sys fuel p kv tbl cur { ask N n with events := [⟨.regular n, none, none, [.countPerGroup a]⟩] } = .error .panic) ∧
    (∀ c, chart E sys fuel p kv tbl cur { ask N n with events := [⟨.regular n, none, some [.custom c], [.countEvents]⟩] } = .error .panic) ∧
    chart E sys fuel p kv tbl cur { ask N n with time := .last 178956971 .year } = .error .panic ∧
    (∀ q, q = .weeklyActiveGroups ∨ q = .monthlyActiveGroups ∨ (∃ f, q = .formula f) →
      chart E sys fuel p kv tbl cur { ask N n with events := [⟨.regular n, none, none, [q]⟩] } = .error .panic) := by
  have hscan : ∀ cs, (∀ c ∈ cs, c ∈ tbl) → scan tbl cs = .ok (tbl.filter fun c => cs.contains c) := by
    intro cs hc
    unfold scan
    rw [if_pos (by simpa using hc)]
  obtain ⟨f1, f2, f3, f4⟩ := h.fixed
  have f0 := f4 0 (by decide)
  have h0 : scan tbl [kProjectCol, groupCol 0, kCreatedCol, kEventCol] = .ok (tbl.filter fun c => [kProjectCol, groupCol 0, kCreatedCol, kEventCol].contains c) :=
    hscan _ (by simp [f1, f2, f3, f0])
  have val : ∀ e : JEvent N, e.event = .regular n → e.filters = none → e.queries ≠ [] → validateChartEvent p kv e = .ok () := by
    intro e h1 h2 h3
    have h4 : e.queries.isEmpty = false := by cases hq : e.queries with | nil => exact absurd hq h3 | cons a l => rfl
    simp [validateChartEvent, h1, h2, h4, validateEvent, hev, ofStore, refused, each, require, Bind.bind, Except.bind, Pure.pure, Except.pure]
  refine ⟨fun x g hg => ?_, fun c => ?_, fun a ha => ?_, fun c => ?_, ?_, fun q hq => ?_⟩
  · have hg' : ¬ g < 5 := by omega
    simp [chart, validateChart, ask, require, groupsCount, timeFits, each, val, validateProperty, propIn, findProp, refused, hg', Bind.bind, Except.bind]
  · simp [chart, validateChart, ask, require, groupsCount, timeFits, each, val, Bind.bind, Except.bind, segReqIn, groupedIn, esEventIn, dropEmpty, queryIn]
  · have : aggIn a = none := by
      cases a <;> first | rfl | exact absurd (by simp [KnownAgg]) ha
    simp [chart, validateChart, ask, require, groupsCount, timeFits, each, val, Bind.bind, Except.bind, segReqIn, esEventIn, dropEmpty, queryIn, this]
  · simp [chart, validateChart, ask, require, groupsCount, timeFits, each, val, Bind.bind, Except.bind, segReqIn, groupedIn, esEventIn, dropEmpty, queryIn,
      fixChart, collect, fixChartEvent, fixFilters, Pure.pure, Except.pure, chartPlan, projection, CSegReq.properties, CEvent.properties, named, CQuery.properties,
      colName, findProp, propIn]
  · have ht : (timeIn (.last 178956971 .year)).range cur = none := by
      simp [timeIn, unitIn, QueryTime.range, relativeDuration, asI32]
    simp [chart, validateChart, ask, require, groupsCount, timeFits, each, val, Bind.bind, Except.bind, segReqIn, groupedIn, esEventIn, dropEmpty, queryIn,
      fixChart, collect, fixChartEvent, fixFilters, Pure.pure, Except.pure, chartPlan, projection, CSegReq.properties, CEvent.properties, named, CQuery.properties,
      h0, eventPlan, segmentationFilter, timeExpression, ht]
  · have hx : ∀ md : Md PropFilter, md.event n = .ok ev.id → (eventExpression md fuel (.regularName n) = .error .panic ∨ ∃ x, eventExpression md fuel (.regularName n) = .ok x) := by
      intro md hm
      cases fuel with
      | zero => exact .inl rfl
      | succ fuel => refine .inr ?_; simp only [eventExpression, hm]; exact ⟨_, rfl⟩
    have hm : (mdOf sys p kv).event n = .ok ev.id := by simp [mdOf, hev, Except.map]
    have hr : ((timeIn (.last 7 .day)).range cur) = some (subRel cur ⟨0, 7 * nsDay⟩, cur) := rfl
    rcases hx _ hm with e | ⟨x, e⟩ <;> rcases hq with rfl | rfl | ⟨f, rfl⟩ <;>
    simp [chart, validateChart, ask, require, groupsCount, timeFits, each, val, Bind.bind, Except.bind, segReqIn, groupedIn, esEventIn, dropEmpty, queryIn,
      fixChart, collect, fixChartEvent, fixFilters, Pure.pure, Except.pure, chartPlan, projection, CSegReq.properties, CEvent.properties, named, CQuery.properties,
      h0, eventPlan, segmentationFilter, timeExpression, hr, eventIn, e, withFilters, aggPlan]

/-- C125 fails, values: for every property that may be missing, comparing it with NULL and comparing it without a list of values panics. -/
theorem C125_values_violated (E : ReqEnv N) (h : Served sys p kv tbl) {ev : Event} {n x : Str} (hev : (eventsC p).getBy .name n kv = .ok ev) {r : Property}
    (hr : (propsC p .event).getBy .name x kv = .ok r) (hnull : r.nullable = true) (fuel : Nat) (cur : Int) :
    chart E sys fuel p kv tbl cur { ask N n with events := [⟨.regular n, some [⟨.event x, .eq, some [.null]⟩], none, [.countEvents]⟩] } = .error .panic ∧
    chart E sys fuel p kv tbl cur { ask N n with events := [⟨.regular n, some [⟨.event x, .eq, none⟩], none, [.countEvents]⟩] } = .error .panic := by
  obtain ⟨f1, f2, f3, f4⟩ := h.fixed
  have f0 := f4 0 (by decide)
  have hc : r.columnName sys ∈ tbl := by
    obtain ⟨id, hl, -⟩ := getBy_live h (ty := .event) (n := x) (r := r) (by rw [hr]; rfl)
    exact h.cols _ id r hl
  have h0 : scan tbl [kProjectCol, groupCol 0, kCreatedCol, kEventCol, r.columnName sys] =
      .ok (tbl.filter fun c => [kProjectCol, groupCol 0, kCreatedCol, kEventCol, r.columnName sys].contains c) := by
    unfold scan
    rw [if_pos (by simp [f1, f2, f3, f0, hc])]
  have hv : ∀ f : JFilter N, f.property = .event x → f.op = .eq → (f.value = none ∨ f.value = some [.null]) → validateFilter p kv f = .ok () := by
    rintro f h1 h2 (h3 | h3) <;>
    simp [validateFilter, h1, h2, h3, propIn, findProp, hr, ofStore, refused, require, opFits, valuesFit, valFits, hnull, Bind.bind, Except.bind]
  have val : ∀ f : JFilter N, f.property = .event x → f.op = .eq → (f.value = none ∨ f.value = some [.null]) →
      validateChartEvent p kv ⟨.regular n, some [f], none, [.countEvents]⟩ = .ok () := by
    intro f h1 h2 h3
    simp [validateChartEvent, hv f h1 h2 h3, validateEvent, hev, ofStore, refused, each, require, Bind.bind, Except.bind, Pure.pure, Except.pure]
  constructor
  · simp [chart, validateChart, ask, require, groupsCount, timeFits, each, val, Bind.bind, Except.bind, segReqIn, groupedIn, esEventIn, dropEmpty, filterIn, jsonToScalar]
  · have hx : ∀ md : Md PropFilter, md.event n = .ok ev.id → (eventExpression md fuel (.regularName n) = .error .panic ∨ ∃ x, eventExpression md fuel (.regularName n) = .ok x) := by
      intro md hm
      cases fuel with
      | zero => exact .inl rfl
      | succ fuel => refine .inr ?_; simp only [eventExpression, hm]; exact ⟨_, rfl⟩
    have hm : (mdOf sys p kv).event n = .ok ev.id := by simp [mdOf, hev, Except.map]
    have hp : (mdOf sys p kv).filter ⟨.event x, .eq, some []⟩ = .error .panic := by
      show propertyExpression sys p kv ⟨.event x, .eq, some []⟩ = .error .panic
      simp only [propertyExpression, findProp, hr, ofStore, Bind.bind, Except.bind, Option.map_some, List.map_nil, propExpression]
      cases r.dictType <;> rfl
    have ht : ((timeIn (.last 7 .day)).range cur) = some (subRel cur ⟨0, 7 * nsDay⟩, cur) := rfl
    rcases hx _ hm with e | ⟨y, e⟩ <;>
    simp [chart, validateChart, ask, require, groupsCount, timeFits, each, val, Bind.bind, Except.bind, segReqIn, groupedIn, esEventIn, dropEmpty, filterIn, queryIn,
      fixChart, collect, fixChartEvent, fixFilters, fixFilter, findProp, hr, ofStore, Pure.pure, Except.pure, chartPlan, projection, CSegReq.properties, CEvent.properties, named,
      CQuery.properties, colName, decodeFilter, decodedOp, h0, eventPlan, segmentationFilter, timeExpression, ht, eventIn, propIn, opIn, e, withFilters, eventFiltersExpression, hp]

/-! ## Cases -/

/-- A store with an event "buy" and the properties "city" (a dictionary that knows "Rome") and "when" (a time). -/
def cityProp : Property :=
  ⟨0, ⟨0, 0⟩, 1, none, none, 0, none, "city".toList, none, none, 0, .event, .string, .enabled, false, true, false, false, true, some .int64⟩

def whenProp : Property :=
  ⟨0, ⟨0, 0⟩, 1, none, none, 0, none, "when".toList, none, none, 0, .event, .timestamp, .enabled, false, true, false, false, false, none⟩

def buyEvent : Event := ⟨0, ⟨0, 0⟩, 1, none, none, 0, none, "buy".toList, none, none, .enabled, false, none, none, none⟩

def demoKv : Kv :=
  (Meta.runCall (Meta.dictGetOrCreate 1 kEvents "e_str_0".toList "Rome".toList)
    (Meta.runCall (Meta.propCreate id 1 .event ⟨7, 0⟩ whenProp (.ok ()))
      (Meta.runCall (Meta.propCreate id 1 .event ⟨7, 0⟩ cityProp (.ok ())) (Meta.createEvent 1 ⟨7, 0⟩ buyEvent []).2).2).2).2

def demoCols : List Str :=
  ["project_id", "group_0", "group_1", "group_2", "group_3", "group_4", "created_at", "event", "e_str_0", "e_ts_0"].map String.toList

/-- How often was "buy" counted per city, where the city is Rome and the time is later than 5 ms? -/
def demo : JSegReq Int :=
  { ask Int "buy".toList with
    events := [⟨.regular "buy".toList, some [⟨.event "city".toList, .eq, some [.str "Rome".toList]⟩, ⟨.event "when".toList, .gt, some [.num 5]⟩],
      some [.event "city".toList], [.countEvents]⟩] }

theorem demo_supported : Supported exReqEnv demo where
  events := by simp [demo]
  filters := by
    intro e he f hf
    simp only [demo, List.mem_singleton] at he
    subst he
    simp only [Option.getD_some, List.mem_cons, List.not_mem_nil, or_false] at hf
    rcases hf with rfl | rfl <;> exact ⟨trivial, by simp, by simp [exReqEnv], by simp⟩
  breaks := by simp [demo, InRange, NotCustom]
  queries := by simp [demo, Answered]
  grouped := by simp [demo, ask]
  breakdowns := by simp [demo, ask]
  time := by simp [demo, ask]

/-- The request is answered in that store. -/
example : (chart exReqEnv id 1 1 demoKv demoCols 0 demo).toOption.map (fun c => (c.cols, c.events.map fun e => (e.groups, e.aggs))) =
    some (["project_id", "group_0", "created_at", "event", "e_str_0", "e_ts_0"].map String.toList,
      [(["created_at", "e_str_0"].map String.toList, [.count kEventCol])]) := by decide +kernel

/-- The hypotheses of C125 hold in a state with a project. -/
example : ∃ w project, Life Ingest.exSysEnv Ingest.exIsToken 75 w ∧ Meta.projectsC.getById project.id w.kv = .ok project ∧ Supported exReqEnv demo := by
  obtain ⟨w, hw, project, hp, -⟩ := Ingest.exLife
  have hk := (hw.inv Ingest.exKeeps (by decide)).inv.kv
  refine ⟨w, project, hw, ?_, demo_supported⟩
  rw [(hk.pinv (by decide)).1.getById, (Ingest.token_project hk (by decide) hp).1]

end OptiPrism.Platform
