import Verif.Platform.FunnelPlan
import Verif.Platform.ChartMeaning

/-!
# Requests for funnels are answered or refused (C129)
-/

namespace OptiPrism.Platform

open OptiPrism.Meta (Str PropOp PropertyRef EventRef Scalar PropFilter Kv Property PropType Event propsC customC eventsC kEvents mapM_isSome Ix getBy_eq)
open OptiPrism.Query
open OptiPrism.Ingest (groupCol)

variable {N : Type} {E : ReqEnv N} {sys : Str → Str} {p : Nat} {kv : Kv} {tbl : List Str}

/-! ## What is planned -/

/-- Filters as planning needs them. -/
def SaneFilters (fs : Option (List PropFilter)) : Prop := ∀ l, fs = some l → l ≠ [] ∧ ∀ f ∈ l, SaneFilter f

def SaneName (e : EventRef) : Prop := ∃ n, e = .regularName n

structure SaneFunnel (wrap : Bool) (sys : Str → Str) (p : Nat) (kv : Kv) (cur : Int) (r : CFunnel) : Prop where
  steps : ∀ s ∈ r.steps, s.events ≠ [] ∧ ∀ e ∈ s.events, SaneName e.event ∧ SaneFilters e.filters
  exclude : ∀ e ∈ r.exclude.getD [], SaneName e.event ∧ SaneFilters e.filters
  filters : SaneFilters r.filters
  constants : ∀ x ∈ r.holdingConstants.getD [], SaneRef x
  breakdowns : ∀ x ∈ r.breakdowns.getD [], SaneRef x
  distinct : ∀ gs, collect (breakdownGroup sys p kv) (r.breakdowns.getD []) = .ok gs → (gs.map (·.1)).Nodup
  group : r.groupId < groupsCount
  time : (r.time.range cur).isSome
  window : (windowMs wrap r.timeWindow).isSome

theorem SaneFilters.refs {fs : Option (List PropFilter)} (h : SaneFilters fs) {f : PropFilter} (hf : f ∈ fs.getD []) : SaneRef f.property := by
  cases fs with
  | none => simp at hf
  | some l => exact ((h l rfl).2 f hf).ref

theorem funnel_properties {wrap : Bool} {cur : Int} {r : CFunnel} (hs : SaneFunnel wrap sys p kv cur r) : ∀ x ∈ r.properties, SaneRef x := by
  intro x hx
  simp only [CFunnel.properties, List.mem_append, List.mem_flatMap, List.mem_map] at hx
  rcases hx with (((⟨s, h1, e, h2, f, h3, rfl⟩ | hx) | ⟨e, h1, f, h2, rfl⟩) | ⟨f, h, rfl⟩) | hx
  · exact ((hs.steps s h1).2 e h2).2.refs h3
  · exact hs.constants x hx
  · exact (hs.exclude e h1).2.refs h2
  · exact hs.filters.refs h
  · exact hs.breakdowns x hx

theorem named_event_fine (h : Served sys p kv tbl) (fuel : Nat) {e : EventRef} (he : SaneName e) : Fine (eventExpression (mdOf sys p kv) (fuel + 1) e) := by
  obtain ⟨n, rfl⟩ := he
  exact event_fine h fuel n

theorem stepPlan_fine (h : Served sys p kv tbl) (fuel : Nat) {s : CStep} (hne : s.events ≠ []) (hs : ∀ e ∈ s.events, SaneName e.event ∧ SaneFilters e.filters) :
    Fine (stepPlan sys (fuel + 1) p kv s) := by
  refine Fine.bind ?_ fun _ _ => Fine.pure _
  unfold funnelStep
  have hc : Fine (collect (fun ev : EventReq PropFilter => withFilters (mdOf sys p kv) (eventExpression (mdOf sys p kv) (fuel + 1) ev.event) ev.filters)
      (s.events.map fun e => ⟨e.event, e.filters⟩)) := by
    refine Fine.collect fun a ha => ?_
    obtain ⟨e, he, rfl⟩ := List.mem_map.mp ha
    exact withFilters_fine h (named_event_fine h fuel (hs e he).1) (hs e he).2
  cases hx : collect (fun ev : EventReq PropFilter => withFilters (mdOf sys p kv) (eventExpression (mdOf sys p kv) (fuel + 1) ev.event) ev.filters)
      (s.events.map fun e => ⟨e.event, e.filters⟩) with
  | error e => rw [hx] at hc; exact fun e' he => hc e' (by simpa using he)
  | ok es =>
    refine multiOr_fine fun h0 => hne ?_
    have := (collect_spec hx).2.2
    rw [h0] at this
    simpa using List.length_eq_zero_iff.mp this.symm

theorem funnelPlan_fine (h : Served sys p kv tbl) {wrap : Bool} {cur : Int} {r : CFunnel} (hs : SaneFunnel wrap sys p kv cur r) (fuel : Nat) :
    Fine (funnelPlan wrap sys (fuel + 1) p kv tbl cur r) := by
  unfold funnelPlan
  have hp := funnel_properties hs
  refine Fine.bind ((Fine.collect fun x hx => colName_fine h (hp x hx)).bind fun _ _ => Fine.pure _) fun pr hpr => ?_
  obtain ⟨cs, h1, h2⟩ := bind_ok hpr
  cases h2
  have hall : (([kProjectCol, groupCol r.groupId, kCreatedCol, kEventCol] ++ cs).all fun c => tbl.contains c) = true := by
    obtain ⟨f1, f2, f3, f4⟩ := h.fixed
    simp only [List.all_eq_true, List.contains_iff_mem]
    intro c hc
    simp only [List.mem_append, List.mem_cons, List.not_mem_nil, or_false] at hc
    rcases hc with (rfl | rfl | rfl | rfl) | hc
    · exact f1
    · exact f4 _ hs.group
    · exact f2
    · exact f3
    · obtain ⟨x, -, hx⟩ := (collect_spec h1).2.1 c hc
      exact colName_mem h hx
  refine Fine.bind (by unfold scan; rw [if_pos hall]; exact Fine.ok _) fun cols hcols => ?_
  unfold scan at hcols
  rw [if_pos hall] at hcols
  injection hcols with hcols
  refine Fine.bind (Fine.collect fun f hf => ?_) fun ds _ => Fine.bind ?_ fun fl _ => Fine.bind ?_ fun w _ =>
    Fine.bind (Fine.collect fun s hm => stepPlan_fine h fuel (hs.steps s hm).1 (hs.steps s hm).2) fun st _ =>
    Fine.bind (Fine.collect fun e he => ?_) fun ex _ =>
    Fine.bind (Fine.collect fun x hx => colName_fine h (hs.constants x hx)) fun _ _ =>
    Fine.bind (Fine.collect fun x hx => ?_) fun _ _ =>
    Fine.bind (Fine.collect fun x hx => ?_) fun gs hgs =>
    Fine.bind ?_ fun _ _ => Fine.bind (Fine.collect fun s hm => ?_) fun _ _ => Fine.pure _
  · unfold decodeFilter
    split
    · refine (findProp_fine h (.inl ?_)).bind fun _ _ => Fine.pure _
      simp only [CFunnel.decodable, List.mem_append, List.mem_flatMap] at hf
      rcases hf with ⟨s, h1, e, h2, h3⟩ | hf
      · exact ((hs.steps s h1).2 e h2).2.refs h3
      · exact hs.filters.refs hf
    · exact Fine.ok _
  · unfold funnelFilter
    refine withFilters_fine h ?_ hs.filters
    unfold timeExpression
    cases ht : r.time.range cur with
    | none => have := hs.time; rw [ht] at this; simp at this
    | some ft => exact Fine.ok _
  · cases hw : windowMs wrap r.timeWindow with
    | none => have := hs.window; rw [hw] at this; simp at this
    | some w => exact Fine.ok _
  · exact (withFilters_fine h (named_event_fine h fuel (hs.exclude e he).1) (hs.exclude e he).2).bind fun _ _ => Fine.pure _
  · exact (findProp_fine h (.inl (hs.breakdowns x hx))).bind fun _ _ => Fine.pure _
  · exact (findProp_fine h (.inl (hs.breakdowns x hx))).bind fun _ _ => Fine.pure _
  · unfold groupSchema
    have hin : ((gs.map (·.1)).all fun g => cols.contains g) = true := by
      simp only [List.all_eq_true, List.contains_iff_mem, List.mem_map]
      rintro c ⟨g, hg, rfl⟩
      obtain ⟨x, hx, hgx⟩ := (collect_spec hgs).2.1 g hg
      obtain ⟨y, hy, e⟩ := bind_ok hgx
      cases e
      have hcn : colName sys p kv x = .ok (y.columnName sys) := by
        unfold colName
        rw [(findProp_ok hy).2 .panic]
        rfl
      obtain ⟨c, hc, e⟩ := (collect_spec h1).1 x (by simp only [CFunnel.properties, List.mem_append]; exact .inr hx)
      rw [hcn] at e
      cases e
      rw [← hcols]
      simp only [List.mem_filter, List.contains_iff_mem]
      exact ⟨colName_mem h hcn, List.mem_append_right _ hc⟩
    rw [hin, decide_eq_true (hs.distinct gs hgs)]
    exact Fine.ok _
  · unfold stepName
    obtain ⟨hne, hev⟩ := hs.steps s hm
    cases he : s.events with
    | nil => exact absurd he hne
    | cons e es =>
      obtain ⟨n, hn⟩ := (hev e (by rw [he]; simp)).1
      dsimp only
      rw [hn]
      exact Fine.ok _

/-! ## What is asked for -/

/-- The values of a filter can be converted. -/
def Sendable (E : ReqEnv N) (f : JFilter N) : Prop := ∀ v ∈ f.value.getD [], v ≠ .null ∧ v ≠ .arr ∧ v ≠ .obj ∧ ∀ n, v = .num n → E.dec n ≠ none

/-- A filter of a step that can be converted once it is accepted. -/
structure PlainEnough (E : ReqEnv N) (f : JFilter N) : Prop where
  ref : InRange f.property
  null : ∀ v ∈ f.value.getD [], v ≠ .null
  nums : ∀ n, .num n ∈ f.value.getD [] → E.dec n ≠ none

theorem Plain.enough {f : JFilter N} (h : Plain E f) : PlainEnough E f := ⟨h.ref, h.null, h.nums⟩

/-- Hours of a unit, as windows are counted; a session has none. -/
def unitHours : JUnitS → Option Nat
  | .hour => some 1
  | .day => some 24
  | .week => some (7 * 24)
  | .month => some (31 * 24)
  | .year => some (12 * 31 * 24)
  | .session => none

/-- Breakdowns by different properties are of different columns. -/
def ApartColumns (sys : Str → Str) (p : Nat) (kv : Kv) (bs : List JPropertyRef) : Prop :=
  ∀ b ∈ bs, ∀ b' ∈ bs, ∀ x x', PropertyAt p kv b x → PropertyAt p kv b' x' → x.columnName sys = x'.columnName sys → b = b'

/-- The requests for funnels that are implemented. -/
structure SupportedFunnel (E : ReqEnv N) (r : JFunnel N) : Prop where
  events : ∀ s ∈ r.steps, ∀ e ∈ s.events, ∃ n, e.event = .regular n
  filters : ∀ s ∈ r.steps, ∀ e ∈ s.events, ∀ f ∈ e.filters.getD [], PlainEnough E f
  exclude : ∀ e ∈ r.exclude.getD [], ∃ n, e.event = .regular n
  exFilters : ∀ e ∈ r.exclude.getD [], ∀ f ∈ e.filters.getD [], InRange f.property ∧ NotCustom f.property ∧ Sendable E f
  exSteps : ∀ e ∈ r.exclude.getD [], ∀ f t, e.steps = some (.between f t) → 0 < f ∧ 0 < t
  grouped : ∀ g, r.filters = some g → g.groups ≠ [] ∧ ∀ x ∈ g.groups, ∀ f ∈ x.filters, Plain E f
  breakdowns : ∀ b ∈ r.breakdowns.getD [], InRange b
  constants : ∀ b ∈ r.holdingConstants.getD [], InRange b
  time : ∀ n, r.time = .last n .year → -178956970 ≤ n ∧ n ≤ 178956970
  window : ∃ h, unitHours r.timeWindow.unit = some h ∧ r.timeWindow.n * (h * 3600000) < 2 ^ 63

theorem validateEvent_fine (h : Served sys p kv tbl) {e : JEventRef} (he : ∃ n, e = .regular n) : Fine (validateEvent p kv e) := by
  obtain ⟨n, rfl⟩ := he
  refine Fine.bind (Fine.refused fun e => ?_) fun _ _ => Fine.pure _
  have hix : (Ix.name, fun r : Event => some r.name) ∈ (eventsC p).ixs := by simp [eventsC]
  rcases (getBy_eq h.events hix n _).mp rfl with ⟨id, r, -, -, e'⟩ | ⟨-, e'⟩ <;> rw [e'] at e <;> cases e

theorem plainEnough_fine (h : Served sys p kv tbl) {f : JFilter N} (hf : PlainEnough E f) : Fine (validateFilter p kv f) :=
  (Fine.refused (findProp_noPanic h hf.ref)).bind fun _ _ => (Fine.require _).bind fun _ _ => Fine.require _

theorem validateProperty_fine (h : Served sys p kv tbl) {b : JPropertyRef} (hb : InRange b) : Fine (validateProperty p kv b) :=
  (Fine.refused (findProp_noPanic h hb)).bind fun _ _ => Fine.pure _

theorem validateFunnel_fine (h : Served sys p kv tbl) {r : JFunnel N} (hs : SupportedFunnel E r) : Fine (validateFunnel p kv r) := by
  refine (Fine.require _).bind fun _ _ => (Fine.require _).bind fun _ _ => (Fine.require _).bind fun _ _ => (Fine.require _).bind fun _ _ => ?_
  refine Fine.bind (Fine.each fun s hm => ?_) fun _ _ => Fine.bind (Fine.each fun e he => ?_) fun _ _ => (Fine.require _).bind fun _ _ =>
    Fine.bind (Fine.each fun b hb => validateProperty_fine h (hs.breakdowns b hb)) fun _ _ => (Fine.require _).bind fun _ _ =>
    Fine.bind (Fine.each fun b hb => validateProperty_fine h (hs.constants b hb)) fun _ _ => (Fine.require _).bind fun _ _ =>
    Fine.each fun g hg => Fine.each fun f hf => ?_
  · exact (Fine.require _).bind fun _ _ => Fine.bind (Fine.each fun e he => (validateEvent_fine h (hs.events s hm e he)).bind fun _ _ =>
      Fine.each fun f hf => plainEnough_fine h (hs.filters s hm e he f hf)) fun _ _ => Fine.require _
  · exact (validateEvent_fine h (hs.exclude e he)).bind fun _ _ => Fine.require _
  · cases hr : r.filters with
    | none => rw [hr] at hg; simp at hg
    | some gs => rw [hr] at hg; exact validateFilter_fine h ((hs.grouped gs hr).2 g hg f hf)

theorem plain_sendable {f : JFilter N} (hv : validateFilter p kv f = .ok ()) (hf : PlainEnough E f) : InRange f.property ∧ NotCustom f.property ∧ Sendable E f := by
  obtain ⟨r, h1, -, h3⟩ := validFilter_ok hv
  refine ⟨hf.ref, fun i e => ?_, fun v hm => ?_⟩
  · rw [e] at h1; simp [findProp, propIn] at h1
    exact h1 .panic
  · have hfit : valFits r v = true := by
      cases hx : f.value with
      | none => rw [hx] at hm; simp at hm
      | some l =>
        rw [hx] at hm h3
        simp only [valuesFit, Bool.and_eq_true, List.all_eq_true] at h3
        exact h3.2 v hm
    refine ⟨hf.null v hm, fun e => ?_, fun e => ?_, fun n e => ?_⟩
    · subst e; simp [valFits] at hfit
    · subst e; simp [valFits] at hfit
    · subst e; exact hf.nums n hm

theorem sendable_in {f : JFilter N} (hf : InRange f.property ∧ NotCustom f.property ∧ Sendable E f) : ∃ f', filterIn E f = some f' ∧ SaneFilter f' := by
  obtain ⟨hr, hc, hv⟩ := hf
  have hall : ∀ v ∈ f.value.getD [], (jsonToScalar E v).isSome := by
    intro v hm
    obtain ⟨h1, h2, h3, h4⟩ := hv v hm
    cases v with
    | null => exact (h1 rfl).elim
    | arr => exact (h2 rfl).elim
    | obj => exact (h3 rfl).elim
    | num n =>
      cases hd : E.dec n with
      | none => exact (h4 n rfl hd).elim
      | some x => simp [jsonToScalar, hd]
    | bool b => rfl
    | str s => rfl
  have : ∃ v, dropEmpty (jsonToScalar E) f.value = some v ∧ ∀ vs, v = some vs → vs ≠ [] := by
    cases hx : f.value with
    | none => exact ⟨_, rfl, fun _ h => nomatch h⟩
    | some l =>
      cases l with
      | nil => exact ⟨_, rfl, fun _ h => nomatch h⟩
      | cons a l =>
        obtain ⟨bs, e⟩ := mapM_isSome (jsonToScalar E) (a :: l) (fun v hv => hall v (by rw [hx]; exact hv))
        refine ⟨some bs, by simp [dropEmpty, e], fun vs h0 h1 => ?_⟩
        cases h0
        subst h1
        have := (mapM_nil_iff e).mp rfl
        cases this
  obtain ⟨v, e, hne⟩ := this
  exact ⟨⟨propIn f.property, opIn f.op, v⟩, by simp [filterIn, e], sane_of hr hc, fun vs hvs _ => hne vs hvs⟩

theorem noEmpty_getD {α : Type} (x : Option (List α)) : (noEmpty x).getD [] = x.getD [] := by
  cases x with
  | none => rfl
  | some l => cases l <;> rfl

theorem mapM_sane {α β : Type} {f : α → Option β} {P : β → Prop} {l : List α} (h : ∀ a ∈ l, ∃ b, f a = some b ∧ P b) :
    ∃ bs, l.mapM f = some bs ∧ (∀ b ∈ bs, P b) ∧ bs.length = l.length := by
  obtain ⟨bs, e⟩ := mapM_isSome f l fun a ha => by obtain ⟨b, e, -⟩ := h a ha; simp [e]
  refine ⟨bs, e, fun b hb => ?_, mapM_length e⟩
  obtain ⟨a, ha, e'⟩ := (mapM_mem_iff e b).mp hb
  obtain ⟨b', e'', hb'⟩ := h a ha
  rw [e'] at e''
  cases e''
  exact hb'

theorem keepEmpty_sane {fs : Option (List (JFilter N))} (h : ∀ f ∈ fs.getD [], ∃ f', filterIn E f = some f' ∧ SaneFilter f') :
    ∃ fs', keepEmpty (filterIn E) fs = some fs' ∧ SaneFilters (noEmpty fs') := by
  cases fs with
  | none => exact ⟨none, rfl, fun l h => nomatch h⟩
  | some l =>
    obtain ⟨bs, e, hb, -⟩ := mapM_sane h
    simp only [Option.getD_some] at e
    refine ⟨some bs, by simp [keepEmpty, e], fun l' hl => ?_⟩
    cases bs with
    | nil => cases hl
    | cons b bs => cases hl; exact ⟨by simp, hb⟩

theorem keepEmpty_refs (bs : Option (List JPropertyRef)) :
    keepEmpty (fun r => some (propIn r)) bs = some (bs.map fun l => l.map propIn) := by
  cases bs with
  | none => rfl
  | some l => simp only [keepEmpty, mapM_some_map, Option.map_some]

theorem windowMs_some {w : JWindow} {h : Nat} (hu : unitHours w.unit = some h) (hn : w.n * (h * 3600000) < 2 ^ 63) (wrap : Bool) :
    (windowMs wrap (windowIn w)).isSome := by
  obtain ⟨n, u⟩ := w
  dsimp only at hu hn
  have hb : n < 2 ^ 63 → ((n : Int)).bmod (2 ^ 64) = n := by
    intro h'
    rw [Int.bmod_eq_emod]
    have h1 : (n : Int) % (2 ^ 64 : Nat) = n := Int.emod_eq_of_lt (by omega) (by omega)
    rw [h1, if_neg (by omega)]
    exact Int.sub_zero _
  cases u with
  | hour =>
    cases hu
    show (durationMs ((n : Int).bmod (2 ^ 64) * 3600)).isSome
    rw [hb (by omega), durationMs, if_pos (by omega)]; rfl
  | day =>
    cases hu
    show (durationMs ((n : Int).bmod (2 ^ 64) * 86400)).isSome
    rw [hb (by omega), durationMs, if_pos (by omega)]; rfl
  | week =>
    cases hu
    show (durationMs ((n : Int).bmod (2 ^ 64) * 604800)).isSome
    rw [hb (by omega), durationMs, if_pos (by omega)]; rfl
  | month =>
    cases hu
    unfold windowMs windowIn unitSIn
    dsimp only
    rw [hb (by omega), mul64, if_pos (by omega)]
    show (durationMs ((n : Int) * 31 * 86400)).isSome
    rw [durationMs, if_pos (by omega)]; rfl
  | year =>
    cases hu
    unfold windowMs windowIn unitSIn
    dsimp only
    rw [hb (by omega), mul64, if_pos (by omega)]
    rw [Option.bind_some, mul64, if_pos (by omega), Option.bind_some, durationMs, if_pos (by omega)]; rfl
  | session => cases hu

theorem collect_nodup {α β γ : Type} {f : α → Except QErr β} {g : β → γ} {l : List α} {bs : List β} (h : collect f l = .ok bs) (hl : l.Nodup)
    (hinj : ∀ a ∈ l, ∀ a' ∈ l, ∀ b b', f a = .ok b → f a' = .ok b' → g b = g b' → a = a') : (bs.map g).Nodup := by
  induction l generalizing bs with
  | nil => cases h; simp
  | cons a l ih =>
    have h' : (match f a with | .error e => .error e | .ok b => match collect f l with | .error e => .error e | .ok bs => .ok (b :: bs)) = Except.ok bs := h
    cases hb : f a with
    | error e => rw [hb] at h'; cases h'
    | ok b =>
      rw [hb] at h'
      dsimp only at h'
      cases hc : collect f l with
      | error e => rw [hc] at h'; cases h'
      | ok cs =>
        rw [hc] at h'
        cases h'
        obtain ⟨h1, h2⟩ := List.nodup_cons.mp hl
        refine List.nodup_cons.mpr ⟨fun hm => ?_, ih hc h2 fun x hx y hy => hinj x (by simp [hx]) y (by simp [hy])⟩
        obtain ⟨c, hc1, hc2⟩ := List.mem_map.mp hm
        obtain ⟨a', ha', e'⟩ := (collect_spec hc).2.1 c hc1
        have := hinj a (by simp) a' (by simp [ha']) b c hb e' hc2.symm
        subst this
        exact h1 ha'

theorem propIn_inj {a b : JPropertyRef} (h : propIn a = propIn b) : a = b := by
  cases a <;> cases b <;> simp [propIn] at h <;> simp [h]

theorem funnel_sane {r : JFunnel N} (hv : validateFunnel p kv r = .ok ()) (hs : SupportedFunnel E r) (hd : ApartColumns sys p kv (r.breakdowns.getD []))
    (wrap : Bool) (cur : Int) :
    ∃ r', funnelIn E r = some r' ∧ ∃ r'', fixFunnel p kv r' = .ok r'' ∧ SaneFunnel wrap sys p kv cur r'' := by
  obtain ⟨_, v1, hv⟩ := bind_ok hv
  obtain ⟨_, v2, hv⟩ := bind_ok hv
  obtain ⟨_, v3, hv⟩ := bind_ok hv
  obtain ⟨_, v4, hv⟩ := bind_ok hv
  obtain ⟨_, v5, hv⟩ := bind_ok hv
  obtain ⟨_, v6, hv⟩ := bind_ok hv
  obtain ⟨_, v7, hv⟩ := bind_ok hv
  obtain ⟨_, v8, hv⟩ := bind_ok hv
  obtain ⟨_, v9, hv⟩ := bind_ok hv
  obtain ⟨_, v10, hv⟩ := bind_ok hv
  obtain ⟨_, v11, v12⟩ := bind_ok hv
  have hsg : r.segments = none := by simpa using require_ok v9
  -- steps
  obtain ⟨st, hst, hst', -⟩ := mapM_sane (f := stepIn E) (P := fun s => s.events ≠ [] ∧ ∀ e ∈ s.events, SaneName e.event ∧ SaneFilters (noEmpty e.filters))
    (l := r.steps) fun s hm => by
      obtain ⟨_, w1, w⟩ := bind_ok (each_ok v5 s hm)
      obtain ⟨_, w2, _⟩ := bind_ok w
      obtain ⟨es, h1, h2, h3⟩ := mapM_sane (f := fEventIn E) (P := fun e => SaneName e.event ∧ SaneFilters (noEmpty e.filters)) (l := s.events) fun e he => by
        obtain ⟨_, _, w3⟩ := bind_ok (each_ok w2 e he)
        obtain ⟨fs', k1, k2⟩ := keepEmpty_sane (E := E) (fs := e.filters) fun f hf =>
          sendable_in (plain_sendable (each_ok w3 f hf) (hs.filters s hm e he f hf))
        obtain ⟨n, hn⟩ := hs.events s hm e he
        exact ⟨⟨eventIn e.event, fs'⟩, by simp [fEventIn, k1], ⟨n, by rw [hn]; rfl⟩, k2⟩
      refine ⟨⟨es, stepOrderIn s.order⟩, by simp [stepIn, h1], fun h0 => ?_, h2⟩
      dsimp only at h0
      rw [h0] at h3
      have : s.events = [] := List.length_eq_zero_iff.mp h3.symm
      have hne := require_ok w1
      rw [this] at hne
      cases hne
  -- exclusions
  obtain ⟨ex, hex, hex'⟩ : ∃ ex, keepEmpty (excludeIn E) r.exclude = some ex ∧ ∀ e ∈ ex.getD [], SaneName e.event ∧ SaneFilters (noEmpty e.filters) := by
    cases hx : r.exclude with
    | none => exact ⟨none, rfl, by simp⟩
    | some l =>
      obtain ⟨es, h1, h2, -⟩ := mapM_sane (f := excludeIn E) (P := fun e => SaneName e.event ∧ SaneFilters (noEmpty e.filters)) (l := l) fun e he => by
        have he : e ∈ r.exclude.getD [] := by rw [hx]; exact he
        obtain ⟨fs', k1, k2⟩ := keepEmpty_sane (E := E) (fs := e.filters) fun f hf => sendable_in (hs.exFilters e he f hf)
        obtain ⟨n, hn⟩ := hs.exclude e he
        obtain ⟨st, hst⟩ : ∃ st, optConv (exStepsIn E) e.steps = some st := by
          cases hst : e.steps with
          | none => exact ⟨_, rfl⟩
          | some s =>
            cases s with
            | all => exact ⟨_, rfl⟩
            | between f t =>
              obtain ⟨h1, h2⟩ := hs.exSteps e he f t hst
              obtain ⟨f, rfl⟩ : ∃ k, f = k + 1 := ⟨f - 1, by omega⟩
              obtain ⟨t, rfl⟩ : ∃ k, t = k + 1 := ⟨t - 1, by omega⟩
              exact ⟨_, rfl⟩
        exact ⟨⟨eventIn e.event, fs', st⟩, by simp [excludeIn, k1, hst], ⟨n, by rw [hn]; rfl⟩, k2⟩
      exact ⟨some es, by simp [keepEmpty, h1], h2⟩
  -- filters
  obtain ⟨fs', g1, fs'', g2, g3⟩ : ∃ fs', fGroupedIn E r.filters = some fs' ∧ ∃ fs'', fixFilters p kv fs' = .ok fs'' ∧ SaneFilters fs'' := by
    cases hf : r.filters with
    | none => exact ⟨none, rfl, none, rfl, fun l h => nomatch h⟩
    | some g =>
      obtain ⟨hne, hp⟩ := hs.grouped g hf
      rw [hf] at v12
      cases hg : g.groups with
      | nil => exact absurd hg hne
      | cons g0 gs =>
        have hv0 := each_ok v12 g0 (by show g0 ∈ g.groups; rw [hg]; simp)
        obtain ⟨fs', h1, fs'', h2, h3⟩ := fixFilters_sane (E := E) (fs := some g0.filters) (each_ok hv0) (hp g0 (by rw [hg]; simp))
        cases hfl : g0.filters with
        | nil => exact ⟨some [], by simp [fGroupedIn, hg, hfl, keepEmpty], none, rfl, fun l h => nomatch h⟩
        | cons a l =>
          refine ⟨fs', ?_, fs'', h2, h3⟩
          rw [hfl] at h1
          simpa only [fGroupedIn, hg, hfl, keepEmpty, dropEmpty] using h1
  have href : ∀ bs : Option (List JPropertyRef), each (validateProperty p kv) (bs.getD []) = .ok () →
      ∀ x ∈ (noEmpty (bs.map fun l => l.map propIn)).getD [], SaneRef x := by
    intro bs hv x hx
    rw [noEmpty_getD] at hx
    cases bs with
    | none => simp at hx
    | some l =>
      obtain ⟨b, hb, rfl⟩ := List.mem_map.mp hx
      obtain ⟨r0, h0, _⟩ := bind_ok (each_ok hv b hb)
      exact (findProp_ok (refused_ok h0)).1
  refine ⟨⟨timeIn r.time, r.group, st, windowIn r.timeWindow, fChartIn r.chartType, countIn r.count, r.filter.map fFilterIn, r.touch.map touchIn,
    r.holdingConstants.map fun l => l.map propIn, ex, r.breakdowns.map fun l => l.map propIn, none, fs'⟩,
    by simp only [funnelIn, hst, hex, g1, keepEmpty_refs, hsg, Option.bind_eq_bind, Option.bind_some, Option.pure_def]; rfl, _,
    by simp only [fixFunnel, g2]; rfl, ?_⟩
  refine ⟨fun s hm => ?_, fun e he => ?_, g3, href _ v10, href _ v8, fun gs hgs => ?_, by simpa using require_ok v1, range_some hs.time cur, ?_⟩
  · obtain ⟨s0, hm0, rfl⟩ := List.mem_map.mp hm
    obtain ⟨h1, h2⟩ := hst' s0 hm0
    refine ⟨by simpa using h1, fun e he => ?_⟩
    obtain ⟨e0, he0, rfl⟩ := List.mem_map.mp he
    exact h2 e0 he0
  · cases hx : noEmpty ex with
    | none => rw [hx] at he; simp at he
    | some l =>
      rw [hx] at he
      obtain ⟨e0, he0, rfl⟩ := List.mem_map.mp he
      refine hex' e0 ?_
      rw [← noEmpty_getD, hx]
      exact he0
  · dsimp only at hgs
    rw [noEmpty_getD] at hgs
    have hnd : (r.breakdowns.getD []).Nodup := by simpa using require_ok v7
    cases hb : r.breakdowns with
    | none => rw [hb] at hgs; cases hgs; simp
    | some l =>
      rw [hb] at hgs hnd
      simp only [Option.map_some, Option.getD_some] at hgs hnd
      refine collect_nodup hgs (hnd.map (f := propIn) fun a b hab => propIn_inj hab) fun a ha a' ha' b b' e e' hc => ?_
      obtain ⟨j, hj, rfl⟩ := List.mem_map.mp ha
      obtain ⟨j', hj', rfl⟩ := List.mem_map.mp ha'
      obtain ⟨x, hx, e⟩ := bind_ok e
      obtain ⟨x', hx', e'⟩ := bind_ok e'
      cases e
      cases e'
      rw [hd j (by rw [hb]; exact hj) j' (by rw [hb]; exact hj') x x' (propertyAt_iff hx) (propertyAt_iff hx') hc]
  · obtain ⟨h, hu, hn⟩ := hs.window
    exact windowMs_some hu hn wrap

theorem funnel_fine (h : Served sys p kv tbl) {r : JFunnel N} (hs : SupportedFunnel E r) (hd : ApartColumns sys p kv (r.breakdowns.getD [])) (wrap : Bool)
    (fuel : Nat) (cur : Int) : Fine (funnel E wrap sys (fuel + 1) p kv tbl cur r) := by
  unfold funnel
  refine (validateFunnel_fine h hs).bind fun _ hv => ?_
  obtain ⟨r', h1, r'', h2, h3⟩ := funnel_sane (sys := sys) hv hs hd wrap cur
  rw [h1]
  dsimp only
  rw [h2]
  exact funnelPlan_fine h h3 fuel



open OptiPrism.Ingest (World Life KeepsSys)

variable {Q : Type} {S : Meta.Env Q} {T : Str → Bool} {n : Nat} {w : World}

/-- C129 (partial): in every state of the system, a request for a funnel without the parts that are not implemented is planned or refused;
it never panics. Missing: what `SupportedFunnel` excludes (most of it panics, see below), breakdowns by properties that share a column, and
custom events. -/
theorem C129_partial (hk : KeepsSys S.sys) (h : Life S T n w) (hn : n < 2 ^ 61) {project : Meta.Project} (hp : Meta.projectsC.getById p w.kv = .ok project)
    {r : JFunnel N} (hs : SupportedFunnel E r) (hd : ApartColumns S.sys p w.kv (r.breakdowns.getD [])) (wrap : Bool) (fuel : Nat) (cur : Int) :
    (∃ c, funnel E wrap S.sys (fuel + 1) p w.kv (eventCols w) cur r = .ok c) ∨
    funnel E wrap S.sys (fuel + 1) p w.kv (eventCols w) cur r = .error .plan ∨
    ∃ e, funnel E wrap S.sys (fuel + 1) p w.kv (eventCols w) cur r = .error (.store e) ∧ e ≠ .panic := by
  have hf := funnel_fine (E := E) (Life.served hk h hn hp) hs hd wrap fuel cur
  cases hc : funnel E wrap S.sys (fuel + 1) p w.kv (eventCols w) cur r with
  | ok c => exact .inl ⟨c, rfl⟩
  | error e =>
    cases e with
    | plan => exact .inr (.inl rfl)
    | panic => exact absurd rfl (hf _ hc).1
    | store e => exact .inr (.inr ⟨e, rfl, fun h => (hf _ hc).2 (by rw [h])⟩)

/-! ## What panics -/

/-- A request with one step. -/
def askFunnel (N : Type) (n : Str) : JFunnel N where
  time := .last 7 .day
  group := 0
  steps := [⟨[⟨.regular n, none⟩], .exact⟩]
  timeWindow := ⟨1, .day⟩
  chartType := .steps
  count := .unique
  filter := none
  touch := none
  holdingConstants := none
  exclude := none
  breakdowns := none
  segments := none
  filters := none

/-- C129 as wanted. -/
def C129_full (E : ReqEnv N) (wrap : Bool) (sys : Str → Str) (p : Nat) (kv : Kv) (tbl : List Str) : Prop :=
  ∀ r fuel cur, Fine (funnel E wrap sys (fuel + 1) p kv tbl cur r)

theorem longWindow {k : Nat} (hk : 2562047788015 < k) (hk' : k < 2 ^ 63) (wrap : Bool) : windowMs wrap ⟨k, .hour⟩ = none := by
  unfold windowMs
  dsimp only
  have hb : ((k : Int)).bmod (2 ^ 64) = k := by
    rw [Int.bmod_eq_emod]
    have h1 : (k : Int) % (2 ^ 64 : Nat) = k := Int.emod_eq_of_lt (by omega) (by omega)
    rw [h1, if_neg (by omega)]
    exact Int.sub_zero _
  rw [hb, durationMs, if_neg (by omega)]

theorem window_panics (E : ReqEnv N) (h : Served sys p kv tbl) {ev : Event} {n : Str} (hev : (eventsC p).getBy .name n kv = .ok ev) (wrap : Bool) (fuel : Nat)
    (cur : Int) {w : JWindow} (hw : windowMs wrap (windowIn w) = none) : funnel E wrap sys fuel p kv tbl cur { askFunnel N n with timeWindow := w } = .error .panic := by
  obtain ⟨f1, f2, f3, f4⟩ := h.fixed
  have f0 := f4 0 (by decide)
  have h0 : scan tbl [kProjectCol, groupCol 0, kCreatedCol, kEventCol] = .ok (tbl.filter fun c => [kProjectCol, groupCol 0, kCreatedCol, kEventCol].contains c) := by
    unfold scan
    rw [if_pos (by simp [f1, f2, f3, f0])]
  have hve : validateEvent p kv (.regular n) = .ok () := by
    simp [validateEvent, hev, ofStore, refused, Bind.bind, Except.bind, Pure.pure, Except.pure]
  have ht : ((timeIn (.last 7 .day)).range cur) = some (subRel cur ⟨0, 7 * nsDay⟩, cur) := rfl
  simp [funnel, validateFunnel, askFunnel, require, groupsCount, timeFits, each, validateStep, validateFEvent, hve, orderFits, fFilterFits, Bind.bind,
    Except.bind, Pure.pure, Except.pure, funnelIn, stepIn, fEventIn, keepEmpty, fGroupedIn, fixFunnel, fixFilters, noEmpty, funnelPlan, funnelProjection,
    CFunnel.properties, CFunnel.decodable, collect, h0, funnelFilter, timeExpression, ht, withFilters, hw, orPanic]

/-- C129 fails, windows: in every state with an event, a window that is a session or too long panics. -/
theorem C129_window_violated (E : ReqEnv N) (h : Served sys p kv tbl) {ev : Event} {n : Str} (hev : (eventsC p).getBy .name n kv = .ok ev) (wrap : Bool)
    (fuel : Nat) (cur : Int) :
    (∀ k, funnel E wrap sys fuel p kv tbl cur { askFunnel N n with timeWindow := ⟨k, .session⟩ } = .error .panic) ∧
    ∀ k, 2562047788015 < k → k < 2 ^ 63 → funnel E wrap sys fuel p kv tbl cur { askFunnel N n with timeWindow := ⟨k, .hour⟩ } = .error .panic :=
  ⟨fun _ => window_panics E h hev wrap fuel cur rfl, fun _ hk hk' => window_panics E h hev wrap fuel cur (longWindow hk hk' wrap)⟩

/-- C129 fails: in every state with an event, an empty list of groups of filters, a breakdown or constant by a group that does not exist,
an exclusion filtered by a custom property, an exclusion filtered by a list with NULL and a period of too many years all panic; and, with overflow checks, an exclusion between steps counted from 0. -/
theorem C129_violated (E : ReqEnv N) (h : Served sys p kv tbl) {ev : Event} {n : Str} (hev : (eventsC p).getBy .name n kv = .ok ev) (wrap : Bool) (fuel : Nat)
    (cur : Int) :
    (∀ c, funnel E wrap sys fuel p kv tbl cur { askFunnel N n with filters := some ⟨c, []⟩ } = .error .panic) ∧
    (∀ x g, 5 ≤ g → funnel E wrap sys fuel p kv tbl cur { askFunnel N n with breakdowns := some [.group x g] } = .error .panic) ∧
    (∀ x g, 5 ≤ g → funnel E wrap sys fuel p kv tbl cur { askFunnel N n with holdingConstants := some [.group x g] } = .error .panic) ∧
    (∀ c o, funnel E wrap sys fuel p kv tbl cur { askFunnel N n with exclude := some [⟨.regular n, some [⟨.custom c, o, none⟩], none⟩] } = .error .panic) ∧
    (∀ x o, funnel E wrap sys fuel p kv tbl cur { askFunnel N n with exclude := some [⟨.regular n, some [⟨x, o, some [.null]⟩], none⟩] } = .error .panic) ∧
    funnel E wrap sys fuel p kv tbl cur { askFunnel N n with time := .last 178956971 .year } = .error .panic ∧
    (E.under = none → funnel E wrap sys fuel p kv tbl cur
      { askFunnel N n with steps := (askFunnel N n).steps ++ (askFunnel N n).steps, exclude := some [⟨.regular n, none, some (.between 0 1)⟩] } = .error .panic) := by
  obtain ⟨f1, f2, f3, f4⟩ := h.fixed
  have f0 := f4 0 (by decide)
  have h0 : scan tbl [kProjectCol, groupCol 0, kCreatedCol, kEventCol] = .ok (tbl.filter fun c => [kProjectCol, groupCol 0, kCreatedCol, kEventCol].contains c) := by
    unfold scan
    rw [if_pos (by simp [f1, f2, f3, f0])]
  have hve : validateEvent p kv (.regular n) = .ok () := by
    simp [validateEvent, hev, ofStore, refused, Bind.bind, Except.bind, Pure.pure, Except.pure]
  refine ⟨fun c => ?_, fun x g hg => ?_, fun x g hg => ?_, fun c o => ?_, fun x o => ?_, ?_, fun hu => ?_⟩
  · simp [funnel, validateFunnel, askFunnel, require, groupsCount, timeFits, each, validateStep, validateFEvent, hve, orderFits, fFilterFits, Bind.bind,
      Except.bind, Pure.pure, Except.pure, funnelIn, stepIn, fEventIn, keepEmpty, fGroupedIn]
  · have hg' : ¬ g < 5 := by omega
    simp [funnel, validateFunnel, askFunnel, require, groupsCount, timeFits, each, validateStep, validateFEvent, hve, orderFits, fFilterFits, Bind.bind,
      Except.bind, Pure.pure, Except.pure, validateProperty, propIn, findProp, refused, hg']
  · have hg' : ¬ g < 5 := by omega
    simp [funnel, validateFunnel, askFunnel, require, groupsCount, timeFits, each, validateStep, validateFEvent, hve, orderFits, fFilterFits, Bind.bind,
      Except.bind, Pure.pure, Except.pure, validateProperty, propIn, findProp, refused, hg']
  · simp [funnel, validateFunnel, askFunnel, require, groupsCount, timeFits, each, validateStep, validateFEvent, hve, orderFits, fFilterFits, Bind.bind,
      Except.bind, Pure.pure, Except.pure, validateExclude, exStepsFit, funnelIn, stepIn, fEventIn, keepEmpty, fGroupedIn, excludeIn, filterIn, dropEmpty, optConv,
      fixFunnel, fixFilters, noEmpty, funnelPlan, funnelProjection, CFunnel.properties, collect, colName, findProp, propIn]
  · simp [funnel, validateFunnel, askFunnel, require, groupsCount, timeFits, each, validateStep, validateFEvent, hve, orderFits, fFilterFits, Bind.bind,
      Except.bind, Pure.pure, Except.pure, validateExclude, exStepsFit, funnelIn, stepIn, fEventIn, keepEmpty, fGroupedIn, excludeIn, filterIn, dropEmpty, jsonToScalar]
  · have ht : (timeIn (.last 178956971 .year)).range cur = none := by
      simp [timeIn, unitIn, QueryTime.range, relativeDuration, asI32]
    simp [funnel, validateFunnel, askFunnel, require, groupsCount, timeFits, each, validateStep, validateFEvent, hve, orderFits, fFilterFits, Bind.bind,
      Except.bind, Pure.pure, Except.pure, funnelIn, stepIn, fEventIn, keepEmpty, fGroupedIn, fixFunnel, fixFilters, noEmpty, funnelPlan, funnelProjection,
      CFunnel.properties, CFunnel.decodable, collect, h0, funnelFilter, timeExpression, ht, withFilters]
  · simp [funnel, validateFunnel, askFunnel, require, groupsCount, timeFits, each, validateStep, validateFEvent, hve, orderFits, fFilterFits, Bind.bind,
      Except.bind, Pure.pure, Except.pure, validateExclude, exStepsFit, funnelIn, stepIn, fEventIn, keepEmpty, fGroupedIn, excludeIn, optConv, exStepsIn, pred, hu]

/-! ## Cases -/

/-- Who bought in Rome, and then bought again within a day, without buying elsewhere in between, per city? -/
def demoF : JFunnel Int :=
  { askFunnel Int "buy".toList with
    steps := [⟨[⟨.regular "buy".toList, some [⟨.event "city".toList, .eq, some [.str "Rome".toList]⟩]⟩], .exact⟩,
      ⟨[⟨.regular "buy".toList, some [⟨.event "when".toList, .exists, none⟩]⟩], .exact⟩, ⟨[⟨.regular "buy".toList, none⟩], .any [(0, 1)]⟩]
    exclude := some [⟨.regular "buy".toList, some [⟨.event "city".toList, .neq, some [.str "Rome".toList]⟩], some (.between 1 2)⟩]
    filters := some ⟨none, [⟨true, [⟨.event "when".toList, .gt, some [.num 5]⟩]⟩]⟩
    holdingConstants := some [.event "city".toList]
    breakdowns := some [.event "city".toList] }

theorem demoF_supported : SupportedFunnel exReqEnv demoF where
  events := by simp [demoF]
  filters := by
    intro s hs e he f hf
    simp only [demoF, List.mem_cons, List.not_mem_nil, or_false] at hs
    rcases hs with rfl | rfl | rfl <;> simp only [List.mem_singleton] at he <;> subst he <;>
      simp only [Option.getD_some, Option.getD_none, List.mem_singleton, List.not_mem_nil] at hf
    · subst hf; exact ⟨trivial, by simp, by simp⟩
    · subst hf; exact ⟨trivial, by simp, by simp⟩
  exclude := by simp [demoF]
  exFilters := by simp [demoF, InRange, NotCustom, Sendable]
  exSteps := by simp [demoF]
  grouped := by
    intro g hg
    simp only [demoF, Option.some.injEq] at hg
    subst hg
    refine ⟨by simp, fun x hx f hf => ?_⟩
    simp only [List.mem_singleton] at hx
    subst hx
    simp only [List.mem_singleton] at hf
    subst hf
    exact ⟨trivial, by simp, by simp [exReqEnv], by simp⟩
  breakdowns := by simp [demoF, InRange]
  constants := by simp [demoF, InRange]
  time := by simp [demoF, askFunnel]
  window := ⟨24, rfl, by simp [demoF, askFunnel]⟩

theorem demoF_apart (kv : Kv) : ApartColumns sys p kv (demoF.breakdowns.getD []) := by
  intro b hb b' hb' x x' _ _ _
  simp only [demoF, Option.getD_some, List.mem_singleton] at hb hb'
  rw [hb, hb']

/-- The request is answered in the store of the example. -/
example : (funnel exReqEnv false id 1 1 demoKv demoCols 0 demoF).toOption.map (fun c => (c.cols, c.window)) =
    some (["project_id", "group_0", "created_at", "event", "e_str_0", "e_ts_0"].map String.toList, 86400000) := by decide +kernel

example : (funnel exReqEnv false id 1 1 demoKv demoCols 0 demoF).toOption.map (fun c => (c.groups.map (·.1), c.names)) =
    some (["e_str_0".toList], ["buy", "buy", "buy"].map String.toList) := by decide +kernel

/-- The hypotheses of C129 hold in a state with a project. -/
example : ∃ w project, Life Ingest.exSysEnv Ingest.exIsToken 75 w ∧ Meta.projectsC.getById project.id w.kv = .ok project ∧
    SupportedFunnel exReqEnv demoF ∧ ApartColumns id project.id w.kv (demoF.breakdowns.getD []) := by
  obtain ⟨w, hw, project, hp, -⟩ := Ingest.exLife
  have hk := (hw.inv Ingest.exKeeps (by decide)).inv.kv
  refine ⟨w, project, hw, ?_, demoF_supported, demoF_apart _⟩
  rw [(hk.pinv (by decide)).1.getById, (Ingest.token_project hk (by decide) hp).1]

/-- A custom event "deal", which is "buy". -/
def dealKv : Kv :=
  (Meta.runCall (Meta.customCreate 1 ⟨7, 0⟩ ⟨0, ⟨0, 0⟩, 1, none, none, 0, none, "deal".toList, none, .enabled, false, [⟨.regularName "buy".toList, none⟩]⟩) demoKv).2

def dealFunnel : JFunnel Int := { askFunnel Int "buy".toList with steps := [⟨[⟨.custom 1, none⟩], .exact⟩] }

/-- C129 fails, custom events: as the first event of a step, a custom event that exists panics, after the rows have been computed; as the
second it is answered. -/
theorem C129_custom_violated : ((customC 1).getById 1 dealKv).toOption.isSome = true ∧
    (match funnel exReqEnv false id 2 1 dealKv demoCols 0 dealFunnel with | .error .panic => true | _ => false) = true ∧
    (funnel exReqEnv false id 2 1 dealKv demoCols 0
      { dealFunnel with steps := [⟨[⟨.regular "buy".toList, none⟩, ⟨.custom 1, none⟩], .exact⟩] }).toOption.isSome = true := by
  refine ⟨by decide +kernel, by decide +kernel, by decide +kernel⟩

end OptiPrism.Platform
