import Verif.Platform.RequestSpec

namespace OptiPrism.Platform

open OptiPrism.Meta (Str PropOp PropertyRef EventRef Scalar PropFilter)
open OptiPrism.Query (Unit' QueryTime)

variable {N : Type}

/-- `f` there and `g` back gives the same exactly where `T` holds. -/
def Back {α β : Type} (f : α → Option β) (g : β → Option α) (T : α → Prop) : Prop := ∀ a, (f a).bind g = some a ↔ T a

theorem Back.mp {α β : Type} {f : α → Option β} {g : β → Option α} {T : α → Prop} (h : Back f g T) {a : α} {b : β}
    (h1 : f a = some b) (h2 : g b = some a) : T a := (h a).mp (by rw [h1]; exact h2)

theorem Back.mpr {α β : Type} {f : α → Option β} {g : β → Option α} {T : α → Prop} (h : Back f g T) {a : α} (t : T a) :
    ∃ b, f a = some b ∧ g b = some a := Option.bind_eq_some_iff.mp ((h a).mpr t)

theorem Back.list {α β : Type} {f : α → Option β} {g : β → Option α} {T : α → Prop} (h : Back f g T) :
    Back (List.mapM f) (List.mapM g) (fun l => ∀ a ∈ l, T a) := by
  intro l
  induction l with
  | nil => simp
  | cons a l ih =>
    constructor
    · intro e
      obtain ⟨bs, e1, e2⟩ := Option.bind_eq_some_iff.mp e
      simp only [List.mapM_cons, Option.bind_eq_bind, Option.pure_def, Option.bind_eq_some_iff] at e1
      obtain ⟨b, hb, bs', hbs, e1⟩ := e1
      cases e1
      simp only [List.mapM_cons, Option.bind_eq_bind, Option.pure_def, Option.bind_eq_some_iff] at e2
      obtain ⟨a', ha, l', hl, e2⟩ := e2
      cases e2
      intro x hx
      rcases List.mem_cons.mp hx with rfl | hx
      · exact h.mp hb ha
      · exact ih.mp (by rw [hbs]; exact hl) x hx
    · intro t
      obtain ⟨b, hb, ha⟩ := h.mpr (t a (by simp))
      obtain ⟨bs, hbs, hl⟩ := Option.bind_eq_some_iff.mp (ih.mpr fun x hx => t x (by simp [hx]))
      simp [List.mapM_cons, hb, hbs, ha, hl]

theorem mapM_nil_iff {α β : Type} {f : α → Option β} {l : List α} {bs : List β} (h : l.mapM f = some bs) : bs = [] ↔ l = [] := by
  cases l with
  | nil => simp at h; simp [h]
  | cons a l =>
    simp only [List.mapM_cons, Option.bind_eq_bind, Option.pure_def, Option.bind_eq_some_iff] at h
    obtain ⟨b, _, bs', _, e⟩ := h
    cases e; simp

theorem Back.keep {α β : Type} {f : α → Option β} {g : β → Option α} {T : α → Prop} (h : Back f g T) :
    Back (keepEmpty f) (keepEmpty g) (Every T) := by
  intro o
  cases o with
  | none => simp [keepEmpty, Every]
  | some l =>
    have hl := h.list l
    constructor
    · intro e l' el
      cases el
      apply hl.mp
      obtain ⟨c, e1, e2⟩ := Option.bind_eq_some_iff.mp e
      simp only [keepEmpty, Option.map_eq_some_iff] at e1
      obtain ⟨bs, e1, rfl⟩ := e1
      simp only [keepEmpty, Option.map_eq_some_iff] at e2
      obtain ⟨l2, e2, e3⟩ := e2
      cases e3
      rw [e1]; exact e2
    · intro t
      obtain ⟨bs, e1, e2⟩ := Option.bind_eq_some_iff.mp (hl.mpr (t l rfl))
      simp [keepEmpty, e1, e2]

theorem Back.drop {α β : Type} {f : α → Option β} {g : β → Option α} {T : α → Prop} (h : Back f g T) :
    Back (dropEmpty f) (keepEmpty g) (AbsentOrFull T) := by
  intro o
  match o with
  | none => simp [dropEmpty, keepEmpty, AbsentOrFull]
  | some [] => simp [dropEmpty, keepEmpty, AbsentOrFull]
  | some (a :: l) =>
    have k := h.keep (some (a :: l))
    have e : dropEmpty f (some (a :: l)) = keepEmpty f (some (a :: l)) := rfl
    rw [e, k]
    constructor
    · intro t l' el; cases el; exact ⟨by simp, t _ rfl⟩
    · intro t l' el; exact (t l' el).2

theorem Back.drop2 {α β : Type} {f : α → Option β} {g : β → Option α} {T : α → Prop} (h : Back f g T) :
    Back (dropEmpty f) (dropEmpty g) (AbsentOrFull T) := by
  intro o
  match o with
  | none => simp [dropEmpty, AbsentOrFull]
  | some [] => simp [dropEmpty, AbsentOrFull]
  | some (a :: l) =>
    rw [← h.drop]
    cases e : dropEmpty f (some (a :: l)) with
    | none => simp
    | some c =>
      cases c with
      | none => simp [dropEmpty, keepEmpty]
      | some bs =>
        have e' : (a :: l).mapM f = some bs := by
          simp only [dropEmpty, Option.map_eq_some_iff] at e
          obtain ⟨_, e, e2⟩ := e; cases e2; exact e
        cases bs with
        | nil => have := (mapM_nil_iff e').mp rfl; cases this
        | cons b bs => rfl

theorem Back.opt {α β : Type} {f : α → Option β} {g : β → Option α} {T : α → Prop} (h : Back f g T) :
    Back (optConv f) (optConv g) (fun o => ∀ a, o = some a → T a) := by
  intro o
  cases o with
  | none => simp [optConv]
  | some a =>
    constructor
    · intro e x ex
      cases ex
      obtain ⟨c, e1, e2⟩ := Option.bind_eq_some_iff.mp e
      simp only [optConv, Option.map_eq_some_iff] at e1
      obtain ⟨b, e1, rfl⟩ := e1
      simp only [optConv, Option.map_eq_some_iff] at e2
      obtain ⟨a2, e2, e3⟩ := e2
      cases e3
      exact h.mp e1 e2
    · intro t
      obtain ⟨b, e1, e2⟩ := h.mpr (t a rfl)
      simp [optConv, e1, e2]

@[simp] theorem opOut_in (o : JOp) : opOut (opIn o) = o := by cases o <;> rfl
@[simp] theorem propOut_in (p : JPropertyRef) : propOut (propIn p) = p := by cases p <;> rfl
@[simp] theorem eventOut_in (p : JEventRef) : eventOut (eventIn p) = some p := by cases p <;> rfl
@[simp] theorem unitOut_in (p : JUnit) : unitOut (unitIn p) = p := by cases p <;> rfl
@[simp] theorem timeOut_in (p : JTime) : timeOut (timeIn p) = p := by cases p <;> simp [timeIn, timeOut]
@[simp] theorem paggOut_in (p : JPAgg) : paggOut (paggIn p) = p := by cases p <;> rfl
@[simp] theorem qaggOut_in (p : JQAgg) : qaggOut (qaggIn p) = p := by cases p <;> rfl
@[simp] theorem segTimeOut_in (p : JSegTime) : segTimeOut (segTimeIn p) = p := by cases p <;> simp [segTimeIn, segTimeOut]
@[simp] theorem chartOut_in (p : JChart) : chartOut (chartIn p) = p := by cases p <;> rfl
@[simp] theorem analysisOut_in (p : JAnalysis) : analysisOut (analysisIn p) = p := by cases p <;> simp [analysisIn, analysisOut]
@[simp] theorem compareOut_in (p : JCompare) : compareOut (compareIn p) = p := by simp [compareIn, compareOut]
@[simp] theorem stepOrderOut_in (p : JStepOrder) : stepOrderOut (stepOrderIn p) = p := by cases p <;> rfl
@[simp] theorem unitSOut_in (p : JUnitS) : unitSOut (unitSIn p) = p := by cases p <;> rfl
@[simp] theorem windowOut_in (p : JWindow) : windowOut (windowIn p) = p := by simp [windowIn, windowOut]
@[simp] theorem countOut_in (p : JCount) : countOut (countIn p) = p := by cases p <;> rfl
@[simp] theorem fFilterOut_in (p : JFFilter) : fFilterOut (fFilterIn p) = p := by cases p <;> rfl
@[simp] theorem touchOut_in (p : JTouch) : touchOut (touchIn p) = p := by cases p <;> rfl
@[simp] theorem fChartOut_in (p : JFChart) : fChartOut (fChartIn p) = p := by cases p <;> simp [fChartIn, fChartOut]

theorem opt_map_back {α β : Type} {f : α → β} {g : β → α} (h : ∀ a, g (f a) = a) (o : Option α) : (o.map f).map g = o := by
  cases o <;> simp [h]

theorem back_prop : Back (fun p => some (propIn p)) (fun p => some (propOut p)) (fun _ => True) := by intro p; simp

theorem back_val (E : ReqEnv N) : Back (jsonToScalar E) (scalarToJson E) (TidyVal E) := by
  intro v
  cases v with
  | null => simp [jsonToScalar, TidyVal]
  | arr => simp [jsonToScalar, TidyVal]
  | obj => simp [jsonToScalar, TidyVal]
  | bool b => simp [jsonToScalar, scalarToJson, TidyVal]
  | str s => simp [jsonToScalar, scalarToJson, TidyVal]
  | num n =>
    simp only [jsonToScalar, TidyVal, FaithfulNum]
    cases h : E.dec n with
    | none => simp
    | some p =>
      obtain ⟨m, s⟩ := p
      constructor
      · intro e; exact ⟨m, s, rfl, by simpa [scalarToJson] using e⟩
      · rintro ⟨m', s', e, e'⟩; cases e; simpa [scalarToJson] using e'

theorem back_filter (E : ReqEnv N) : Back (filterIn E) (filterOut E) (TidyFilter E) := by
  intro f
  have B := (back_val E).drop
  constructor
  · intro h
    obtain ⟨c, h1, h2⟩ := Option.bind_eq_some_iff.mp h
    simp only [filterIn, Option.bind_eq_bind, Option.pure_def, Option.bind_eq_some_iff] at h1
    obtain ⟨v, hv, e⟩ := h1
    cases e
    simp only [filterOut, Option.bind_eq_bind, Option.pure_def, Option.bind_eq_some_iff] at h2
    obtain ⟨w, hw, e⟩ := h2
    have e1 : w = f.value := by rw [← Option.some.inj e]
    subst e1
    exact B.mp hv hw
  · intro t
    obtain ⟨v, hv, hw⟩ := B.mpr t
    simp [filterIn, filterOut, hv, hw]

theorem back_agg (a : JAgg) : (aggIn a).map aggOut = some a ↔ TidyAgg a := by
  cases a <;> simp [aggIn, aggOut, TidyAgg]

theorem back_query : Back queryIn (fun q => some (queryOut q)) TidyQuery := by
  intro q
  cases q with
  | countPerGroup a => rw [TidyQuery, ← back_agg]; cases h : aggIn a <;> simp [queryIn, queryOut, h]
  | aggregatePropertyPerGroup p g a => rw [TidyQuery, ← back_agg]; cases h : aggIn a <;> simp [queryIn, queryOut, h]
  | aggregateProperty p a => rw [TidyQuery, ← back_agg]; cases h : aggIn a <;> simp [queryIn, queryOut, h]
  | _ => simp [queryIn, queryOut, TidyQuery]

theorem back_did (E : ReqEnv N) : Back (didIn E) (didOut E) (TidyDid E) := by
  intro d
  cases d with
  | count o v t => simp [didIn, didOut, TidyDid]
  | historicalCount o v t => simp [didIn, didOut, TidyDid]
  | relativeCount e o fs t =>
    have B := (back_filter E).drop2
    constructor
    · intro h
      obtain ⟨c, h1, h2⟩ := Option.bind_eq_some_iff.mp h
      simp only [didIn, Option.bind_eq_bind, Option.pure_def, Option.bind_eq_some_iff] at h1
      obtain ⟨v, hv, e⟩ := h1
      cases e
      simp only [didOut, eventOut_in, Option.bind_eq_bind, Option.pure_def, Option.bind_eq_some_iff] at h2
      obtain ⟨_, _, w, hw, e⟩ := h2
      have e := Option.some.inj e
      injection e
      subst_vars
      exact B.mp hv hw
    · intro t
      obtain ⟨v, hv, hw⟩ := B.mpr t
      simp [didIn, didOut, hv, hw]
  | aggregateProperty p a o v t =>
    have B := (back_val E).opt
    constructor
    · intro h
      obtain ⟨c, h1, h2⟩ := Option.bind_eq_some_iff.mp h
      simp only [didIn, Option.bind_eq_bind, Option.pure_def, Option.bind_eq_some_iff] at h1
      obtain ⟨v, hv, e⟩ := h1
      cases e
      simp only [didOut, Option.bind_eq_bind, Option.pure_def, Option.bind_eq_some_iff] at h2
      obtain ⟨w, hw, e⟩ := h2
      have e := Option.some.inj e
      injection e
      subst_vars
      exact B.mp hv hw
    · intro t
      obtain ⟨v, hv, hw⟩ := B.mpr t
      simp [didIn, didOut, hv, hw]

theorem back_cond (E : ReqEnv N) : Back (condIn E) (condOut E) (TidyCond E) := by
  intro d
  cases d with
  | has p o v =>
    have B := (back_val E).drop2
    constructor
    · intro h
      obtain ⟨c, h1, h2⟩ := Option.bind_eq_some_iff.mp h
      simp only [condIn, Option.bind_eq_bind, Option.pure_def, Option.bind_eq_some_iff] at h1
      obtain ⟨v, hv, e⟩ := h1
      cases e
      simp only [condOut, Option.bind_eq_bind, Option.pure_def, Option.bind_eq_some_iff] at h2
      obtain ⟨w, hw, e⟩ := h2
      have e := Option.some.inj e
      injection e
      subst_vars
      exact B.mp hv hw
    · intro t
      obtain ⟨v, hv, hw⟩ := B.mpr t
      simp [condIn, condOut, hv, hw]
  | had p o v t =>
    have B := (back_val E).drop2
    constructor
    · intro h
      obtain ⟨c, h1, h2⟩ := Option.bind_eq_some_iff.mp h
      simp only [condIn, Option.bind_eq_bind, Option.pure_def, Option.bind_eq_some_iff] at h1
      obtain ⟨v, hv, e⟩ := h1
      cases e
      simp only [condOut, Option.bind_eq_bind, Option.pure_def, Option.bind_eq_some_iff] at h2
      obtain ⟨w, hw, e⟩ := h2
      have e := Option.some.inj e
      injection e
      subst_vars
      exact B.mp hv hw
    · intro t
      obtain ⟨v, hv, hw⟩ := B.mpr t
      simp [condIn, condOut, hv, hw]
  | did e fs a =>
    have B := (back_filter E).drop2
    have D := back_did E
    constructor
    · intro h
      obtain ⟨c, h1, h2⟩ := Option.bind_eq_some_iff.mp h
      simp only [condIn, Option.bind_eq_bind, Option.pure_def, Option.bind_eq_some_iff] at h1
      obtain ⟨v, hv, d, hd, e⟩ := h1
      cases e
      simp only [condOut, eventOut_in, Option.bind_eq_bind, Option.pure_def, Option.bind_eq_some_iff] at h2
      obtain ⟨_, _, w, hw, d', hd', e⟩ := h2
      cases e
      exact ⟨B.mp hv hw, D.mp hd hd'⟩
    · intro t
      obtain ⟨v, hv, hw⟩ := B.mpr t.1
      obtain ⟨d, hd, hd'⟩ := D.mpr t.2
      simp [condIn, condOut, hv, hw, hd, hd']

theorem back_segment (E : ReqEnv N) : Back (segmentIn E) (segmentOut E) (TidySegment E) := by
  intro s
  have B := (back_cond E).list.list
  constructor
  · intro h
    obtain ⟨c, h1, h2⟩ := Option.bind_eq_some_iff.mp h
    simp only [segmentIn, Option.bind_eq_bind, Option.pure_def, Option.bind_eq_some_iff] at h1
    obtain ⟨v, hv, e⟩ := h1
    cases e
    simp only [segmentOut, Option.bind_eq_bind, Option.pure_def, Option.bind_eq_some_iff] at h2
    obtain ⟨w, hw, e⟩ := h2
    have e1 : w = s.conditions := by rw [← Option.some.inj e]
    subst e1
    exact B.mp hv hw
  · intro t
    obtain ⟨v, hv, hw⟩ := B.mpr t
    simp [segmentIn, segmentOut, hv, hw]

theorem named_fst (E : ReqEnv N) (e : JEventRef) (i : Nat) (qs : List CQuery) :
    (named E e i qs).map (fun q => queryOut q.1) = qs.map queryOut := by
  induction qs generalizing i with
  | nil => rfl
  | cons q qs ih => simp [named, ih]

theorem mapM_some_map {α β : Type} (g : α → β) (l : List α) : l.mapM (fun a => some (g a)) = some (l.map g) := by
  induction l with
  | nil => rfl
  | cons a l ih => simp [List.mapM_cons, ih]

theorem back_esEvent (E : ReqEnv N) : Back (esEventIn E) (esEventOut E) (TidyEvent E) := by
  intro s
  have B := (back_filter E).drop2
  have P := back_prop.drop2
  have Q := back_query.list
  constructor
  · intro h
    obtain ⟨c, h1, h2⟩ := Option.bind_eq_some_iff.mp h
    simp only [esEventIn, Option.bind_eq_bind, Option.pure_def, Option.bind_eq_some_iff] at h1
    obtain ⟨fs, hf, bs, hb, qs, hq, e⟩ := h1
    cases e
    simp only [esEventOut, eventOut_in, named_fst, Option.bind_eq_bind, Option.pure_def, Option.bind_eq_some_iff] at h2
    obtain ⟨_, _, fs', hf', bs', hb', e⟩ := h2
    have e := Option.some.inj e
    have e1 : qs.map queryOut = s.queries := by rw [← e]
    have e2 : fs' = s.filters := by rw [← e]
    have e3 : bs' = s.breakdowns := by rw [← e]
    subst e2 e3
    refine ⟨B.mp hf hf', P.mp hb hb', Q.mp hq ?_⟩
    rw [mapM_some_map, e1]
  · intro t
    obtain ⟨fs, hf, hf'⟩ := B.mpr t.filters
    obtain ⟨bs, hb, hb'⟩ := P.mpr t.breakdowns
    obtain ⟨qs, hq, hq'⟩ := Q.mpr t.queries
    rw [mapM_some_map] at hq'
    simp [esEventIn, esEventOut, hf, hf', hb, hb', hq, Option.some.inj hq', named_fst]

theorem back_grouped (E : ReqEnv N) :
    Back (groupedIn E) (groupedOut E) (fun o => ∀ g, o = some g → OneGroup E g fun fs => fs ≠ []) := by
  intro o
  cases o with
  | none => simp [groupedIn, groupedOut]
  | some g =>
    obtain ⟨cond, groups⟩ := g
    have B := (back_filter E).drop
    constructor
    · intro h g' eg
      cases eg
      cases groups with
      | nil => simp [groupedIn] at h
      | cons g0 gs =>
        obtain ⟨c, h1, h2⟩ := Option.bind_eq_some_iff.mp h
        simp only [groupedIn] at h1
        cases c with
        | none => simp [groupedOut] at h2
        | some fs =>
          simp only [groupedOut, Option.bind_eq_bind, Option.pure_def, Option.bind_eq_some_iff] at h2
          obtain ⟨w, hw, e⟩ := h2
          have e := Option.some.inj (Option.some.inj e)
          injection e with e1 e2
          injection e2 with e2 e3
          subst e1 e2 e3
          have := B.mp h1 (a := some w) (by simp [keepEmpty, hw])
          obtain ⟨h3, h4⟩ := this w rfl
          exact ⟨rfl, _, rfl, rfl, h4, h3⟩
    · intro t
      obtain ⟨h1, g0, h2, h3, h4, h5⟩ := t _ rfl
      dsimp at h1 h2
      subst h1 h2
      obtain ⟨b, hb, hb'⟩ := B.mpr (a := some g0.filters) (fun l e => by cases e; exact ⟨h5, h4⟩)
      cases b with
      | none => simp [keepEmpty] at hb'
      | some fs =>
        simp only [keepEmpty, Option.map_eq_some_iff] at hb'
        obtain ⟨w, hw, e⟩ := hb'
        cases e
        cases g0
        dsimp at h3
        subst h3
        dsimp at hb
        simp [groupedIn, groupedOut, hb, hw]

theorem back_fGrouped (E : ReqEnv N) :
    Back (fGroupedIn E) (groupedOut E) (fun o => ∀ g, o = some g → OneGroup E g fun _ => True) := by
  intro o
  cases o with
  | none => simp [fGroupedIn, groupedOut]
  | some g =>
    obtain ⟨cond, groups⟩ := g
    have B := (back_filter E).list
    constructor
    · intro h g' eg
      cases eg
      cases groups with
      | nil => simp [fGroupedIn] at h
      | cons g0 gs =>
        obtain ⟨c, h1, h2⟩ := Option.bind_eq_some_iff.mp h
        simp only [fGroupedIn, keepEmpty, Option.map_eq_some_iff] at h1
        obtain ⟨fs, h1, rfl⟩ := h1
        simp only [groupedOut, Option.bind_eq_bind, Option.pure_def, Option.bind_eq_some_iff] at h2
        obtain ⟨w, hw, e⟩ := h2
        have e := Option.some.inj (Option.some.inj e)
        injection e with e1 e2
        injection e2 with e2 e3
        subst e1 e2 e3
        exact ⟨rfl, _, rfl, rfl, B.mp h1 hw, trivial⟩
    · intro t
      obtain ⟨h1, g0, h2, h3, h4, h5⟩ := t _ rfl
      dsimp at h1 h2
      subst h1 h2
      obtain ⟨b, hb, hb'⟩ := B.mpr (a := g0.filters) h4
      cases g0
      dsimp at h3 hb hb'
      subst h3
      simp [fGroupedIn, groupedOut, keepEmpty, hb, hb']

theorem back_segReq (E : ReqEnv N) : Back (segReqIn E) (segReqOut E) (TidySegReq E) := by
  intro r
  have A := (back_esEvent E).list
  have B := back_grouped E
  have P := back_prop.drop2
  have S := (back_segment E).drop
  constructor
  · intro h
    obtain ⟨c, h1, h2⟩ := Option.bind_eq_some_iff.mp h
    simp only [segReqIn, Option.bind_eq_bind, Option.pure_def, Option.bind_eq_some_iff] at h1
    obtain ⟨es, he, fs, hf, bs, hb, ss, hs, e⟩ := h1
    cases e
    simp only [segReqOut, Option.bind_eq_bind, Option.pure_def, Option.bind_eq_some_iff] at h2
    obtain ⟨es', he', fs', hf', bs', hb', ss', hs', e⟩ := h2
    have e := Option.some.inj e
    have e1 : es' = r.events := by rw [← e]
    have e2 : fs' = r.filters := by rw [← e]
    have e3 : bs' = r.breakdowns := by rw [← e]
    have e4 : ss' = r.segments := by rw [← e]
    subst e1 e2 e3 e4
    exact ⟨A.mp he he', B.mp hf hf', P.mp hb hb', S.mp hs hs'⟩
  · intro t
    obtain ⟨es, he, he'⟩ := A.mpr t.events
    obtain ⟨fs, hf, hf'⟩ := B.mpr t.filters
    obtain ⟨bs, hb, hb'⟩ := P.mpr t.breakdowns
    obtain ⟨ss, hs, hs'⟩ := S.mpr t.segments
    simp only [segReqIn, he, hf, hb, hs, Option.bind_eq_bind, Option.pure_def, Option.bind_some, segReqOut, he', hf', hb', hs',
      timeOut_in, unitOut_in, chartOut_in, analysisOut_in, opt_map_back compareOut_in]

theorem back_fEvent (E : ReqEnv N) : Back (fEventIn E) (fEventOut E) (fun e => Every (TidyFilter E) e.filters) := by
  intro s
  have B := (back_filter E).keep
  constructor
  · intro h
    obtain ⟨c, h1, h2⟩ := Option.bind_eq_some_iff.mp h
    simp only [fEventIn, Option.bind_eq_bind, Option.pure_def, Option.bind_eq_some_iff] at h1
    obtain ⟨v, hv, e⟩ := h1
    cases e
    simp only [fEventOut, eventOut_in, Option.bind_eq_bind, Option.pure_def, Option.bind_eq_some_iff] at h2
    obtain ⟨_, _, w, hw, e⟩ := h2
    cases e
    exact B.mp hv hw
  · intro t
    obtain ⟨v, hv, hw⟩ := B.mpr t
    simp [fEventIn, fEventOut, hv, hw]

theorem back_step (E : ReqEnv N) :
    Back (stepIn E) (stepOut E) (fun s => ∀ e ∈ s.events, Every (TidyFilter E) e.filters) := by
  intro s
  have B := (back_fEvent E).list
  constructor
  · intro h
    obtain ⟨c, h1, h2⟩ := Option.bind_eq_some_iff.mp h
    simp only [stepIn, Option.bind_eq_bind, Option.pure_def, Option.bind_eq_some_iff] at h1
    obtain ⟨v, hv, e⟩ := h1
    cases e
    simp only [stepOut, Option.bind_eq_bind, Option.pure_def, Option.bind_eq_some_iff] at h2
    obtain ⟨w, hw, e⟩ := h2
    have e1 : w = s.events := by rw [← Option.some.inj e]
    subst e1
    exact B.mp hv hw
  · intro t
    obtain ⟨v, hv, hw⟩ := B.mpr t
    simp [stepIn, stepOut, hv, hw]

theorem pred_same (E : ReqEnv N) (n : Nat) : pred E n = some n ↔ n = 0 ∧ E.under = some 0 := by
  cases n with
  | zero => simp [pred]
  | succ n => simp [pred]

theorem back_exSteps (E : ReqEnv N) : Back (exStepsIn E) (fun s => some (exStepsOut s))
    (fun s => ∀ f t, s = .between f t → f = 0 ∧ t = 0 ∧ E.under = some 0) := by
  intro s
  cases s with
  | all => simp [exStepsIn, exStepsOut]
  | between f t =>
    constructor
    · intro h f' t' e
      cases e
      obtain ⟨c, h1, h2⟩ := Option.bind_eq_some_iff.mp h
      simp only [exStepsIn, Option.bind_eq_bind, Option.pure_def, Option.bind_eq_some_iff] at h1
      obtain ⟨f', hf, t', ht, e⟩ := h1
      cases e
      have := Option.some.inj h2
      simp only [exStepsOut] at this
      cases this
      exact ⟨((pred_same E f).mp hf).1, ((pred_same E t).mp ht).1, ((pred_same E f).mp hf).2⟩
    · intro t'
      obtain ⟨rfl, rfl, h⟩ := t' _ _ rfl
      simp [exStepsIn, exStepsOut, pred, h]

theorem optConv_some {α β : Type} (g : α → β) (o : Option α) : optConv (fun a => some (g a)) o = some (o.map g) := by
  cases o <;> rfl

theorem back_exclude (E : ReqEnv N) : Back (excludeIn E) (excludeOut E) (TidyExclude E) := by
  intro s
  have B := (back_filter E).keep
  have S := (back_exSteps E).opt
  constructor
  · intro h
    obtain ⟨c, h1, h2⟩ := Option.bind_eq_some_iff.mp h
    simp only [excludeIn, Option.bind_eq_bind, Option.pure_def, Option.bind_eq_some_iff] at h1
    obtain ⟨v, hv, st, hst, e⟩ := h1
    cases e
    simp only [excludeOut, eventOut_in, Option.bind_eq_bind, Option.pure_def, Option.bind_eq_some_iff] at h2
    obtain ⟨_, _, w, hw, e⟩ := h2
    have e := Option.some.inj e
    have e1 : w = s.filters := by rw [← e]
    have e2 : st.map exStepsOut = s.steps := by rw [← e]
    subst e1
    refine ⟨B.mp hv hw, fun f t es => S.mp (a := s.steps) hst (by rw [optConv_some, e2]) _ es f t rfl⟩
  · intro t
    obtain ⟨v, hv, hw⟩ := B.mpr t.1
    obtain ⟨st, hst, hst'⟩ := S.mpr (a := s.steps) fun x ex f tt e => t.2 f tt (by rw [ex, e])
    rw [optConv_some] at hst'
    simp [excludeIn, excludeOut, hv, hw, hst, Option.some.inj hst']

theorem every_true {α : Type} (o : Option (List α)) : Every (fun _ => True) o := fun _ _ _ _ => trivial

theorem back_funnel (E : ReqEnv N) : Back (funnelIn E) (funnelOut E) (TidyFunnel E) := by
  intro r
  have A := (back_step E).list
  have B := back_fGrouped E
  have P := back_prop.keep
  have X := (back_exclude E).keep
  have S := (back_segment E).keep
  constructor
  · intro h
    obtain ⟨c, h1, h2⟩ := Option.bind_eq_some_iff.mp h
    simp only [funnelIn, Option.bind_eq_bind, Option.pure_def, Option.bind_eq_some_iff] at h1
    obtain ⟨st, hst, hc, hhc, ex, hex, bs, hb, ss, hs, fs, hf, e⟩ := h1
    cases e
    simp only [funnelOut, Option.bind_eq_bind, Option.pure_def, Option.bind_eq_some_iff] at h2
    obtain ⟨st', hst', hc', hhc', ex', hex', bs', hb', ss', hs', fs', hf', e⟩ := h2
    have e := Option.some.inj e
    have e1 : st' = r.steps := by rw [← e]
    have e2 : ex' = r.exclude := by rw [← e]
    have e3 : ss' = r.segments := by rw [← e]
    have e4 : fs' = r.filters := by rw [← e]
    subst e1 e2 e3 e4
    exact ⟨A.mp hst hst', X.mp hex hex', S.mp hs hs', B.mp hf hf'⟩
  · intro t
    obtain ⟨st, hst, hst'⟩ := A.mpr t.steps
    obtain ⟨hc, hhc, hhc'⟩ := P.mpr (every_true r.holdingConstants)
    obtain ⟨ex, hex, hex'⟩ := X.mpr t.exclude
    obtain ⟨bs, hb, hb'⟩ := P.mpr (every_true r.breakdowns)
    obtain ⟨ss, hs, hs'⟩ := S.mpr t.segments
    obtain ⟨fs, hf, hf'⟩ := B.mpr t.filters
    simp only [funnelIn, hst, hhc, hex, hb, hs, hf, Option.bind_eq_bind, Option.pure_def, Option.bind_some, funnelOut,
      hst', hhc', hex', hb', hs', hf', timeOut_in, windowOut_in, fChartOut_in, countOut_in, opt_map_back fFilterOut_in,
      opt_map_back touchOut_in]

theorem back_reportQuery (E : ReqEnv N) : Back (reportQueryIn E) (reportQueryOut E) (Tidy E) := by
  intro q
  cases q with
  | eventSegmentation r =>
    rw [Tidy, ← back_segReq E]
    cases h : segReqIn E r with
    | none => simp [reportQueryIn, h]
    | some c => simp [reportQueryIn, h, reportQueryOut]
  | funnel r =>
    rw [Tidy, ← back_funnel E]
    cases h : funnelIn E r with
    | none => simp [reportQueryIn, h]
    | some c => simp [reportQueryIn, h, reportQueryOut]

end OptiPrism.Platform
