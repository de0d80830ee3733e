import Verif.Platform.SchemaApiProps

/-!
# C145: events, custom events, properties and kinds of groups
-/

namespace OptiPrism.Platform

open OptiPrism.Meta (Str Time Kv Err Env Req Hist Runs Event CustomEvent Dashboard Panel Property PropType Group Coll Call runCall Honours HonoursList
  eventsC customC dashboardsC propsC getById_eq getBy_eq create_done events_ok custom_ok dashboards_ok props_ok hist_events hist_customs
  hist_dashboards hist_props normList event_stays custom_stays dashboard_stays prop_stays list_spec delete_spec)

variable {N Q : Type}

/-! ## Events -/

theorem event_get (R : ReqEnv N) {ctx : Ctx} {p : Nat} {now : Time} {kv : Kv} (hg : ProjOp.allowed .eventGet ctx p = true)
    {id : Nat} {r : Event} (h : (eventsC p).getById id kv = .ok r) :
    (SchemaCall.eventGet id).run R ctx p now kv = (some (.ok (.event (eventDefOut r))), kv) := by
  rw [run_of (c := .eventGet id) hg]
  show (shownAs _ ((eventsC p).getById id kv), kv) = _
  rw [h]
  rfl

theorem event_byName (R : ReqEnv N) {ctx : Ctx} {p : Nat} {now : Time} {kv : Kv} (hg : ProjOp.allowed .eventGetByName ctx p = true)
    {x : Str} {r : Event} (h : (eventsC p).getBy .name x kv = .ok r) :
    (SchemaCall.eventByName x).run R ctx p now kv = (some (.ok (.event (eventDefOut r))), kv) := by
  rw [run_of (c := .eventByName x) hg]
  show (shownAs _ ((eventsC p).getBy .name x kv), kv) = _
  rw [h]
  rfl

theorem event_getBy_live {p : Nat} {kv : Kv} (inv : (eventsC p).Inv Event.Valid kv) {id : Nat} {r : Event} (hl : (eventsC p).live kv id = some r) :
    (eventsC p).getBy .name r.name kv = .ok r :=
  (getBy_eq inv (i := (.name, fun e => some e.name)) (by simp [eventsC]) r.name (.ok r)).mpr (Or.inl ⟨id, r, hl, rfl, rfl⟩)

theorem createEvent_ok {p : Nat} {now : Time} {req : Event} {kv kv' : Kv} {r : Event} (h : Meta.createEvent p now req kv = (.ok r, kv')) :
    ∃ kv1, Meta.eventCreate p now req kv = .ok (r, kv1) ∧ ∀ id, (eventsC p).live kv' id = (eventsC p).live kv1 id := by
  unfold Meta.createEvent at h
  cases e : Meta.eventCreate p now req kv with
  | error x => rw [e] at h; cases h
  | ok v =>
    obtain ⟨ev, kv1⟩ := v
    rw [e] at h
    dsimp only at h
    cases e2 : Meta.dictGetOrCreate p Meta.kEvents Meta.kEvent ev.name kv1 with
    | error x => rw [e2] at h; cases h
    | ok v =>
      obtain ⟨y, kv2⟩ := v
      rw [e2] at h
      cases h
      refine ⟨kv1, rfl, fun id => ?_⟩
      rw [Meta.AgreeOn.live (c := eventsC p) (Meta.Same.agree ((Meta.dict_touches Meta.kEvents_ok _ kv1 y _ e2).same
        (by intro k hk; rw [List.mem_singleton.mp hk]; simp [eventsC])))]

/-- An event that was created and answered for is shown as it was asked for, by its number and by its name, whatever has happened
since, if nothing has updated or deleted it. -/
theorem C145_event (R : ReqEnv N) {E : Env Q} {n m : Nat} {kv kv1 kv2 : Kv} (h : Hist E n kv) {ctx ctx' : Ctx} {p : Nat}
    (hp : p < 2 ^ 64) (ha : ctx.accountId < 2 ^ 64) {now now' : Time} {q : JEventNew} {j : JEventDef}
    (hc : (SchemaCall.eventCreate q).run R ctx p now kv = (some (.ok (.event j)), kv1))
    (hr : Runs E (fun r => ¬ r.RewritesEvent p j.id) kv1 m kv2) (hn : n + m + 1 < 2 ^ 62) (hs : Sees ctx' p) :
    ∃ a, (SchemaCall.eventGet j.id).run R ctx' p now' kv2 = (some (.ok (.event a)), kv2) ∧
      (SchemaCall.eventByName q.name).run R ctx' p now' kv2 = (some (.ok (.event a)), kv2) ∧ a.id = j.id ∧
      EventAsked ctx.accountId p now q a := by
  obtain ⟨r, e, er⟩ := writing_ok (run_allowed hc)
  cases er
  have h1 := h.step (.eventCreate p now (eventNewIn ctx.accountId p now q)) ⟨hp, ha⟩
  rw [show Req.exec E (.eventCreate p now (eventNewIn ctx.accountId p now q)) kv = kv1 from congrArg Prod.snd e] at h1
  have re := hist_events h (by omega) p
  obtain ⟨kv0, e0, hag⟩ := createEvent_ok e
  obtain ⟨rfl, -, -, hl⟩ := create_done (events_ok p) (re.inv (events_ok p)) (re.room (events_ok p)) (Meta.eventCreate_ok (now := now) hp ha) e0
  have hl := hl (Meta.lastId kv (eventsC p).ns + 1)
  rw [if_pos rfl, ← hag] at hl
  have hl2 := event_stays h1 hl hr (by omega)
  have inv2 := (hist_events (hr.hist h1) (by omega) p).inv (events_ok p)
  refine ⟨_, event_get R hs.event.1 (get_live inv2 hl2), event_byName R hs.event.2.1 (event_getBy_live inv2 hl2), rfl, ?_⟩
  exact ⟨rfl, rfl, rfl, rfl, rfl, Meta.normList_getD _, rfl, rfl, rfl, rfl, rfl⟩

theorem C145_event_update (R : ReqEnv N) {E : Env Q} {n m : Nat} {kv kv1 kv2 : Kv} (h : Hist E n kv) {ctx ctx' : Ctx} {p id : Nat}
    (ha : ctx.accountId < 2 ^ 64) {now now' : Time} {q : JEventUpd} {j : JEventDef}
    (hc : (SchemaCall.eventUpdate id q).run R ctx p now kv = (some (.ok (.event j)), kv1))
    (hr : Runs E (fun r => ¬ r.RewritesEvent p id) kv1 m kv2) (hn : n + m + 1 < 2 ^ 62) (hs : Sees ctx' p) :
    (∃ old a, (SchemaCall.eventGet id).run R ctx' p now' kv = (some (.ok (.event old)), kv) ∧
      (SchemaCall.eventGet id).run R ctx' p now' kv2 = (some (.ok (.event a)), kv2) ∧ EventChanged ctx.accountId now q old a) ∧
    ∀ i, i ≠ id → ((SchemaCall.eventGet i).run R ctx' p now' kv1).1 = ((SchemaCall.eventGet i).run R ctx' p now' kv).1 := by
  obtain ⟨r, e, er⟩ := writing_ok (run_allowed hc)
  cases er
  have h1 := h.step (.eventUpdate p id now (eventUpdIn ctx.accountId q)) ha
  rw [show Req.exec E (.eventUpdate p id now (eventUpdIn ctx.accountId q)) kv = kv1 from congrArg Prod.snd e] at h1
  obtain ⟨old, g1, n1, i1, rfl, g2, g3⟩ := Meta.update_stored (events_ok p) Meta.Event.norm_norm (hist_events h (by omega) p)
    (Meta.eventUpdate_ok (q := eventUpdIn ctx.accountId q) ha) e
  have inv1 := (hist_events h1 (by omega) p).inv (events_ok p)
  have hl2 := event_stays h1 (live_get inv1 g2) hr (by omega)
  have inv2 := (hist_events (hr.hist h1) (by omega) p).inv (events_ok p)
  refine ⟨⟨_, _, event_get R hs.event.1 g1, event_get R hs.event.1 (get_live inv2 hl2), ?_⟩, fun i hi => ?_⟩
  · exact ⟨rfl, Meta.honours_getD _ _, Meta.honours_getD _ _, Meta.honours_getD _ _, Meta.honoursList_getD _ (congrArg Event.tags n1), rfl, rfl, rfl,
      rfl, (congrArg Event.createdAt n1 :), rfl, rfl⟩
  · rw [run_of (c := .eventGet i) hs.event.1, run_of (c := .eventGet i) hs.event.1]
    show shownAs _ ((eventsC p).getById i kv1) = shownAs _ ((eventsC p).getById i kv)
    rw [g3 i hi]

/-! ## Properties -/

theorem prop_get (R : ReqEnv N) {ctx : Ctx} {p : Nat} {ty : PropType} {now : Time} {kv : Kv} (hg : ProjOp.allowed .propGet ctx p = true)
    {id : Nat} {r : Property} (h : (propsC p ty).getById id kv = .ok r) :
    (SchemaCall.propGet ty id).run R ctx p now kv = (some (.ok (.prop (propDefOut r))), kv) := by
  rw [run_of (c := .propGet ty id) hg]
  show (shownAs _ ((propsC p ty).getById id kv), kv) = _
  rw [h]
  rfl

theorem propShown_out (r : Property) : PropShown r (propDefOut r) := by
  refine ⟨rfl, ⟨rfl, rfl⟩, ⟨rfl, rfl⟩, rfl, rfl, rfl, rfl, rfl, ?_, rfl, rfl, rfl, ⟨rfl, rfl, rfl, rfl, rfl⟩, rfl⟩
  unfold propDefOut
  cases r.typ <;> exact ⟨rfl, rfl⟩

/-- Every property there is is shown, by its number and by its name, as it is kept. -/
theorem C145_property (R : ReqEnv N) {E : Env Q} {n : Nat} {kv : Kv} (h : Hist E n kv) (hn : n < 2 ^ 62) {ctx : Ctx} {p : Nat} (hs : Sees ctx p)
    (now : Time) {ty : PropType} {id : Nat} {r : Property} (hr : (propsC p ty).getById id kv = .ok r) :
    ∃ a, (SchemaCall.propGet ty id).run R ctx p now kv = (some (.ok (.prop a)), kv) ∧
      (SchemaCall.propByName ty r.name).run R ctx p now kv = (some (.ok (.prop a)), kv) ∧ a.id = id ∧ PropShown r a := by
  have inv := (hist_props h hn p ty).inv (props_ok p ty)
  have hl := live_get inv hr
  refine ⟨_, prop_get R hs.prop.1 hr, ?_, (Meta.Inv.live_id inv hl).1, propShown_out r⟩
  rw [run_of (c := .propByName ty r.name) hs.prop.2.1]
  show (shownAs _ ((propsC p ty).getBy .name r.name kv), kv) = _
  rw [show (propsC p ty).getBy .name r.name kv = .ok r from
    (getBy_eq inv (i := (.name, fun e => some e.name)) (by simp [propsC]) r.name (.ok r)).mpr (Or.inl ⟨id, r, hl, rfl, rfl⟩)]
  rfl

theorem C145_property_update (R : ReqEnv N) {E : Env Q} {n m : Nat} {kv kv1 kv2 : Kv} (h : Hist E n kv) {ctx ctx' : Ctx} {p id : Nat}
    {ty : PropType} (ha : ctx.accountId < 2 ^ 64) {now now' : Time} {q : JPropUpd} {j : JPropDef}
    (hc : (SchemaCall.propUpdate ty id q).run R ctx p now kv = (some (.ok (.prop j)), kv1))
    (hr : Runs E (fun r => ¬ r.RewritesProp p ty id) kv1 m kv2) (hn : n + m + 1 < 2 ^ 62) (hs : Sees ctx' p) :
    (∃ old a, (SchemaCall.propGet ty id).run R ctx' p now' kv = (some (.ok (.prop old)), kv) ∧
      (SchemaCall.propGet ty id).run R ctx' p now' kv2 = (some (.ok (.prop a)), kv2) ∧ PropChanged ctx.accountId now q old a) ∧
    ∀ i, i ≠ id → ((SchemaCall.propGet ty i).run R ctx' p now' kv1).1 = ((SchemaCall.propGet ty i).run R ctx' p now' kv).1 := by
  obtain ⟨r, e, er⟩ := writing_ok (run_allowed hc)
  cases er
  have hok : (Req.propUpdate p ty id now (propUpdIn ctx.accountId q) : Req Q).Ok := ⟨ha, by simp [propUpdIn], by simp [propUpdIn]⟩
  have h1 := h.step _ hok
  rw [show Req.exec E (.propUpdate p ty id now (propUpdIn ctx.accountId q)) kv = kv1 from congrArg Prod.snd e] at h1
  obtain ⟨old, g1, n1, i1, rfl, g2, g3⟩ := Meta.update_stored (props_ok p ty) Meta.Property.norm_norm (hist_props h (by omega) p ty)
    (Meta.propUpdate_ok hok) e
  have inv1 := (hist_props h1 (by omega) p ty).inv (props_ok p ty)
  have hl2 := prop_stays h1 (live_get inv1 g2) hr (by omega)
  have inv2 := (hist_props (hr.hist h1) (by omega) p ty).inv (props_ok p ty)
  refine ⟨⟨_, _, prop_get R hs.prop.1 g1, prop_get R hs.prop.1 (get_live inv2 hl2), ?_⟩, fun i hi => ?_⟩
  · refine ⟨Meta.honoursList_getD _ (congrArg Property.tags n1), Meta.honours_getD _ _, Meta.honours_getD _ _, Meta.honours_getD _ _, ?_⟩
    have hc : old.createdAt.trunc = old.createdAt := congrArg Property.createdAt n1
    simp [propDefOut, Property.norm, Meta.PropUpd.apply, propUpdIn, hc]
  · rw [run_of (c := .propGet ty i) hs.prop.1, run_of (c := .propGet ty i) hs.prop.1]
    show shownAs _ ((propsC p ty).getById i kv1) = shownAs _ ((propsC p ty).getById i kv)
    rw [g3 i hi]

/-! ## Custom events -/

theorem custom_get (R : ReqEnv N) {ctx : Ctx} {p : Nat} {now : Time} {kv : Kv} (hg : ProjOp.allowed .customGet ctx p = true)
    {id : Nat} {r : CustomEvent} {j : JCustomDef N} (h : (customC p).getById id kv = .ok r) (hj : customDefOut R r = some j) :
    (SchemaCall.customGet id).run R ctx p now kv = (some (.ok (.custom j)), kv) := by
  rw [run_of (c := .customGet id) hg]
  show (shownAs _ ((customC p).getById id kv), kv) = _
  rw [h]
  simp [shownAs, hj]

theorem parts_mapM_back {α β : Type} {f : α → Option β} {g : β → Option α} : ∀ {l : List α} {l' : List β}, l.mapM f = some l' →
    (∀ a ∈ l, ∀ b, f a = some b → g b = some a) → l'.mapM g = some l := by
  intro l
  induction l with
  | nil => intro l' h _; simp at h; subst h; rfl
  | cons a l ih =>
    intro l' h hb
    simp only [List.mapM_cons, Option.bind_eq_bind, Option.pure_def, Option.bind_eq_some_iff] at h
    obtain ⟨b, h1, bs, h2, e⟩ := h
    cases e
    simp [hb a (by simp) b h1, ih h2 fun x hx => hb x (by simp [hx])]

theorem mapM_map_some {α β γ : Type} {f : α → Option β} (g : β → γ) : ∀ {l : List α} {l' : List β}, l.mapM f = some l' →
    l.mapM (fun a => (f a).map g) = some (l'.map g) := by
  intro l
  induction l with
  | nil => intro l' h; simp at h; subst h; rfl
  | cons a l ih =>
    intro l' h
    simp only [List.mapM_cons, Option.bind_eq_bind, Option.pure_def, Option.bind_eq_some_iff] at h
    obtain ⟨b, h1, bs, h2, e⟩ := h
    cases e
    simp [h1, ih h2]

theorem storedFilter_back (R : ReqEnv N) {f : JFilter N} {l : List (JVal N)} (hv : f.value = some l)
    (hl : ∀ v ∈ l, (∃ b, v = .bool b) ∨ ∃ s, v = .str s) {c : Meta.PropFilter} (hc : filterIn R f = some c) :
    filterOut R c.norm = some f := by
  simp only [filterIn, Option.bind_eq_bind, Option.pure_def, Option.bind_eq_some_iff] at hc
  obtain ⟨v, h1, e⟩ := hc
  cases e
  have hb : ((v.getD []).map Meta.Scalar.norm).mapM (scalarToJson R) = some l := by
    rw [hv] at h1
    cases l with
    | nil => simp [dropEmpty] at h1; subst h1; rfl
    | cons a l =>
      simp only [dropEmpty, Option.map_eq_some_iff] at h1
      obtain ⟨vs, h1, rfl⟩ := h1
      refine parts_mapM_back (mapM_map_some Meta.Scalar.norm h1) fun x hx b hb => ?_
      rcases hl x hx with ⟨y, rfl⟩ | ⟨y, rfl⟩ <;> (simp [jsonToScalar] at hb; subst hb; rfl)
  simp only [filterOut, Meta.PropFilter.norm, keepEmpty, Option.bind_eq_bind, Option.pure_def]
  rw [hb]
  obtain ⟨fp, fo, fv⟩ := f
  cases hv
  simp

/-- A part that is `StoredPart` is read as it was given. -/
theorem storedPart_back (R : ReqEnv N) {e : JCustomPart N} (hs : StoredPart e) {c : Meta.CEvent} (hc : customPartIn R e = some c) :
    customPartOut R c.norm = some e := by
  simp only [customPartIn, Option.bind_eq_bind, Option.pure_def, Option.bind_eq_some_iff] at hc
  obtain ⟨fs, h1, ec⟩ := hc
  cases ec
  obtain ⟨ev, fl⟩ := e
  have hb : keepEmpty (filterOut R) (normList (fs.map fun l => l.map Meta.PropFilter.norm)) = some fl := by
    cases fl with
    | none => simp [keepEmpty] at h1; subst h1; rfl
    | some l =>
      obtain ⟨hne, hl⟩ := hs l rfl
      simp only [keepEmpty, Option.map_eq_some_iff] at h1
      obtain ⟨cs, h1, rfl⟩ := h1
      have hb := parts_mapM_back (g := filterOut R) (mapM_map_some Meta.PropFilter.norm h1) fun f hf b hb => by
        obtain ⟨x, hx, rfl⟩ := Option.map_eq_some_iff.mp hb
        obtain ⟨vs, hv, hv'⟩ := hl f hf
        exact storedFilter_back R hv hv' hx
      cases cs with
      | nil => exact absurd ((mapM_nil_iff h1).mp rfl) hne
      | cons x cs =>
        show ((List.map Meta.PropFilter.norm (x :: cs)).mapM (filterOut R)).map some = _
        rw [hb]; rfl
  simp only [customPartOut, Meta.CEvent.norm, eventOut_in, Option.bind_eq_bind, Option.pure_def, Option.bind_some]
  rw [hb]
  rfl

theorem storedParts_back (R : ReqEnv N) {l : List (JCustomPart N)} (hs : ∀ e ∈ l, StoredPart e) {cs : List Meta.CEvent}
    (hc : l.mapM (customPartIn R) = some cs) : (cs.map Meta.CEvent.norm).mapM (customPartOut R) = some l :=
  parts_mapM_back (mapM_map_some Meta.CEvent.norm hc) fun e he b hb => by
    obtain ⟨x, hx, rfl⟩ := Option.map_eq_some_iff.mp hb
    exact storedPart_back R (hs e he) hx

/-- The numbers of the references of a part fit the fields they are kept in. -/
def JCustomPart.Fits (R : ReqEnv N) (e : JCustomPart N) : Prop := ∀ c, customPartIn R e = some c → c.Ok

theorem mem_mapM {α β : Type} {f : α → Option β} : ∀ {l : List α} {l' : List β}, l.mapM f = some l' → ∀ b ∈ l', ∃ a ∈ l, f a = some b := by
  intro l
  induction l with
  | nil => intro l' h; simp at h; subst h; simp
  | cons a l ih =>
    intro l' h
    simp only [List.mapM_cons, Option.bind_eq_bind, Option.pure_def, Option.bind_eq_some_iff] at h
    obtain ⟨b, h1, bs, h2, e⟩ := h
    cases e
    intro x hx
    rcases List.mem_cons.mp hx with rfl | hx
    · exact ⟨a, by simp, h1⟩
    · obtain ⟨y, hy, e⟩ := ih h2 x hx; exact ⟨y, by simp [hy], e⟩

theorem customDefOut_of {R : ReqEnv N} (r : CustomEvent) {evs : List (JCustomPart N)} (h : r.events.mapM (customPartOut R) = some evs) :
    customDefOut R r = some ⟨r.id, r.createdAt, r.updatedAt, r.createdBy, r.updatedBy, r.projectId, r.tags, r.name, r.description, r.status,
      r.isSystem, evs⟩ := by
  simp [customDefOut, h]

/-- The same for custom events, whose parts must be ones that are kept (`StoredPart`). -/
theorem C145_custom_partial (R : ReqEnv N) {E : Env Q} {n m : Nat} {kv kv1 kv2 : Kv} (h : Hist E n kv) {ctx ctx' : Ctx} {p : Nat}
    (hp : p < 2 ^ 64) (ha : ctx.accountId < 2 ^ 64) {now now' : Time} {q : JCustomNew N} (hf : ∀ e ∈ q.events, e.Fits R)
    (hst : ∀ e ∈ q.events, StoredPart e) {j : JCustomDef N}
    (hc : (SchemaCall.customCreate q).run R ctx p now kv = (some (.ok (.custom j)), kv1))
    (hr : Runs E (fun r => ¬ r.RewritesCustom p j.id) kv1 m kv2) (hn : n + m + 1 < 2 ^ 62) (hs : Sees ctx' p) :
    ∃ a, (SchemaCall.customGet j.id).run R ctx' p now' kv2 = (some (.ok (.custom a)), kv2) ∧ a.id = j.id ∧
      CustomAsked ctx.accountId p now q a := by
  have hc := run_allowed hc
  unfold SchemaCall.act at hc
  dsimp only at hc
  cases hin : customNewIn R ctx.accountId p now q with
  | none => rw [hin] at hc; simp at hc
  | some c =>
    rw [hin] at hc
    obtain ⟨r, e, er⟩ := writing_ok hc
    obtain ⟨j', ho, ej⟩ := Option.map_eq_some_iff.mp er
    cases ej
    simp only [customNewIn, Option.bind_eq_bind, Option.pure_def, Option.bind_eq_some_iff] at hin
    obtain ⟨evs, hev, ec⟩ := hin
    cases ec
    have hok : ∀ x ∈ evs, x.Ok := fun x hx => by
      obtain ⟨y, hy, hyx⟩ := mem_mapM hev x hx
      exact hf y hy x hyx
    generalize hreq : (⟨0, now, ctx.accountId, none, none, p, q.tags, q.name, q.description, q.status, q.isSystem, evs⟩ : CustomEvent) = rq at e
    have hrok : (Req.customCreate p now rq : Req Q).Ok := by subst hreq; exact ⟨hp, ha, hok⟩
    have h1 := h.step _ hrok
    rw [show Req.exec E (.customCreate p now rq) kv = kv1 from congrArg Prod.snd e] at h1
    have re := hist_customs h (by omega) p
    have e0 := apiCall_ok e
    unfold Meta.customCreate at e0
    split at e0
    · cases e0
    split at e0
    · cases e0
    obtain ⟨rfl, -, -, hl⟩ := create_done (custom_ok p) (re.inv (custom_ok p)) (re.room (custom_ok p)) (Meta.customCreate_ok (now := now) hrok) e0
    have hid := customDefOut_id ho
    have hid : j.id = Meta.lastId kv (customC p).ns + 1 := hid
    have hl := hl j.id
    rw [if_pos hid] at hl
    have hl2 := custom_stays h1 hl hr (by omega)
    have inv2 := (hist_customs (hr.hist h1) (by omega) p).inv (custom_ok p)
    subst hreq
    refine ⟨_, custom_get R hs.custom.1 (get_live inv2 hl2) (customDefOut_of _ (storedParts_back R hst hev)), rfl, ?_⟩
    exact ⟨rfl, rfl, rfl, rfl, Meta.normList_getD _, rfl, rfl, rfl, rfl, rfl, rfl⟩

/-- An update of a custom event that can be shown before; the parts it is given must be ones that are kept. -/
theorem C145_custom_update_partial (R : ReqEnv N) {E : Env Q} {n m : Nat} {kv kv1 kv2 : Kv} (h : Hist E n kv) {ctx ctx' : Ctx} {p id : Nat}
    (ha : ctx.accountId < 2 ^ 64) {now now' : Time} {q : JCustomUpd N} (hf : ∀ l, q.events = some l → ∀ e ∈ l, e.Fits R ∧ StoredPart e)
    {j old : JCustomDef N} (hold : (SchemaCall.customGet id).run R ctx' p now' kv = (some (.ok (.custom old)), kv))
    (hc : (SchemaCall.customUpdate id q).run R ctx p now kv = (some (.ok (.custom j)), kv1))
    (hr : Runs E (fun r => ¬ r.RewritesCustom p id) kv1 m kv2) (hn : n + m + 1 < 2 ^ 62) (hs : Sees ctx' p) :
    (∃ a, (SchemaCall.customGet id).run R ctx' p now' kv2 = (some (.ok (.custom a)), kv2) ∧ CustomChanged ctx.accountId now q old a) ∧
    ∀ i, i ≠ id → ((SchemaCall.customGet i).run R ctx' p now' kv1).1 = ((SchemaCall.customGet i).run R ctx' p now' kv).1 := by
  have hc := run_allowed hc
  unfold SchemaCall.act at hc
  dsimp only at hc
  cases hin : customUpdIn R ctx.accountId q with
  | none => rw [hin] at hc; simp at hc
  | some c =>
    rw [hin] at hc
    obtain ⟨r, e, er⟩ := writing_ok hc
    simp only [customUpdIn, Option.bind_eq_bind, Option.pure_def, Option.bind_eq_some_iff] at hin
    obtain ⟨evs, hev, ec⟩ := hin
    have ec := (Option.some.inj ec).symm
    have hevl : ∀ l, evs = some l → ∃ ql, q.events = some ql ∧ ql.mapM (customPartIn R) = some l := by
      intro l hl
      cases hq : q.events with
      | none => rw [hq] at hev; simp [keepEmpty] at hev; rw [← hev] at hl; cases hl
      | some ql =>
        rw [hq] at hev
        simp only [keepEmpty, Option.map_eq_some_iff] at hev
        obtain ⟨l', h1, h2⟩ := hev
        rw [hl] at h2
        cases h2
        exact ⟨ql, rfl, h1⟩
    have hok : (Req.customUpdate p id now c : Req Q).Ok := by
      refine ⟨by rw [ec]; exact ha, fun l hl x hx => ?_⟩
      obtain ⟨ql, h1, h2⟩ := hevl l (by rw [← hl, ec])
      obtain ⟨y, hy, hyx⟩ := mem_mapM h2 x hx
      exact (hf ql h1 y hy).1 x hyx
    have h1 := h.step _ hok
    rw [show Req.exec E (.customUpdate p id now c) kv = kv1 from congrArg Prod.snd e] at h1
    obtain ⟨ro, g1, n1, i1, rfl, g2, g3⟩ := Meta.update_stored (custom_ok p) Meta.CustomEvent.norm_norm (hist_customs h (by omega) p)
      (Meta.customUpdate_ok hok kv) e
    have inv1 := (hist_customs h1 (by omega) p).inv (custom_ok p)
    have hl2 := custom_stays h1 (live_get inv1 g2) hr (by omega)
    have inv2 := (hist_customs (hr.hist h1) (by omega) p).inv (custom_ok p)
    rw [run_of (c := .customGet id) hs.custom.1] at hold
    have hold : (shownAs (fun r => (customDefOut R r).map Shown.custom) ((customC p).getById id kv), kv) = _ := hold
    rw [g1] at hold
    injection hold with hold
    simp only [shownAs, Option.map_eq_some_iff] at hold
    obtain ⟨x, ⟨jo, hjo, rfl⟩, ex⟩ := hold
    cases ex
    simp only [customDefOut, Option.bind_eq_bind, Option.pure_def, Option.bind_eq_some_iff] at hjo
    obtain ⟨oevs, hoe, ejo⟩ := hjo
    cases ejo
    refine ⟨?_, fun i hi => ?_⟩
    · have hnorm : ro.events.map Meta.CEvent.norm = ro.events := congrArg CustomEvent.events n1
      have hparts : ∃ pe, ((c.events.getD ro.events).map Meta.CEvent.norm).mapM (customPartOut R) = some pe ∧ Honours q.events oevs pe := by
        have hce : c.events = evs := by rw [ec]
        rw [hce]
        cases evs with
        | none =>
          refine ⟨oevs, by show (ro.events.map _).mapM _ = _; rw [hnorm]; exact hoe, ?_⟩
          cases hq : q.events with
          | none => exact ⟨by simp, fun _ => rfl⟩
          | some ql => rw [hq] at hev; simp [keepEmpty] at hev
        | some l =>
          obtain ⟨ql, h1, h2⟩ := hevl l rfl
          refine ⟨ql, storedParts_back R (fun e he => (hf ql h1 e he).2) h2, fun v hv => ?_, fun hv => ?_⟩
          · rw [h1] at hv; exact Option.some.inj hv
          · rw [h1] at hv; cases hv
      obtain ⟨pe, hpe, hh⟩ := hparts
      refine ⟨_, custom_get R hs.custom.1 (get_live inv2 hl2) (customDefOut_of _ hpe), ?_⟩
      subst ec
      exact ⟨rfl, Meta.honours_getD _ _, Meta.honours_getD _ _, Meta.honours_getD _ _, Meta.honoursList_getD _ (congrArg CustomEvent.tags n1), hh,
        rfl, rfl, rfl, (congrArg CustomEvent.createdAt n1 :), rfl, rfl⟩
    · rw [run_of (c := .customGet i) hs.custom.1, run_of (c := .customGet i) hs.custom.1]
      show shownAs _ ((customC p).getById i kv1) = shownAs _ ((customC p).getById i kv)
      rw [g3 i hi]

/-! ## Kinds of groups -/

theorem map_key {α : Type} {dec : Storage.Bytes → Option α} {key : α → Str} : ∀ {es : List (Str × Storage.Bytes)} {l : List α},
    (∀ e ∈ es, ∃ a, dec e.2 = some a ∧ e.1 = key a) → es.map (fun e => dec e.2) = l.map some → es.map (·.1) = l.map key := by
  intro es
  induction es with
  | nil => intro l _ h; cases l with
    | nil => rfl
    | cons _ _ => cases h
  | cons e es ih =>
    intro l hk h
    cases l with
    | nil => cases h
    | cons a l =>
      rw [List.map_cons, List.map_cons] at h
      injection h with h1 h2
      obtain ⟨b, hb, he⟩ := hk e (by simp)
      rw [h1] at hb
      cases hb
      rw [List.map_cons, List.map_cons, he, ih (fun e he => hk e (by simp [he])) h2]

/-- In every history the list of the kinds of groups is shown and has exactly the known ones, each once; asking for a kind of groups
by a name shows it, and it is in the list then. -/
theorem C145_groups (R : ReqEnv N) {E : Env Q} {n : Nat} {kv : Kv} (h : Runs E (fun _ => True) [] n kv) {ctx : Ctx} {p : Nat}
    (hl : ProjOp.allowed .groupList ctx p = true) (now : Time) :
    ∃ l, (SchemaCall.groupList (N := N)).run R ctx p now kv = (some (.ok (.groups l)), kv) ∧ (l.map JGroupDef.id).Nodup ∧
      (l.map JGroupDef.name).Nodup ∧ ∀ j, j ∈ l ↔ ∃ g, Meta.Known p kv j.name g ∧ g.id = j.id := by
  obtain ⟨hi, -⟩ := h.gn (Meta.GnInv.empty p)
  have hcl : Meta.Clean kv := (h.hist .start).clean
  have hmem : ∀ e, e ∈ Meta.entries (Meta.groupNamesPrefix p) kv ↔
      ∃ s v, e = ((Meta.Key.groupName p s).render, v) ∧ Meta.getK kv (.groupName p s) = some v := by
    intro e
    unfold Meta.entries
    rw [List.mem_filter]
    constructor
    · rintro ⟨h1, h2⟩
      obtain ⟨k, hw, hk⟩ := hcl.keys e h1
      rw [hk, List.isPrefixOf_iff_prefix] at h2
      obtain ⟨s, rfl⟩ := Meta.C28_group_names_isolated hw h2
      refine ⟨s, e.2, by rw [← hk], (hcl.mem_iff _ _).mp ?_⟩
      rw [← hk]; exact h1
    · rintro ⟨s, v, rfl, hv⟩
      refine ⟨(hcl.mem_iff _ _).mpr hv, ?_⟩
      rw [List.isPrefixOf_iff_prefix]
      exact ⟨'/' :: s, by simp [Meta.groupNamesPrefix, Meta.Key.render, Meta.projPath]⟩
  have hk : ∀ e ∈ Meta.entries (Meta.groupNamesPrefix p) kv, ∃ g : Group, Group.dec e.2 = some g ∧ e.1 = (Meta.Key.groupName p g.name).render := by
    intro e he
    obtain ⟨s, v, rfl, hv⟩ := (hmem e).mp he
    obtain ⟨g, h1, -, h2, -⟩ := hi.dec hv
    exact ⟨g, h1, by rw [h2]⟩
  obtain ⟨l, h1, h2⟩ := Meta.readAll_ok (dec := Group.dec) (Meta.entries (Meta.groupNamesPrefix p) kv) fun e he => by
    obtain ⟨g, hg, -⟩ := hk e he; exact ⟨g, hg⟩
  have hkey : (Meta.entries (Meta.groupNamesPrefix p) kv).map (·.1) = l.map fun g => (Meta.Key.groupName p g.name).render :=
    map_key hk (Meta.readAll_map h1)
  have hnames : (l.map Group.name).Nodup := by
    have hn : ((Meta.entries (Meta.groupNamesPrefix p) kv).map (·.1)).Nodup := List.Pairwise.sublist (List.filter_sublist.map _) hcl.nodup
    rw [hkey] at hn
    rw [List.Nodup, List.pairwise_map] at hn ⊢
    exact hn.imp fun hne e => hne (by rw [e])
  have hknown : ∀ g, g ∈ l ↔ Meta.Known p kv g.name g := by
    intro g
    rw [h2, Meta.known_iff hi]
    constructor
    · rintro ⟨e, he, hd⟩
      obtain ⟨s, v, rfl, hv⟩ := (hmem e).mp he
      obtain ⟨g', h3, -, h4, -⟩ := hi.dec hv
      rw [hd] at h3
      cases h3
      rw [h4]
      exact ⟨v, hv, hd⟩
    · rintro ⟨b, hb, hd⟩
      exact ⟨_, (hmem _).mpr ⟨g.name, b, rfl, hb⟩, hd⟩
  refine ⟨l.map groupDefOut, ?_, ?_, ?_, fun j => ?_⟩
  · rw [run_of (c := .groupList) hl]
    show (shownAs _ (Meta.readAll Group.dec (Meta.entries (Meta.groupNamesPrefix p) kv)), kv) = _
    rw [h1]
    rfl
  · rw [List.map_map]
    rw [List.Nodup, List.pairwise_map] at hnames ⊢
    refine hnames.imp_of_mem fun {a b} ha hb hne e => hne ?_
    exact Meta.C89_injective h ((hknown a).mp ha) ((hknown b).mp hb) e
  · rw [List.map_map]; exact hnames
  · rw [List.mem_map]
    constructor
    · rintro ⟨g, hg, rfl⟩; exact ⟨g, (hknown g).mp hg, rfl⟩
    · rintro ⟨g, hg, e⟩
      have hgn : g.name = j.name := by
        obtain ⟨b, h3, h4⟩ := (Meta.known_iff hi _ _).mp hg
        obtain ⟨g', h5, -, h6, -⟩ := hi.dec h3
        rw [h4] at h5; cases h5; exact h6
      refine ⟨g, (hknown g).mpr (by rw [hgn]; exact hg), ?_⟩
      obtain ⟨ji, jn⟩ := j
      show (⟨g.id, g.name⟩ : JGroupDef) = _
      rw [e, hgn]

/-- A kind of groups that was asked for by a name is shown with it, and in every list from then on. -/
theorem C145_group_created (R : ReqEnv N) {E : Env Q} {n m : Nat} {kv kv1 kv2 : Kv} (h : Runs E (fun _ => True) [] n kv) {ctx ctx' : Ctx} {p : Nat}
    {now now' : Time} {name d : Str} {j : JGroupDef} (hc : (SchemaCall.groupCreate (N := N) name d).run R ctx p now kv = (some (.ok (.group j)), kv1))
    (hr : Runs E (fun _ => True) kv1 m kv2) (hl : ProjOp.allowed .groupList ctx' p = true) :
    j.name = name ∧ ∃ l, (SchemaCall.groupList (N := N)).run R ctx' p now' kv2 = (some (.ok (.groups l)), kv2) ∧ j ∈ l := by
  obtain ⟨g, e, er⟩ := writing_ok (run_allowed hc)
  cases er
  obtain ⟨hk, hn, -⟩ := Meta.C89_permanent h (apiCall_ok e) hr
  refine ⟨hn, ?_⟩
  have h1 : Runs E (fun _ => True) [] (n + 1) kv1 := by
    have := h.step (.groupName p name d) trivial trivial
    rwa [show Req.exec E (.groupName p name d) kv = kv1 from congrArg Prod.snd e] at this
  obtain ⟨l, h2, -, -, h3⟩ := C145_groups R (h1.trans hr) hl now'
  exact ⟨l, h2, (h3 _).mpr ⟨g, by show Meta.Known p kv2 g.name g; rw [hn]; exact hk, rfl⟩⟩

end OptiPrism.Platform
