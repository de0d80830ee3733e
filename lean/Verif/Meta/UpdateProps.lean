import Verif.Meta.ProjectsProps
import Verif.Meta.SystemProps
import Verif.Meta.AttachProps
import Verif.Meta.MembersProps
import Verif.Meta.ColumnsProps
import Verif.Meta.ListingProps

/-!
# C108: an update changes exactly what the request mentions

For every module with an `update`: after a successful update in any history, the record read under the
identifier has the requested value in every field the request mentions and its former value in every other
field; creation data stay; who updated it and when (in whole seconds) is recorded; no other record changes.
`Honours` and `HonoursList` are the specification of one field. A list that is optional is stored without the
difference between an absent and an empty list.
-/

namespace OptiPrism.Meta

variable {Q R : Type}

/-- The new value of a field is the requested one if there is one, otherwise the old one. -/
def Honours {α : Type} (q : Option α) (old new : α) : Prop := (∀ v, q = some v → new = v) ∧ (q = none → new = old)

/-- The same for optional lists, where no list and the empty list are one value. -/
def HonoursList {α : Type} (q : Option (Option (List α))) (old new : Option (List α)) : Prop :=
  (∀ v, q = some v → new.getD [] = v.getD []) ∧ (q = none → new = old)

theorem honours_getD {α : Type} (q : Option α) (old : α) : Honours q old (q.getD old) :=
  ⟨fun v h => by rw [h]; rfl, fun h => by rw [h]; rfl⟩

theorem honoursList_getD {α : Type} (q : Option (Option (List α))) {old : Option (List α)} (h : normList old = old) :
    HonoursList q old (normList (q.getD old)) :=
  ⟨fun v e => by rw [e]; exact normList_getD v, fun e => by rw [e]; exact h⟩

/-! ## What is read has been written -/

theorem run_fixed {c : Coll R} {norm : R → R} (idem : ∀ r, norm (norm r) = norm r) {s s' : Spec R} {ops : List (Op R)}
    {as : List (Option (Except Err R))} (h : Spec.Run c norm s ops as s') (hs : ∀ id r, s.live id = some r → norm r = r) :
    ∀ id r, s'.live id = some r → norm r = r := by
  induction h with
  | nil => exact hs
  | cons h1 _ ih =>
    apply ih
    cases h1 <;> try exact hs
    all_goals
      intro j r hj
      dsimp only at hj
      split at hj
      · first
          | (injection hj with hj; subst hj; exact idem _)
          | cases hj
      · exact hs j r hj

/-- In a reachable store every record is in the form it has after being written and read. -/
theorem Reach.fixed {c : Coll R} {norm : R → R} {Valid : R → Prop} (ok : c.Ok norm Valid) (idem : ∀ r, norm (norm r) = norm r) {kv : Kv}
    (h : Reach c Valid kv) {id : Nat} {r : R} (hl : c.live kv id = some r) : norm r = r := by
  obtain ⟨ops, ho, hn, rfl⟩ := h
  have hz : lastId [] c.ns = 0 := by simp [lastId, getK, Kv.get]
  refine run_fixed idem (C27_refines ok ops [] (empty_inv c Valid) ho (by rw [hz]; omega)).1 ?_ id r hl
  intro id r h
  simp [Coll.abs, Coll.live, getK, Kv.get] at h

theorem live_of_get {c : Coll R} {Valid : R → Prop} {kv : Kv} (h : c.Inv Valid kv) {id : Nat} {r : R} (hg : c.live kv id = some r) :
    c.getById id kv = .ok r := by rw [getById_eq h, hg]

/-- What a successful update leaves. -/
theorem update_stored {c : Coll R} {norm : R → R} {Valid : R → Prop} (ok : c.Ok norm Valid) (idem : ∀ r, norm (norm r) = norm r) {kv kv' : Kv}
    (h : Reach c Valid kv) {id : Nat} {pairs : R → List (Option Key × Option Key)} {f : R → Except Err R} {t : R → R}
    (ho : (Op.update id pairs f t).Ok c Valid) {a : R} (hu : runCall (c.update id pairs f) kv = (.ok a, kv')) :
    ∃ old, c.getById id kv = .ok old ∧ norm old = old ∧ c.id old = id ∧ a = t old ∧ c.getById id kv' = .ok (norm (t old)) ∧
      ∀ j, j ≠ id → c.getById j kv' = c.getById j kv := by
  have hv := h.inv ok
  obtain ⟨hf, hid, hval, sel, hs, hsn, hp, hrest⟩ := ho
  rcases update_spec ok hv (id := id) hs hsn hf hp hrest hid hval with ⟨_, e⟩ | ⟨r, hr, ⟨_, e⟩ | ⟨_, ⟨er, _, e⟩ | ⟨_, kv1, e, hi, _, hli⟩⟩⟩
  · rw [runCall, e] at hu; cases hu
  · rw [runCall, e] at hu; cases hu
  · rw [runCall, e] at hu; cases hu
  · rw [runCall, e] at hu
    cases hu
    refine ⟨r, live_of_get hv hr, h.fixed ok idem hr, (Inv.live_id hv hr).1, rfl, live_of_get hi (by rw [hli, if_pos rfl]), ?_⟩
    intro j hj
    rw [getById_eq hi, getById_eq hv, hli, if_neg hj]

/-! ## Writing twice is writing once -/

theorem opt_trunc (t : Option Time) : (t.map Time.trunc).map Time.trunc = t.map Time.trunc := by cases t <;> rfl

theorem Team.norm_norm (r : Team) : r.norm.norm = r.norm := by simp only [Team.norm, Time.trunc_trunc, opt_trunc]
theorem Event.norm_norm (r : Event) : r.norm.norm = r.norm := by simp only [Event.norm, Time.trunc_trunc, opt_trunc, normList_normList]
theorem Account.norm_norm (r : Account) : r.norm.norm = r.norm := by simp only [Account.norm, Time.trunc_trunc, opt_trunc, normList_normList]
theorem Org.norm_norm (r : Org) : r.norm.norm = r.norm := by simp only [Org.norm, Time.trunc_trunc, opt_trunc]
theorem Project.norm_norm (r : Project) : r.norm.norm = r.norm := by simp only [Project.norm, Time.trunc_trunc, opt_trunc, normList_normList]
theorem Panel.norm_norm (r : Panel) : r.norm.norm = r.norm := by simp only [Panel.norm, Nat.mod_mod]
theorem Dashboard.norm_norm (r : Dashboard) : r.norm.norm = r.norm := by
  simp only [Dashboard.norm, Time.trunc_trunc, opt_trunc, normList_normList, List.map_map]
  congr 1
  exact List.map_congr_left fun p _ => Panel.norm_norm p
theorem Report.norm_norm (r : Report Q) : r.norm.norm = r.norm := by simp only [Report.norm, Time.trunc_trunc, opt_trunc, normList_normList]
theorem Property.norm_norm (r : Property) : r.norm.norm = r.norm := by simp only [Property.norm, Time.trunc_trunc, opt_trunc, normList_normList]
theorem Backup.norm_norm (r : Backup) : r.norm.norm = r.norm := by simp only [Backup.norm, Time.trunc_trunc, opt_trunc]
theorem Scalar.norm_norm (r : Scalar) : r.norm.norm = r.norm := by cases r <;> rfl
theorem PropFilter.norm_norm (r : PropFilter) : r.norm.norm = r.norm := by
  simp only [PropFilter.norm, Option.getD_some, List.map_map]
  congr 2
  exact List.map_congr_left fun p _ => Scalar.norm_norm p
theorem normList_map {α β : Type} (f : α → β) (l : Option (List α)) : (normList l).map (List.map f) = normList (l.map (List.map f)) := by
  rcases l with _ | _ | ⟨a, l⟩ <;> rfl
theorem CEvent.norm_norm (r : CEvent) : r.norm.norm = r.norm := by
  simp only [CEvent.norm, normList_map, normList_normList, Option.map_map]
  congr 2
  cases r.filters with
  | none => rfl
  | some l =>
    simp only [Option.map_some, Function.comp_def, List.map_map]
    congr 1
    exact List.map_congr_left fun p _ => PropFilter.norm_norm p
theorem CustomEvent.norm_norm (r : CustomEvent) : r.norm.norm = r.norm := by
  simp only [CustomEvent.norm, Time.trunc_trunc, opt_trunc, normList_normList, List.map_map]
  congr 1
  exact List.map_congr_left fun p _ => CEvent.norm_norm p

/-! ## The modules -/

/-- C108 for teams. -/
theorem C108_team {E : Env Q} {n : Nat} {kv kv' : Kv} (h : Hist E n kv) (hn : n < 2 ^ 62) {o id : Nat} {now : Time} {b : Nat} {name : Option Str}
    (hb : b < 2 ^ 64) {a : Team} (hu : runCall (teamUpdate o id now b name) kv = (.ok a, kv')) :
    ∃ old new, (teamsC o).getById id kv = .ok old ∧ (teamsC o).getById id kv' = .ok new ∧ Honours name old.name new.name ∧ a.name = new.name ∧
      new.id = id ∧ new.createdAt = old.createdAt ∧ new.createdBy = old.createdBy ∧ new.orgId = old.orgId ∧
      new.updatedAt = some now.trunc ∧ new.updatedBy = some b ∧ ∀ j, j ≠ id → (teamsC o).getById j kv' = (teamsC o).getById j kv := by
  obtain ⟨old, h1, h2, h3, rfl, h5, h6⟩ := update_stored (teams_ok o) Team.norm_norm (hist_teams h hn o)
    (t := fun r => { r with updatedAt := some now, updatedBy := some b, name := name.getD r.name }) (by
      refine ⟨fun r r' e => by injection e with e; exact e.symm, fun _ => rfl,
        fun r h => ⟨⟨h.head.id, h.head.createdBy, optOk_some hb⟩, h.org⟩, ?_⟩
      cases name with
      | none => exact ⟨[], by simp, by simp, fun _ => rfl, fun r i hi _ => by simp [teamsC] at hi; subst hi; rfl⟩
      | some x => exact ⟨(teamsC o).ixs, fun _ h => h, by simp [teamsC], fun _ => rfl, fun r i hi hn => absurd hi hn⟩) hu
  exact ⟨old, _, h1, h5, honours_getD _ _, rfl, h3, (congrArg Team.createdAt h2 :), rfl, rfl, rfl, rfl, h6⟩

/-- C108 for organizations: the members stay. -/
theorem C108_organization {E : Env Q} {n : Nat} {kv kv' : Kv} (h : Hist E n kv) (hn : n < 2 ^ 62) {id : Nat} {now : Time} {b : Nat}
    {name : Option Str} (hb : b < 2 ^ 64) {a : Org} (hu : runCall (orgUpdate id now b name) kv = (.ok a, kv')) :
    ∃ old new, orgsC.getById id kv = .ok old ∧ orgsC.getById id kv' = .ok new ∧ Honours name old.name new.name ∧ a.name = new.name ∧
      new.id = id ∧ new.createdAt = old.createdAt ∧ new.createdBy = old.createdBy ∧ new.members = old.members ∧
      new.updatedAt = some now.trunc ∧ new.updatedBy = some b ∧ ∀ j, j ≠ id → orgsC.getById j kv' = orgsC.getById j kv := by
  obtain ⟨old, h1, h2, h3, rfl, h5, h6⟩ := update_stored orgs_ok Org.norm_norm (hist_orgs h hn) (orgUpdate_ok (Q := Q) hb) hu
  exact ⟨old, _, h1, h5, honours_getD _ _, rfl, h3, (congrArg Org.createdAt h2 :), rfl, rfl, rfl, rfl, h6⟩

/-- C108 for events. The lists of properties are not stored with the event (C92); the answer has them. -/
theorem C108_event_partial {E : Env Q} {n : Nat} {kv kv' : Kv} (h : Hist E n kv) (hn : n < 2 ^ 62) {p id : Nat} {now : Time} {q : EventUpd}
    (hq : q.updatedBy < 2 ^ 64) {a : Event} (hu : runCall (eventUpdate p id now q) kv = (.ok a, kv')) :
    ∃ old new, (eventsC p).getById id kv = .ok old ∧ (eventsC p).getById id kv' = .ok new ∧
      Honours q.name old.name new.name ∧ Honours q.displayName old.displayName new.displayName ∧
      Honours q.description old.description new.description ∧ Honours q.status old.status new.status ∧
      Honours q.isSystem old.isSystem new.isSystem ∧ HonoursList q.tags old.tags new.tags ∧
      Honours q.eventProperties old.eventProperties a.eventProperties ∧ Honours q.userProperties old.userProperties a.userProperties ∧
      Honours q.customProperties old.customProperties a.customProperties ∧
      new.id = id ∧ new.createdAt = old.createdAt ∧ new.createdBy = old.createdBy ∧ new.projectId = old.projectId ∧
      new.updatedAt = some now.trunc ∧ new.updatedBy = some q.updatedBy ∧ ∀ j, j ≠ id → (eventsC p).getById j kv' = (eventsC p).getById j kv := by
  obtain ⟨old, h1, h2, h3, rfl, h5, h6⟩ := update_stored (events_ok p) Event.norm_norm (hist_events h hn p) (eventUpdate_ok hq) hu
  exact ⟨old, _, h1, h5, honours_getD _ _, honours_getD _ _, honours_getD _ _, honours_getD _ _, honours_getD _ _,
    honoursList_getD _ (congrArg Event.tags h2), honours_getD _ _, honours_getD _ _, honours_getD _ _, h3, (congrArg Event.createdAt h2 :),
    rfl, rfl, rfl, rfl, h6⟩

/-- C108 for accounts. Missing: the role, below. -/
theorem C108_account_partial {E : Env Q} {n : Nat} {kv kv' : Kv} (h : Hist E n kv) (hn : n < 2 ^ 62) {id : Nat} {now : Time} {q : AccountUpd}
    (hq : (Req.accountUpdate (Q := Q) id now q).Ok) {a : Account} (hu : runCall (accountUpdate id now q) kv = (.ok a, kv')) :
    ∃ old new, accountsC.getById id kv = .ok old ∧ accountsC.getById id kv' = .ok new ∧
      Honours q.passwordHash old.passwordHash new.passwordHash ∧ Honours q.email old.email new.email ∧ Honours q.name old.name new.name ∧
      Honours q.forceUpdatePassword old.forceUpdatePassword new.forceUpdatePassword ∧
      Honours q.forceUpdateEmail old.forceUpdateEmail new.forceUpdateEmail ∧
      HonoursList q.organizations old.organizations new.organizations ∧ HonoursList q.projects old.projects new.projects ∧
      HonoursList q.teams old.teams new.teams ∧ new.role = old.role ∧
      new.id = id ∧ new.createdAt = old.createdAt ∧ new.createdBy = old.createdBy ∧
      new.updatedAt = some now.trunc ∧ new.updatedBy = some q.updatedBy ∧ ∀ j, j ≠ id → accountsC.getById j kv' = accountsC.getById j kv := by
  obtain ⟨old, h1, h2, h3, rfl, h5, h6⟩ := update_stored accounts_ok Account.norm_norm (hist_accounts h hn) (accountUpdate_ok hq) hu
  exact ⟨old, _, h1, h5, honours_getD _ _, honours_getD _ _, honours_getD _ _, honours_getD _ _, honours_getD _ _,
    honoursList_getD _ (congrArg Account.organizations h2), honoursList_getD _ (congrArg Account.projects h2),
    honoursList_getD _ (congrArg Account.teams h2), rfl, h3, (congrArg Account.createdAt h2 :), rfl, rfl, rfl, h6⟩

/-- C108 for custom events. -/
theorem C108_custom_event {E : Env Q} {n : Nat} {kv kv' : Kv} (h : Hist E n kv) (hn : n < 2 ^ 62) {p id : Nat} {now : Time} {q : CustomUpd}
    (hq : (Req.customUpdate (Q := Q) p id now q).Ok) {a : CustomEvent} (hu : runCall (customUpdate p id now q) kv = (.ok a, kv')) :
    ∃ old new, (customC p).getById id kv = .ok old ∧ (customC p).getById id kv' = .ok new ∧
      Honours q.name old.name new.name ∧ Honours q.description old.description new.description ∧ Honours q.status old.status new.status ∧
      Honours q.isSystem old.isSystem new.isSystem ∧ HonoursList q.tags old.tags new.tags ∧
      Honours (q.events.map (List.map CEvent.norm)) old.events new.events ∧ Honours q.events old.events a.events ∧
      new.id = id ∧ new.createdAt = old.createdAt ∧ new.createdBy = old.createdBy ∧ new.projectId = old.projectId ∧
      new.updatedAt = some now.trunc ∧ new.updatedBy = some q.updatedBy ∧ ∀ j, j ≠ id → (customC p).getById j kv' = (customC p).getById j kv := by
  obtain ⟨old, h1, h2, h3, rfl, h5, h6⟩ := update_stored (custom_ok p) CustomEvent.norm_norm (hist_customs h hn p) (customUpdate_ok hq kv) hu
  refine ⟨old, _, h1, h5, honours_getD _ _, honours_getD _ _, honours_getD _ _, honours_getD _ _,
    honoursList_getD _ (congrArg CustomEvent.tags h2), ?_, honours_getD _ _, h3, (congrArg CustomEvent.createdAt h2 :), rfl, rfl, rfl, rfl, h6⟩
  have he : old.events.map CEvent.norm = old.events := congrArg CustomEvent.events h2
  show Honours _ _ ((q.events.getD old.events).map CEvent.norm)
  cases q.events with
  | none => exact ⟨fun v hv => by simp at hv, fun _ => he⟩
  | some l => exact ⟨fun v hv => by simpa using hv, fun hv => by simp at hv⟩

/-- A panel as it is stored: the coordinates have 32 bits. -/
def Panel.Stores (p p' : Panel) : Prop :=
  p'.reportId = p.reportId ∧ (p.x < 2 ^ 32 → p'.x = p.x) ∧ (p.y < 2 ^ 32 → p'.y = p.y) ∧ (p.w < 2 ^ 32 → p'.w = p.w) ∧ (p.h < 2 ^ 32 → p'.h = p.h)

theorem Panel.stores_norm (p : Panel) : p.Stores p.norm :=
  ⟨rfl, fun h => Nat.mod_eq_of_lt h, fun h => Nat.mod_eq_of_lt h, fun h => Nat.mod_eq_of_lt h, fun h => Nat.mod_eq_of_lt h⟩

/-- C108 for dashboards. -/
theorem C108_dashboard {E : Env Q} {n : Nat} {kv kv' : Kv} (h : Hist E n kv) (hn : n < 2 ^ 62) {p id : Nat} {now : Time} {q : DashboardUpd}
    (hq : (Req.dashboardUpdate (Q := Q) p id now q).Ok) {a : Dashboard} (hu : runCall (dashboardUpdate p id now q) kv = (.ok a, kv')) :
    ∃ old new, (dashboardsC p).getById id kv = .ok old ∧ (dashboardsC p).getById id kv' = .ok new ∧
      Honours q.name old.name new.name ∧ Honours q.description old.description new.description ∧ HonoursList q.tags old.tags new.tags ∧
      (q.panels = none → new.panels = old.panels) ∧
      (∀ l, q.panels = some l → new.panels.length = l.length ∧ ∀ i (h : i < l.length) (h' : i < new.panels.length), l[i].Stores new.panels[i]) ∧
      Honours q.panels old.panels a.panels ∧
      new.id = id ∧ new.createdAt = old.createdAt ∧ new.createdBy = old.createdBy ∧ new.projectId = old.projectId ∧
      new.updatedAt = some now.trunc ∧ new.updatedBy = some q.updatedBy ∧
      ∀ j, j ≠ id → (dashboardsC p).getById j kv' = (dashboardsC p).getById j kv := by
  obtain ⟨old, h1, h2, h3, rfl, h5, h6⟩ := update_stored (dashboards_ok p) Dashboard.norm_norm (hist_dashboards h hn p) (t := q.apply now)
    (noix_ok _ (fun r r' e => by injection e with e; exact e.symm) (fun _ => rfl) (fun r h => by
      refine ⟨⟨h.head.id, h.head.createdBy, optOk_some hq.1⟩, h.proj, ?_⟩
      intro e he
      simp only [DashboardUpd.apply] at he
      cases hp : q.panels with
      | none => rw [hp] at he; exact h.panels e he
      | some l => rw [hp] at he; exact hq.2 l hp e he) (by simp [dashboardsC])) hu
  have he : old.panels.map Panel.norm = old.panels := congrArg Dashboard.panels h2
  have hnew : (q.apply now old).norm.panels = (q.panels.getD old.panels).map Panel.norm := rfl
  refine ⟨old, _, h1, h5, honours_getD _ _, honours_getD _ _, honoursList_getD _ (congrArg Dashboard.tags h2), ?_, ?_, honours_getD _ _, h3,
    (congrArg Dashboard.createdAt h2 :), rfl, rfl, rfl, rfl, h6⟩
  · intro hp; rw [hnew, hp]; exact he
  · intro l hp
    have : (q.apply now old).norm.panels = l.map Panel.norm := by rw [hnew, hp]; rfl
    refine ⟨by rw [this, List.length_map], fun i hi hi' => ?_⟩
    simp only [this, List.getElem_map]
    exact Panel.stores_norm _

/-- C108 for reports. Missing: the type, below. -/
theorem C108_report_partial {E : Env Q} {n : Nat} {kv kv' : Kv} (h : Hist E n kv) (hn : n < 2 ^ 62) {p id : Nat} {now : Time} {q : ReportUpd Q}
    (hq : q.updatedBy < 2 ^ 64) {a : Report Q} (hu : runCall (reportUpdate E.bc p id now q) kv = (.ok a, kv')) :
    ∃ old new, (reportsC E.bc p).getById id kv = .ok old ∧ (reportsC E.bc p).getById id kv' = .ok new ∧
      Honours q.name old.name new.name ∧ Honours q.description old.description new.description ∧ HonoursList q.tags old.tags new.tags ∧
      Honours q.query old.query new.query ∧ new.typ = old.typ ∧
      new.id = id ∧ new.createdAt = old.createdAt ∧ new.createdBy = old.createdBy ∧ new.projectId = old.projectId ∧
      new.updatedAt = some now.trunc ∧ new.updatedBy = some q.updatedBy ∧
      ∀ j, j ≠ id → (reportsC E.bc p).getById j kv' = (reportsC E.bc p).getById j kv := by
  obtain ⟨old, h1, h2, h3, rfl, h5, h6⟩ := update_stored (reports_ok E.bc p) Report.norm_norm (hist_reports h hn p) (t := q.apply now)
    (noix_ok _ (fun r r' e => by injection e with e; exact e.symm) (fun _ => rfl)
      (fun r h => ⟨⟨h.head.id, h.head.createdBy, optOk_some hq⟩, h.proj⟩) (by simp [reportsC])) hu
  exact ⟨old, _, h1, h5, honours_getD _ _, honours_getD _ _, honoursList_getD _ (congrArg Report.tags h2), honours_getD _ _, rfl, h3,
    (congrArg Report.createdAt h2 :), rfl, rfl, rfl, rfl, h6⟩

/-- C108 for properties: everything but the name, which is permanent, the order and the column. -/
theorem C108_property {E : Env Q} {n : Nat} {kv kv' : Kv} (h : Hist E n kv) (hn : n < 2 ^ 62) {p id : Nat} {ty : PropType} {now : Time} {q : PropUpd}
    (hq : (Req.propUpdate (Q := Q) p ty id now q).Ok) {a : Property} (hu : runCall (propUpdate p ty id now q) kv = (.ok a, kv')) :
    ∃ old new, (propsC p ty).getById id kv = .ok old ∧ (propsC p ty).getById id kv' = .ok new ∧
      HonoursList q.tags old.tags new.tags ∧ Honours q.displayName old.displayName new.displayName ∧
      Honours q.description old.description new.description ∧ Honours q.typ old.typ new.typ ∧ Honours q.dataType old.dataType new.dataType ∧
      Honours q.status old.status new.status ∧ Honours q.isSystem old.isSystem new.isSystem ∧ Honours q.nullable old.nullable new.nullable ∧
      Honours q.isArray old.isArray new.isArray ∧ Honours q.isDictionary old.isDictionary new.isDictionary ∧
      Honours q.dictType old.dictType new.dictType ∧ new.name = old.name ∧ new.order = old.order ∧ new.hidden = old.hidden ∧
      new.id = id ∧ new.createdAt = old.createdAt ∧ new.createdBy = old.createdBy ∧ new.projectId = old.projectId ∧
      new.updatedAt = some now.trunc ∧ new.updatedBy = some q.updatedBy ∧ ∀ j, j ≠ id → (propsC p ty).getById j kv' = (propsC p ty).getById j kv := by
  obtain ⟨old, h1, h2, h3, rfl, h5, h6⟩ := update_stored (props_ok p ty) Property.norm_norm (hist_props h hn p ty) (propUpdate_ok hq) hu
  exact ⟨old, _, h1, h5, honoursList_getD _ (congrArg Property.tags h2), honours_getD _ _, honours_getD _ _, honours_getD _ _, honours_getD _ _,
    honours_getD _ _, honours_getD _ _, honours_getD _ _, honours_getD _ _, honours_getD _ _, honours_getD _ _, rfl, rfl, rfl, h3,
    (congrArg Property.createdAt h2 :), rfl, rfl, rfl, rfl, h6⟩

/-! ## Projects

Names and tokens share an index (C35), so that the projects are not a collection as the others are; the records
are nevertheless stored one by one. -/

/-- Every stored project can be read and is in stored form. -/
def ProjectsOk (kv : Kv) : Prop := ∀ id v, getK kv (.data (.top .projects) id) = some v →
  ∃ r, Project.dec v = some r ∧ r.Valid ∧ r.norm = r ∧ r.id = id

theorem data_ne_idx {ns : Ns} {j : Nat} {k : Key} (h : IdxOf ns k) : k ≠ .data ns j := by
  obtain ⟨ix, s, rfl⟩ := h
  intro e; cases e

/-- The records after an update. -/
theorem update_data {c : Coll R} {id : Nat} {pairs : R → List (Option Key × Option Key)} {f : R → Except Err R}
    (hp : ∀ r, PairsIn (IdxOf c.ns) (pairs r)) {kv kv' : Kv} {a : R} (hu : c.update id pairs f kv = .ok (a, kv')) :
    ∃ old, c.getById id kv = .ok old ∧ f old = .ok a ∧
      ∀ j, getK kv' (.data c.ns j) = if j = c.id a then some (c.enc a) else getK kv (.data c.ns j) := by
  unfold Coll.update at hu
  cases hg : c.getById id kv with
  | error e => rw [hg] at hu; cases hu
  | ok r =>
    rw [hg] at hu
    dsimp only at hu
    split at hu
    · cases hu
    · cases hf : f r with
      | error e => rw [hf] at hu; cases hu
      | ok r' =>
        rw [hf] at hu
        cases hu
        refine ⟨r, rfl, hf, fun j => ?_⟩
        rw [(updateIndex_steps _ (hp r) id _).get (wf_data c.ns j) (fun k hk => data_ne_idx hk), getK_putK _ (wf_data _ _) (wf_data _ _)]
        by_cases hj : j = c.id a <;> simp [hj]

theorem nextSeq_data {ns : Ns} {kv kv' : Kv} {id j : Nat} (h : nextSeq (.seq ns) kv = .ok (id, kv')) :
    getK kv' (.data ns j) = getK kv (.data ns j) := by
  have key : ∀ v, getK (putK kv (.seq ns) v) (.data ns j) = getK kv (.data ns j) := fun v => by
    rw [getK_putK _ (wf_seq ns) (wf_data ns j), if_neg (by intro e; cases e)]
  unfold nextSeq at h
  split at h
  · cases h; exact key _
  · split at h
    · cases h
    · cases h; exact key _

/-- The records after a create. -/
theorem create_data {c : Coll R} {keys : List (Option Key)} {mk : Nat → R} (hk : ∀ k, some k ∈ keys → IdxOf c.ns k) {kv kv' : Kv} {a : R}
    (hu : c.create keys mk kv = .ok (a, kv')) :
    ∃ id, id < 2 ^ 64 ∧ a = mk id ∧ ∀ j, getK kv' (.data c.ns j) = if j = c.id a then some (c.enc a) else getK kv (.data c.ns j) := by
  unfold Coll.create at hu
  split at hu
  · cases hu
  · split at hu
    · cases hu
    · rename_i id kv1 hs
      cases hu
      refine ⟨id, nextSeq_lt hs, rfl, fun j => ?_⟩
      rw [insertIndex_eq, (updateIndex_steps _ (P := IdxOf c.ns) ?_ _ _).get (wf_data c.ns j) (fun k hk => data_ne_idx hk),
        getK_putK _ (wf_data _ _) (wf_data _ _), nextSeq_data hs]
      · by_cases hj : j = c.id (mk id) <;> simp [hj]
      · intro p hp
        obtain ⟨k, hm, rfl⟩ := List.mem_map.mp hp
        refine ⟨?_, by simp⟩
        rintro k rfl
        obtain ⟨ix, s, rfl⟩ := hk k hm
        exact ⟨trivial, ix, s, rfl⟩

/-- The records after a delete. -/
theorem delete_data {c : Coll R} {id : Nat} {kv kv' : Kv} {a : R} (hu : c.delete id kv = .ok (a, kv')) (j : Nat) :
    getK kv' (.data c.ns j) = if j = id then none else getK kv (.data c.ns j) := by
  unfold Coll.delete at hu
  split at hu
  · cases hu
  · cases hu
    rw [deleteIndex_eq _ 0, (updateIndex_steps _ (P := IdxOf c.ns) ?_ _ _).get (wf_data c.ns j) (fun k hk => data_ne_idx hk),
      getK_delK _ (wf_data _ _) (wf_data _ _)]
    · by_cases hj : j = id <;> simp [hj]
    · intro p hp
      obtain ⟨k, hm, rfl⟩ := List.mem_map.mp hp
      refine ⟨by simp, ?_⟩
      rintro k rfl
      obtain ⟨ix, s, rfl⟩ := keysOf_idx hm
      exact ⟨trivial, ix, s, rfl⟩

theorem projPairs_in (q : ProjectUpd) (r : Project) : PairsIn (IdxOf (.top .projects)) (q.pairs r) := by
  rw [pairs_eq]
  exact (pairOpt_in _ _).append (pairOpt_in _ _)

theorem ProjectsOk.get {kv : Kv} (h : ProjectsOk kv) {id : Nat} {r : Project} (hg : projectsC.getById id kv = .ok r) :
    r.Valid ∧ r.norm = r ∧ r.id = id := by
  unfold Coll.getById at hg
  split at hg
  · cases hg
  · rename_i v hv
    obtain ⟨r', h1, h2, h3, h4⟩ := h id v hv
    rw [show projectsC.dec v = some r' from h1] at hg
    cases hg
    exact ⟨h2, h3, h4⟩

theorem ProjectsOk.put {kv kv' : Kv} (h : ProjectsOk kv) {a : Project} (ha : a.Valid)
    (hd : ∀ j, getK kv' (.data projectsC.ns j) = if j = projectsC.id a then some (projectsC.enc a) else getK kv (.data projectsC.ns j)) :
    ProjectsOk kv' := by
  intro id v hv
  replace hd : ∀ j, getK kv' (.data (.top .projects) j) = if j = a.id then some a.enc else getK kv (.data (.top .projects) j) := hd
  rw [hd] at hv
  by_cases hj : id = a.id
  · rw [if_pos hj] at hv
    cases hv
    exact ⟨a.norm, Project.dec_enc a ha, ⟨ha.head, ha.org, ha.dur, ha.count⟩, Project.norm_norm a, hj.symm⟩
  · rw [if_neg hj] at hv
    exact h id v hv

theorem ProjectUpd.apply_valid {q : ProjectUpd} {r : Project} {now : Time} (h : r.Valid)
    (h1 : q.updatedBy < 2 ^ 64 ∧ ∀ d, q.sessionDuration = some d → d < 2 ^ 64) : (q.apply now r).Valid :=
  ⟨⟨h.head.id, h.head.createdBy, optOk_some h1.1⟩, h.org, getD_ok h1.2 h.dur, h.count⟩

theorem hist_projectsOk {E : Env Q} {n : Nat} {kv : Kv} (h : Hist E n kv) : ProjectsOk kv := by
  induction h with
  | start => intro id v hv; simp [getK, Kv.get] at hv
  | @step n kv r hh hr ih =>
    by_cases hm : Mod.coll (.top .projects) ∈ r.mods
    · cases r <;> simp [Req.mods] at hm
      case projectCreate now req =>
        show ProjectsOk (runCall (projectCreate now req) kv).2
        cases e : projectCreate now req kv with
        | error x => rw [runCall, e]; exact ih
        | ok v =>
          obtain ⟨a, kv'⟩ := v
          rw [runCall, e]
          obtain ⟨id, h1, rfl, h2⟩ := create_data (c := projectsC) (by
            intro k hk
            simp only [List.mem_cons, Option.some.injEq, List.not_mem_nil, or_false] at hk
            rcases hk with rfl | rfl
            · exact ⟨_, _, rfl⟩
            · exact ⟨_, _, rfl⟩) e
          refine ProjectsOk.put (kv' := kv') ih ?_ h2
          exact ⟨⟨h1, hr.1, optOk_none⟩, hr.2.1, hr.2.2, Nat.two_pow_pos 64⟩
      case projectUpdate id now q =>
        show ProjectsOk (runCall (projectUpdate id now q) kv).2
        cases e : projectUpdate id now q kv with
        | error x => rw [runCall, e]; exact ih
        | ok v =>
          obtain ⟨a, kv'⟩ := v
          rw [runCall, e]
          obtain ⟨old, h1, h2, h3⟩ := update_data (c := projectsC) (fun r => projPairs_in q r) e
          cases h2
          exact ih.put (ProjectUpd.apply_valid (ih.get h1).1 hr) h3
      case projectIncrement id =>
        show ProjectsOk (runCall (incrementEvents id) kv).2
        cases e : incrementEvents id kv with
        | error x => rw [runCall, e]; exact ih
        | ok v =>
          obtain ⟨a, kv'⟩ := v
          rw [runCall, e]
          obtain ⟨old, h1, h2, h3⟩ := update_data (c := projectsC) (fun r => pairs_nil _) e
          cases h2
          have hv := (ih.get h1).1
          refine ProjectsOk.put (kv' := kv') ih ?_ h3
          exact ⟨hv.head, hv.org, hv.dur, Nat.mod_lt _ (Nat.two_pow_pos 64)⟩
      case projectDelete id =>
        show ProjectsOk (runCall (projectsC.delete id) kv).2
        cases e : projectsC.delete id kv with
        | error x => rw [runCall, e]; exact ih
        | ok v =>
          obtain ⟨a, kv'⟩ := v
          rw [runCall, e]
          intro j v hv
          rw [show getK kv' (.data (.top .projects) j) = _ from delete_data (c := projectsC) e j] at hv
          by_cases hj : j = id
          · rw [if_pos hj] at hv; cases hv
          · rw [if_neg hj] at hv; exact ih j v hv
    · have ha := exec_agree E hr hm kv
      intro j v hv
      rw [ha _ rfl] at hv
      exact ih j v hv

/-- C108 for projects: the owner and the counter stay. -/
theorem C108_project {E : Env Q} {n : Nat} {kv kv' : Kv} (h : Hist E n kv) {id : Nat} {now : Time} {q : ProjectUpd}
    (hq : (Req.projectUpdate (Q := Q) id now q).Ok) {a : Project} (hu : runCall (projectUpdate id now q) kv = (.ok a, kv')) :
    ∃ old new, projectsC.getById id kv = .ok old ∧ projectsC.getById id kv' = .ok new ∧
      Honours q.name old.name new.name ∧ Honours q.token old.token new.token ∧ Honours q.description old.description new.description ∧
      Honours q.sessionDuration old.sessionDuration new.sessionDuration ∧ HonoursList q.tags old.tags new.tags ∧
      new.orgId = old.orgId ∧ new.eventsCount = old.eventsCount ∧
      new.id = id ∧ new.createdAt = old.createdAt ∧ new.createdBy = old.createdBy ∧
      new.updatedAt = some now.trunc ∧ new.updatedBy = some q.updatedBy ∧ ∀ j, j ≠ id → projectsC.getById j kv' = projectsC.getById j kv := by
  have hok := hist_projectsOk h
  cases e : projectUpdate id now q kv with
  | error x => rw [runCall, e] at hu; cases hu
  | ok v =>
    obtain ⟨a', kv1⟩ := v
    rw [runCall, e] at hu
    cases hu
    obtain ⟨old, h1, h2, h3⟩ := update_data (c := projectsC) (fun r => projPairs_in q r) e
    cases h2
    obtain ⟨g1, g2, g3⟩ := hok.get h1
    have hid : projectsC.id (q.apply now old) = id := g3
    rw [hid] at h3
    have hg : projectsC.getById id kv' = .ok (q.apply now old).norm := by
      have hd : projectsC.dec (projectsC.enc (q.apply now old)) = some (q.apply now old).norm :=
        Project.dec_enc _ (ProjectUpd.apply_valid g1 hq)
      unfold Coll.getById
      rw [h3, if_pos rfl]
      dsimp only
      rw [hd]
    refine ⟨old, _, h1, hg, honours_getD _ _, honours_getD _ _, honours_getD _ _, honours_getD _ _, honoursList_getD _ (congrArg Project.tags g2),
      rfl, rfl, g3, (congrArg Project.createdAt g2 :), rfl, rfl, rfl, fun j hj => ?_⟩
    unfold Coll.getById
    rw [h3, if_neg hj]

/-! ## What is acknowledged and not done -/

/-- One record of each kind. -/
def exAll : List (Req Unit) :=
  [.accountCreate ⟨0, 0⟩ (exAcc "a".toList none), .orgCreate ⟨0, 0⟩ 1 "org".toList, .teamCreate 1 ⟨0, 0⟩ 1 "team".toList,
   .projectCreate ⟨0, 0⟩ (exProj exA exTok), .eventCreate 1 ⟨7, 5⟩ exEventReq,
   .customCreate 1 ⟨0, 0⟩ ⟨0, ⟨0, 0⟩, 1, none, none, 0, none, "c".toList, none, .enabled, false, [⟨.regular 1, none⟩]⟩,
   .dashboardCreate 1 ⟨0, 0⟩ ⟨0, ⟨0, 0⟩, 1, none, none, 0, none, "d".toList, none, []⟩,
   .reportCreate 1 ⟨0, 0⟩ ⟨0, ⟨0, 0⟩, 1, none, none, 0, none, "r".toList, none, .eventSegmentation, ()⟩, exP1]

theorem exAll_ok : ∀ r ∈ exAll, r.Ok := by
  intro r hr
  simp only [exAll, List.mem_cons, List.not_mem_nil, or_false] at hr
  rcases hr with rfl | rfl | rfl | rfl | rfl | rfl | rfl | rfl | rfl
  · exact exOrg_ok _ (by simp [exOrg])
  · show (1 : Nat) < 2 ^ 64; decide
  · exact ⟨by decide, by decide⟩
  · exact ⟨by decide, by decide, by decide⟩
  · exact ⟨by decide, by decide⟩
  · refine ⟨by decide, by decide, ?_⟩
    intro e he
    rw [List.mem_singleton.mp he]
    exact ⟨show (1 : Nat) < 2 ^ 64 by decide, by simp⟩
  · exact ⟨by decide, by decide, by simp⟩
  · exact ⟨by decide, by decide⟩
  · exact ⟨by decide, by decide, fun g hg => by cases hg⟩

/-- The store of the examples. -/
def exAllKv : Kv := runReqs exEnv exAll []

theorem exAll_hist : Hist exEnv 9 exAllKv := Hist.of_run exEnv exAll exAll_ok

/-- The role of an account cannot be changed: the request is acknowledged and the role stays. -/
theorem C108_role_violated : ¬ ∀ (n : Nat) (kv kv' : Kv) (id : Nat) (now : Time) (q : AccountUpd) (a old new : Account), Hist exEnv n kv →
    (Req.accountUpdate (Q := Unit) id now q).Ok → runCall (accountUpdate id now q) kv = (.ok a, kv') →
    accountsC.getById id kv = .ok old → accountsC.getById id kv' = .ok new → Honours q.role old.role new.role := by
  intro hf
  cases hu : runCall (accountUpdate 1 ⟨1, 0⟩ { updatedBy := 1, role := some (some .admin) }) exAllKv with
  | mk ans kv' =>
    have h0 : (runCall (accountUpdate 1 ⟨1, 0⟩ { updatedBy := 1, role := some (some .admin) }) exAllKv).1.toOption.isSome := by decide +kernel
    cases ans with
    | error e => rw [hu] at h0; cases h0
    | ok a =>
      have hok : (Req.accountUpdate (Q := Unit) 1 ⟨1, 0⟩ { updatedBy := 1, role := some (some .admin) }).Ok :=
        ⟨show (1 : Nat) < 2 ^ 64 by decide, (by intro l h; cases h), (by intro l h; cases h), (by intro l h; cases h)⟩
      obtain ⟨old, new, h1, h2, hrest⟩ := C108_account_partial exAll_hist (by decide) hok hu
      have hr : new.role = old.role := hrest.2.2.2.2.2.2.2.2.1
      have := (hf 9 exAllKv kv' 1 ⟨1, 0⟩ _ a old new exAll_hist hok hu h1 h2).1 _ rfl
      have h3 : (accountsC.getById 1 exAllKv).toOption.map (·.role) = some none := by decide +kernel
      rw [h1] at h3
      simp only [Except.toOption, Option.map_some, Option.some.injEq] at h3
      rw [hr, h3] at this
      cases this

/-- The type of a report cannot be changed: after an update to a funnel query with type `funnel` the report
still says `eventSegmentation`. -/
theorem C108_report_type_violated : ¬ ∀ (n : Nat) (kv kv' : Kv) (p id : Nat) (now : Time) (q : ReportUpd Unit) (a old new : Report Unit),
    Hist exEnv n kv → q.updatedBy < 2 ^ 64 → runCall (reportUpdate exEnv.bc p id now q) kv = (.ok a, kv') →
    (reportsC exEnv.bc p).getById id kv = .ok old → (reportsC exEnv.bc p).getById id kv' = .ok new → Honours q.typ old.typ new.typ := by
  intro hf
  cases hu : runCall (reportUpdate exEnv.bc 1 1 ⟨1, 0⟩ { updatedBy := 1, typ := some .funnel }) exAllKv with
  | mk ans kv' =>
    have h0 : (runCall (reportUpdate exEnv.bc 1 1 ⟨1, 0⟩ { updatedBy := 1, typ := some .funnel }) exAllKv).1.toOption.isSome := by decide +kernel
    cases ans with
    | error e => rw [hu] at h0; cases h0
    | ok a =>
      obtain ⟨old, new, h1, h2, hrest⟩ := C108_report_partial exAll_hist (by decide) (by decide) hu
      have hr : new.typ = old.typ := hrest.2.2.2.2.1
      have := (hf 9 exAllKv kv' 1 1 ⟨1, 0⟩ _ a old new exAll_hist (by decide) hu h1 h2).1 _ rfl
      have h3 : ((reportsC exEnv.bc 1).getById 1 exAllKv).toOption.map (·.typ) = some .eventSegmentation := by decide +kernel
      rw [h1] at h3
      simp only [Except.toOption, Option.map_some, Option.some.injEq] at h3
      rw [hr, h3] at this
      cases this

/-- The lists of properties of an event cannot be changed: they are not stored. -/
theorem C108_event_lists_violated : ¬ ∀ (n : Nat) (kv kv' : Kv) (p id : Nat) (now : Time) (q : EventUpd) (a old new : Event), Hist exEnv n kv →
    q.updatedBy < 2 ^ 64 → runCall (eventUpdate p id now q) kv = (.ok a, kv') →
    (eventsC p).getById id kv = .ok old → (eventsC p).getById id kv' = .ok new → HonoursList q.eventProperties old.eventProperties new.eventProperties := by
  intro hf
  cases hu : runCall (eventUpdate 1 1 ⟨1, 0⟩ { updatedBy := 1, eventProperties := some (some [1]) }) exAllKv with
  | mk ans kv' =>
    have h0 : (runCall (eventUpdate 1 1 ⟨1, 0⟩ { updatedBy := 1, eventProperties := some (some [1]) }) exAllKv).1.toOption.isSome := by decide +kernel
    cases ans with
    | error e => rw [hu] at h0; cases h0
    | ok a =>
      obtain ⟨old, new, h1, h2, -⟩ := C108_event_partial exAll_hist (by decide) (by decide) hu
      have := (hf 9 exAllKv kv' 1 1 ⟨1, 0⟩ _ a old new exAll_hist (by decide) hu h1 h2).1 _ rfl
      have h3 := C92_never_listed h2 .event
      simp only [listed, PropList.get] at h3
      rw [h3] at this
      cases this

/-- The hypotheses are met: each update succeeds on the example store. -/
example : Hist exEnv 9 exAllKv ∧
    (runCall (teamUpdate 1 1 ⟨3, 4⟩ 1 (some "b".toList)) exAllKv).1.toOption.map (·.name) = some "b".toList ∧
    (runCall (orgUpdate 1 ⟨3, 4⟩ 1 none) exAllKv).1.toOption.map (·.name) = some "org".toList ∧
    (runCall (eventUpdate 1 1 ⟨3, 4⟩ { updatedBy := 1, status := some .disabled }) exAllKv).1.toOption.map (·.status) = some .disabled ∧
    (runCall (accountUpdate 1 ⟨3, 4⟩ { updatedBy := 1, email := some "b".toList }) exAllKv).1.toOption.map (·.email) = some "b".toList ∧
    (runCall (customUpdate 1 1 ⟨3, 4⟩ { updatedBy := 1, events := some [⟨.regularName "buy".toList, none⟩] }) exAllKv).1.toOption.isSome ∧
    (runCall (dashboardUpdate 1 1 ⟨3, 4⟩ { updatedBy := 1, panels := some [⟨1, 0, 0, 2, 2⟩] }) exAllKv).1.toOption.map (·.panels) =
      some [⟨1, 0, 0, 2, 2⟩] ∧
    (runCall (reportUpdate exEnv.bc 1 1 ⟨3, 4⟩ { updatedBy := 1, name := some "q".toList }) exAllKv).1.toOption.map (·.name) = some "q".toList ∧
    (runCall (propUpdate 1 .event 1 ⟨3, 4⟩ { updatedBy := 1, tags := some (some []) }) exAllKv).1.toOption.map (·.tags) = some (some []) ∧
    (runCall (projectUpdate 1 ⟨3, 4⟩ { updatedBy := 1, tags := some (some ["x".toList]) }) exAllKv).1.toOption.map (·.tags) =
      some (some ["x".toList]) :=
  ⟨exAll_hist, by decide +kernel, by decide +kernel, by decide +kernel, by decide +kernel, by decide +kernel, by decide +kernel,
    by decide +kernel, by decide +kernel, by decide +kernel⟩

end OptiPrism.Meta
