import Verif.Meta.CollProps
import Verif.Meta.Records2

/-!
# The metadata modules as collections

Each module is a `Coll` together with the calls it offers. A create request is a record whose identifier,
time stamps and project (or organization) are filled in by the call; an update request has one optional
field per field of the Rust request (`OptionalProperty`). `now` is `Utc::now()`.
-/

namespace OptiPrism.Meta

open OptiPrism.Storage (Bytes)

variable {R : Type}

/-! ## Teams -/

/-- teams.rs 21-40: name index in the namespace of the organization. -/
def teamsC (o : Nat) : Coll Team := ⟨.teams o, [(.name, fun t => some t.name)], Team.enc, Team.dec, Team.id⟩

/-- teams.rs 68-101. -/
def teamCreate (o : Nat) (now : Time) (createdBy : Nat) (name : Str) : Call Team :=
  (teamsC o).create [some (.idx (.teams o) .name name)] fun id =>
    { id := id, createdAt := now, createdBy := createdBy, updatedAt := none, updatedBy := none, orgId := o, name := name }

/-- teams.rs 133-166. -/
def teamUpdate (o id : Nat) (now : Time) (updatedBy : Nat) (name : Option Str) : Call Team :=
  (teamsC o).update id
    (fun r => match name with
      | none => []
      | some n => [(some (.idx (.teams o) .name n), some (.idx (.teams o) .name r.name))])
    fun r => .ok { r with updatedAt := some now, updatedBy := some updatedBy, name := name.getD r.name }

/-! ## Events -/

/-- events.rs 33-61. -/
def eventsC (p : Nat) : Coll Event :=
  ⟨.proj p .events, [(.name, fun e => some e.name), (.displayName, fun e => e.displayName)], Event.enc, Event.dec, Event.id⟩

/-- events.rs 168-184. -/
def eventMk (p : Nat) (now : Time) (req : Event) (id : Nat) : Event :=
  { req with id := id, createdAt := now, updatedAt := none, updatedBy := none, projectId := p }

/-- The part of `create_` (events.rs 139-193) before the dictionary entry. -/
def eventCreate (p : Nat) (now : Time) (req : Event) : Call Event :=
  (eventsC p).create [some (.idx (.proj p .events) .name req.name), req.displayName.map (.idx (.proj p .events) .displayName)]
    (eventMk p now req)

/-- `UpdateEventRequest`, events.rs 452-466. -/
structure EventUpd where
  updatedBy : Nat
  tags : Option (Option (List Str)) := none
  name : Option Str := none
  displayName : Option (Option Str) := none
  description : Option (Option Str) := none
  status : Option Status := none
  isSystem : Option Bool := none
  eventProperties : Option (Option (List Nat)) := none
  userProperties : Option (Option (List Nat)) := none
  customProperties : Option (Option (List Nat)) := none

def EventUpd.apply (q : EventUpd) (now : Time) (r : Event) : Event :=
  { r with
    updatedAt := some now, updatedBy := some q.updatedBy, tags := q.tags.getD r.tags, name := q.name.getD r.name,
    displayName := q.displayName.getD r.displayName, description := q.description.getD r.description,
    status := q.status.getD r.status, isSystem := q.isSystem.getD r.isSystem,
    eventProperties := q.eventProperties.getD r.eventProperties, userProperties := q.userProperties.getD r.userProperties,
    customProperties := q.customProperties.getD r.customProperties }

def EventUpd.pairs (q : EventUpd) (p : Nat) (r : Event) : List (Option Key × Option Key) :=
  (match q.name with
    | none => []
    | some n => [(some (.idx (.proj p .events) .name n), some (.idx (.proj p .events) .name r.name))]) ++
  (match q.displayName with
    | none => []
    | some d => [(d.map (.idx (.proj p .events) .displayName), r.displayName.map (.idx (.proj p .events) .displayName))])

/-- events.rs 265-317. -/
def eventUpdate (p id : Nat) (now : Time) (q : EventUpd) : Call Event :=
  (eventsC p).update id (q.pairs p) fun r => .ok (q.apply now r)

/-- The two property lists `attach_property!` and `detach_property!` are used with (events.rs 350-384). -/
inductive PropList where | event | user
  deriving DecidableEq

def PropList.get : PropList → Event → Option (List Nat)
  | .event, e => e.eventProperties
  | .user, e => e.userProperties

def PropList.set : PropList → Event → Option (List Nat) → Event
  | .event, e, l => { e with eventProperties := l }
  | .user, e, l => { e with userProperties := l }

/-- `attach_property!`, events.rs 63-87. -/
def eventAttach (w : PropList) (p id prop : Nat) : Call Event :=
  (eventsC p).update id (fun _ => []) fun e =>
    match w.get e with
    | none => .ok (w.set e (some [prop]))
    | some l => if prop ∈ l then .error .alreadyExists else .ok (w.set e (some (l ++ [prop])))

/-- `detach_property!`, events.rs 89-118. -/
def eventDetach (w : PropList) (p id prop : Nat) : Call Event :=
  (eventsC p).update id (fun _ => []) fun e =>
    match w.get e with
    | none => .error .notFound
    | some l => if prop ∈ l then .ok (w.set e (some (l.filter (· ≠ prop)))) else .error .alreadyExists

/-- `try_attach_properties`, events.rs 319-348. -/
def tryAttach (l : Option (List Nat)) (ps : List Nat) : Option (List Nat) :=
  ps.foldl (fun l prop => if prop ∈ l.getD [] then l else some (l.getD [] ++ [prop])) l

def eventTryAttach (p id : Nat) (ps : List Nat) : Call Event :=
  (eventsC p).update id (fun _ => []) fun e => .ok { e with eventProperties := tryAttach e.eventProperties ps }

/-! ## Accounts -/

/-- accounts.rs 22-40. -/
def accountsC : Coll Account := ⟨.top .accounts, [(.email, fun a => some a.email)], Account.enc, Account.dec, Account.id⟩

/-- accounts.rs 64-80, 276-293. -/
def accountMk (now : Time) (req : Account) (id : Nat) : Account :=
  { req with id := id, createdAt := now, updatedAt := none, updatedBy := none }

def accountCreate (now : Time) (req : Account) : Call Account :=
  accountsC.create [some (.idx (.top .accounts) .email req.email)] (accountMk now req)

/-- `UpdateAccountRequest`, accounts.rs 297-309. `apply` ignores the role, as `update` does. -/
structure AccountUpd where
  updatedBy : Nat
  passwordHash : Option Str := none
  email : Option Str := none
  name : Option (Option Str) := none
  forceUpdatePassword : Option Bool := none
  forceUpdateEmail : Option Bool := none
  organizations : Option (Option (List (Nat × OrgRole))) := none
  projects : Option (Option (List (Nat × ProjRole))) := none
  teams : Option (Option (List (Nat × Role))) := none
  role : Option (Option Role) := none

def AccountUpd.apply (q : AccountUpd) (now : Time) (r : Account) : Account :=
  { r with
    updatedAt := some now, updatedBy := some q.updatedBy, passwordHash := q.passwordHash.getD r.passwordHash,
    email := q.email.getD r.email, name := q.name.getD r.name,
    forceUpdatePassword := q.forceUpdatePassword.getD r.forceUpdatePassword,
    forceUpdateEmail := q.forceUpdateEmail.getD r.forceUpdateEmail,
    organizations := q.organizations.getD r.organizations, projects := q.projects.getD r.projects,
    teams := q.teams.getD r.teams }

/-- accounts.rs 121-167. -/
def accountUpdate (id : Nat) (now : Time) (q : AccountUpd) : Call Account :=
  accountsC.update id
    (fun r => match q.email with
      | none => []
      | some e => [(some (.idx (.top .accounts) .email e), some (.idx (.top .accounts) .email r.email))])
    fun r => .ok (q.apply now r)

def inOrg (o : Nat) (l : List (Nat × OrgRole)) : Bool := l.any fun m => m.1 == o

/-- Changes the role in the first entry (`iter_mut().find`, and the loop of accounts.rs 229-236). -/
def setRole (o : Nat) (role : OrgRole) : List (Nat × OrgRole) → List (Nat × OrgRole)
  | [] => []
  | m :: l => if m.1 = o then (m.1, role) :: l else m :: setRole o role l

/-- accounts.rs 179-198. -/
def addOrganization (member org : Nat) (role : OrgRole) : Call Account :=
  accountsC.update member (fun _ => []) fun a =>
    if inOrg org (a.organizations.getD []) then .error .alreadyExists
    else .ok { a with organizations := some (a.organizations.getD [] ++ [(org, role)]) }

/-- accounts.rs 200-218. -/
def removeOrganization (member org : Nat) : Call Account :=
  accountsC.update member (fun _ => []) fun a =>
    if inOrg org (a.organizations.getD []) then
      .ok { a with organizations := some ((a.organizations.getD []).filter fun m => m.1 ≠ org) }
    else .error .notFound

/-- accounts.rs 220-240. -/
def changeOrganizationRole (member org : Nat) (role : OrgRole) : Call Account :=
  accountsC.update member (fun _ => []) fun a =>
    if inOrg org (a.organizations.getD []) then
      .ok { a with organizations := some (setRole org role (a.organizations.getD [])) }
    else .error .notFound

/-! ## Organizations -/

/-- organizations.rs 22-41. -/
def orgsC : Coll Org := ⟨.top .organizations, [(.name, fun o => some o.name)], Org.enc, Org.dec, Org.id⟩

/-- One transaction doing both. -/
def Call.then {α β : Type} (a : Call α) (b : α → Call β) : Call β := fun kv =>
  match a kv with
  | .error e => .error e
  | .ok (x, kv) => b x kv

def Call.ret {α : Type} (x : α) : Call α := fun kv => .ok (x, kv)

/-- organizations.rs 64-92. -/
def orgCreate (now : Time) (createdBy : Nat) (name : Str) : Call Org :=
  Call.then (orgsC.create [some (.idx (.top .organizations) .name name)] fun id =>
      { id := id, createdAt := now, createdBy := createdBy, updatedAt := none, updatedBy := none, name := name,
        members := [(createdBy, .owner)] }) fun org =>
    Call.then (addOrganization createdBy org.id .owner) fun _ => Call.ret org

/-- organizations.rs 117-159. -/
def orgUpdate (id : Nat) (now : Time) (updatedBy : Nat) (name : Option Str) : Call Org :=
  orgsC.update id
    (fun r => match name with
      | none => []
      | some n => [(some (.idx (.top .organizations) .name n), some (.idx (.top .organizations) .name r.name))])
    fun r => .ok { r with updatedAt := some now, updatedBy := some updatedBy, name := name.getD r.name }

/-- organizations.rs 161-176. The account is written before the organization; both or none. -/
def addMember (id member : Nat) (role : OrgRole) : Call Org :=
  Call.then (orgsC.update id (fun _ => []) fun o =>
      if inOrg member o.members then .error .alreadyExists else .ok { o with members := o.members ++ [(member, role)] }) fun o =>
    Call.then (addOrganization member id role) fun _ => Call.ret o

/-- organizations.rs 178-193. -/
def removeMember (id member : Nat) : Call Org :=
  Call.then (orgsC.update id (fun _ => []) fun o =>
      if inOrg member o.members then .ok { o with members := o.members.filter fun m => m.1 ≠ member } else .error .notFound) fun o =>
    Call.then (removeOrganization member id) fun _ => Call.ret o

/-- organizations.rs 195-217. -/
def changeMemberRole (id member : Nat) (role : OrgRole) : Call Org :=
  Call.then (orgsC.update id (fun _ => []) fun o =>
      if inOrg member o.members then .ok { o with members := setRole member role o.members } else .error .notFound) fun o =>
    Call.then (changeOrganizationRole member id role) fun _ => Call.ret o

/-! ## Projects -/

/-- projects.rs 24-46: name and token are kept in the same index (both keys are made with `IDX_NAME`). -/
def projectsC : Coll Project :=
  ⟨.top .projects, [(.name, fun r => some r.name), (.name, fun r => some r.token)], Project.enc, Project.dec, Project.id⟩

def projIdx (s : Str) : Key := .idx (.top .projects) .name s

/-- projects.rs 66-94. -/
def projectCreate (now : Time) (req : Project) : Call Project :=
  projectsC.create [some (projIdx req.name), some (projIdx req.token)] fun id =>
    { req with id := id, createdAt := now, updatedAt := none, updatedBy := none, eventsCount := 0 }

/-- `UpdateProjectRequest`, projects.rs. -/
structure ProjectUpd where
  updatedBy : Nat
  tags : Option (Option (List Str)) := none
  name : Option Str := none
  description : Option (Option Str) := none
  token : Option Str := none
  sessionDuration : Option Nat := none

def ProjectUpd.apply (q : ProjectUpd) (now : Time) (r : Project) : Project :=
  { r with
    updatedAt := some now, updatedBy := some q.updatedBy, tags := q.tags.getD r.tags, name := q.name.getD r.name,
    description := q.description.getD r.description, token := q.token.getD r.token,
    sessionDuration := q.sessionDuration.getD r.sessionDuration }

def ProjectUpd.pairs (q : ProjectUpd) (r : Project) : List (Option Key × Option Key) :=
  (match q.name with | none => [] | some n => [(some (projIdx n), some (projIdx r.name))]) ++
  (match q.token with | none => [] | some n => [(some (projIdx n), some (projIdx r.token))])

/-- projects.rs 135-174. -/
def projectUpdate (id : Nat) (now : Time) (q : ProjectUpd) : Call Project :=
  projectsC.update id q.pairs fun r => .ok (q.apply now r)

/-- projects.rs 176-186 (`+=` wraps in release builds). -/
def incrementEvents (id : Nat) : Call Project :=
  projectsC.update id (fun _ => []) fun r => .ok { r with eventsCount := (r.eventsCount + 1) % 2 ^ 64 }

/-- projects.rs 101-109. -/
def getByToken (token : Str) (kv : Kv) : Except Err Project := projectsC.getBy .name token kv

/-! ## Custom events -/

/-- custom_events.rs 36-52. `serialize` panics where `encO` has no value; `Valid` excludes that. -/
def customC (p : Nat) : Coll CustomEvent :=
  ⟨.proj p .customEvents, [(.name, fun e => some e.name)], fun r => r.encO.getD [], CustomEvent.dec, CustomEvent.id⟩

/-- `validate_events`, custom_events.rs 75-111: the identifiers seen, extended. `fuel` bounds the recursion,
which the level does too: the call stops at `level > max`. -/
def validateEvents (p : Nat) (max : Nat) (kv : Kv) : Nat → Nat → List EventRef → List Nat → Except Err (List Nat)
  | 0, _, _, _ => .error .badRequest
  | fuel + 1, level, refs, ids =>
    if max < level then .error .badRequest else
    refs.foldlM (fun ids r =>
      match r with
      | .regularName n => match (eventsC p).getBy .name n kv with
        | .error e => .error e
        | .ok _ => .ok ids
      | .regular id => match (eventsC p).getById id kv with
        | .error e => .error e
        | .ok _ => .ok ids
      | .custom id =>
        if id ∈ ids then .error .alreadyExists else
        match (customC p).getById id kv with
        | .error e => .error e
        | .ok ce => validateEvents p max kv fuel (level + 1) (ce.events.map CEvent.event) (ids ++ [ce.id])) ids

/-- custom_events.rs 17. -/
def maxEventsLevel : Nat := 3

def validate (p : Nat) (kv : Kv) (events : List CEvent) (ids : List Nat) : Except Err (List Nat) :=
  validateEvents p maxEventsLevel kv (maxEventsLevel + 2) 0 (events.map CEvent.event) ids

def customMk (p : Nat) (now : Time) (req : CustomEvent) (id : Nat) : CustomEvent :=
  { req with id := id, createdAt := now, updatedAt := none, updatedBy := none, projectId := p }

/-- custom_events.rs 129-171. (The record is put outside the transaction, before the commit; no step in
between can fail.) -/
def customCreate (p : Nat) (now : Time) (req : CustomEvent) : Call CustomEvent := fun kv =>
  if req.events = [] then .error .badRequest else
  match validate p kv req.events [] with
  | .error e => .error e
  | .ok _ => (customC p).create [some (.idx (.proj p .customEvents) .name req.name)] (customMk p now req) kv

structure CustomUpd where
  updatedBy : Nat
  tags : Option (Option (List Str)) := none
  name : Option Str := none
  description : Option (Option Str) := none
  status : Option Status := none
  isSystem : Option Bool := none
  events : Option (List CEvent) := none

def CustomUpd.apply (q : CustomUpd) (now : Time) (r : CustomEvent) : CustomEvent :=
  { r with
    updatedAt := some now, updatedBy := some q.updatedBy, tags := q.tags.getD r.tags, name := q.name.getD r.name,
    description := q.description.getD r.description, status := q.status.getD r.status,
    isSystem := q.isSystem.getD r.isSystem, events := q.events.getD r.events }

def CustomUpd.pairs (q : CustomUpd) (p : Nat) (r : CustomEvent) : List (Option Key × Option Key) :=
  match q.name with
  | none => []
  | some n => [(some (.idx (.proj p .customEvents) .name n), some (.idx (.proj p .customEvents) .name r.name))]

def CustomUpd.check (q : CustomUpd) (p : Nat) (now : Time) (kv : Kv) (r : CustomEvent) : Except Err CustomEvent :=
  match q.events with
  | none => .ok (q.apply now r)
  | some ev =>
    if ev = [] then .error .badRequest else
    match validate p kv ev [r.id] with
    | .error e => .error e
    | .ok _ => .ok (q.apply now r)

/-- custom_events.rs 214-270. -/
def customUpdate (p id : Nat) (now : Time) (q : CustomUpd) : Call CustomEvent := fun kv =>
  (customC p).update id (q.pairs p) (q.check p now kv) kv

/-! ## Dashboards, reports, backups -/

/-- dashboards.rs: no indexes. -/
def dashboardsC (p : Nat) : Coll Dashboard := ⟨.proj p .dashboards, [], Dashboard.enc, Dashboard.dec, Dashboard.id⟩

/-- dashboards.rs 52-80. -/
def dashboardCreate (p : Nat) (now : Time) (req : Dashboard) : Call Dashboard :=
  (dashboardsC p).create [] fun id =>
    { req with id := id, createdAt := now, updatedAt := none, updatedBy := none, projectId := p }

structure DashboardUpd where
  updatedBy : Nat
  tags : Option (Option (List Str)) := none
  name : Option Str := none
  description : Option (Option Str) := none
  panels : Option (List Panel) := none

def DashboardUpd.apply (q : DashboardUpd) (now : Time) (r : Dashboard) : Dashboard :=
  { r with
    updatedAt := some now, updatedBy := some q.updatedBy, tags := q.tags.getD r.tags, name := q.name.getD r.name,
    description := q.description.getD r.description, panels := q.panels.getD r.panels }

/-- dashboards.rs 113-145. -/
def dashboardUpdate (p id : Nat) (now : Time) (q : DashboardUpd) : Call Dashboard :=
  (dashboardsC p).update id (fun _ => []) fun r => .ok (q.apply now r)

/-- reports.rs: no indexes; the query is opaque (bincode). -/
def reportsC {Q : Type} (bc : Bincode Q) (p : Nat) : Coll (Report Q) :=
  ⟨.proj p .reports, [], Report.enc bc, Report.dec bc, Report.id⟩

/-- reports.rs 52-85. -/
def reportCreate {Q : Type} (bc : Bincode Q) (p : Nat) (now : Time) (req : Report Q) : Call (Report Q) :=
  (reportsC bc p).create [] fun id =>
    { req with id := id, createdAt := now, updatedAt := none, updatedBy := none, projectId := p }

/-- `UpdateReportRequest`, reports.rs 206-213. -/
structure ReportUpd (Q : Type) where
  updatedBy : Nat
  tags : Option (Option (List Str)) := none
  name : Option Str := none
  description : Option (Option Str) := none
  query : Option Q := none
  typ : Option ReportType := none

def ReportUpd.apply {Q : Type} (q : ReportUpd Q) (now : Time) (r : Report Q) : Report Q :=
  { r with
    updatedAt := some now, updatedBy := some q.updatedBy, tags := q.tags.getD r.tags, name := q.name.getD r.name,
    description := q.description.getD r.description, query := q.query.getD r.query }

/-- reports.rs 117-149 (the type is not changed, whatever the request says). -/
def reportUpdate {Q : Type} (bc : Bincode Q) (p id : Nat) (now : Time) (q : ReportUpd Q) : Call (Report Q) :=
  (reportsC bc p).update id (fun _ => []) fun r => .ok (q.apply now r)

/-- backups.rs: no indexes. -/
def backupsC : Coll Backup := ⟨.backups, [], Backup.enc, Backup.dec, Backup.id⟩

/-! ## Each of them is a lawful collection -/

theorem teams_ok (o : Nat) : (teamsC o).Ok Team.norm Team.Valid where
  nodup := by simp [teamsC]
  dec_enc := Team.dec_enc
  id_norm := fun _ => rfl
  ix_norm := by intro r i hi; simp [teamsC] at hi; subst hi; rfl
  valid_norm := fun _ h => ⟨h.head, h.org⟩

theorem events_ok (p : Nat) : (eventsC p).Ok Event.norm Event.Valid where
  nodup := by simp [eventsC]
  dec_enc := Event.dec_enc
  id_norm := fun _ => rfl
  ix_norm := by intro r i hi; simp [eventsC] at hi; rcases hi with rfl | rfl <;> rfl
  valid_norm := fun _ h => ⟨h.head, h.proj⟩

theorem normList_getD {α : Type} (l : Option (List α)) : (normList l).getD [] = l.getD [] := by
  cases l with
  | none => rfl
  | some l => cases l <;> rfl

theorem accounts_ok : accountsC.Ok Account.norm Account.Valid where
  nodup := by simp [accountsC]
  dec_enc := Account.dec_enc
  id_norm := fun _ => rfl
  ix_norm := by intro r i hi; simp [accountsC] at hi; subst hi; rfl
  valid_norm := fun r h => ⟨h.head, by simpa [Account.norm, normList_getD] using h.orgs,
    by simpa [Account.norm, normList_getD] using h.projs, by simpa [Account.norm, normList_getD] using h.teams⟩

theorem orgs_ok : orgsC.Ok Org.norm Org.Valid where
  nodup := by simp [orgsC]
  dec_enc := Org.dec_enc
  id_norm := fun _ => rfl
  ix_norm := by intro r i hi; simp [orgsC] at hi; subst hi; rfl
  valid_norm := fun _ h => ⟨h.head, h.members⟩

theorem mapM_isSome {α β : Type} (f : α → Option β) (l : List α) (h : ∀ a ∈ l, (f a).isSome) : ∃ bs, l.mapM f = some bs := by
  induction l with
  | nil => exact ⟨[], rfl⟩
  | cons a l ih =>
    obtain ⟨b, hb⟩ := Option.isSome_iff_exists.mp (h a (by simp))
    obtain ⟨bs, hbs⟩ := ih fun x hx => h x (by simp [hx])
    exact ⟨b :: bs, by rw [List.mapM_cons, hb, hbs]; rfl⟩

theorem Scalar.enc_ok {v : Scalar} (h : v.Ok = true) : v.encO.isSome := by
  cases v <;> first | rfl | cases h

theorem PropFilter.enc_ok {f : PropFilter} (h : f.Ok) : f.encO.isSome := by
  obtain ⟨bs, hb⟩ := mapM_isSome Scalar.encO _ fun v hv => Scalar.enc_ok (h.vals v hv)
  rw [PropFilter.encO, hb]; rfl

theorem CEvent.enc_ok {e : CEvent} (h : e.Ok) : e.encO.isSome := by
  obtain ⟨bs, hb⟩ := mapM_isSome PropFilter.encO _ fun v hv => PropFilter.enc_ok (h.filters v hv)
  rw [CEvent.encO, hb]; rfl

theorem CustomEvent.enc_ok {r : CustomEvent} (h : r.Bounds) : ∃ b, r.encO = some b := by
  obtain ⟨bs, hb⟩ := mapM_isSome _ _ fun v hv => CEvent.enc_ok (h.events v hv)
  exact ⟨_, by rw [CustomEvent.encO, hb]; rfl⟩

theorem Scalar.norm_ok {v : Scalar} (h : v.Ok = true) : v.norm.Ok = true := by cases v <;> exact h

theorem PropFilter.norm_ok {f : PropFilter} (h : f.Ok) : f.norm.Ok := by
  refine ⟨h.ref, ?_⟩
  intro v hv
  simp only [PropFilter.norm, Option.getD_some, List.mem_map] at hv
  obtain ⟨w, hw, rfl⟩ := hv
  exact Scalar.norm_ok (h.vals w hw)

theorem CEvent.norm_ok {e : CEvent} (h : e.Ok) : e.norm.Ok := by
  refine ⟨h.ref, ?_⟩
  intro f hf
  simp only [CEvent.norm, normList_getD] at hf
  cases hq : e.filters with
  | none => rw [hq] at hf; simp at hf
  | some l =>
    rw [hq] at hf
    simp only [Option.map_some, Option.getD_some, List.mem_map] at hf
    obtain ⟨g, hg, rfl⟩ := hf
    exact PropFilter.norm_ok (h.filters g (by rw [hq]; exact hg))

theorem custom_ok (p : Nat) : (customC p).Ok CustomEvent.norm CustomEvent.Bounds where
  nodup := by simp [customC]
  dec_enc := by
    intro r h
    obtain ⟨b, hb⟩ := CustomEvent.enc_ok h
    simp only [customC, hb, Option.getD_some]
    exact CustomEvent.dec_enc r b h hb
  id_norm := fun _ => rfl
  ix_norm := by intro r i hi; simp [customC] at hi; subst hi; rfl
  valid_norm := fun r h => ⟨h.head, h.proj, by
    intro e he
    simp only [CustomEvent.norm, List.mem_map] at he
    obtain ⟨q, hq, rfl⟩ := he
    exact CEvent.norm_ok (h.events q hq)⟩

theorem dashboards_ok (p : Nat) : (dashboardsC p).Ok Dashboard.norm Dashboard.Valid where
  nodup := by simp [dashboardsC]
  dec_enc := Dashboard.dec_enc
  id_norm := fun _ => rfl
  ix_norm := by intro r i hi; simp [dashboardsC] at hi
  valid_norm := fun r h => ⟨h.head, h.proj, by
    intro p hp
    simp only [Dashboard.norm, List.mem_map] at hp
    obtain ⟨q, hq, rfl⟩ := hp
    exact h.panels q hq⟩

theorem reports_ok {Q : Type} (bc : Bincode Q) (p : Nat) : (reportsC bc p).Ok Report.norm (Report.Valid bc) where
  nodup := by simp [reportsC]
  dec_enc := Report.dec_enc bc
  id_norm := fun _ => rfl
  ix_norm := by intro r i hi; simp [reportsC] at hi
  valid_norm := fun _ h => ⟨h.head, h.proj⟩

theorem backups_ok : backupsC.Ok Backup.norm Backup.Valid where
  nodup := by simp [backupsC]
  dec_enc := Backup.dec_enc
  id_norm := fun _ => rfl
  ix_norm := by intro r i hi; simp [backupsC] at hi
  valid_norm := fun _ h => ⟨h.id, h.progress⟩

end OptiPrism.Meta
