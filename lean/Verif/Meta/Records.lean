import Verif.Meta.Wire

/-!
# The metadata records and their encodings

Records are the Rust structs; `enc` is the module's `serialize` (prost message, src/metadata/src/pb), `dec`
its `deserialize`; every panic of `deserialize` (`unreachable!`, `panic!`, `unwrap`) is `none`. `norm` is
what a record looks like after having been written and read. u64, usize and i64 are natural numbers below
2^64 or bit vectors (`Valid` has the bounds).
-/

namespace OptiPrism.Meta

open OptiPrism.Proto
open OptiPrism.Storage (Bytes toLE fromLE)

/-- Bounds for the fields that most records have. -/
structure HeadOk (id createdBy : Nat) (updatedBy : Option Nat) : Prop where
  id : id < 2 ^ 64
  createdBy : createdBy < 2 ^ 64
  updatedBy : OptOk updatedBy

/-! ## Enumerations -/

/-- events.rs 415-420, custom_events.rs 285-290, properties.rs 540-545. -/
inductive Status where | enabled | disabled
  deriving DecidableEq, Repr
def Status.num : Status → Nat | .enabled => 1 | .disabled => 2
def Status.ofNum : Nat → Option Status | 1 => some .enabled | 2 => some .disabled | _ => none
@[simp] theorem Status.ofNum_num (s : Status) : Status.ofNum s.num = some s := by cases s <;> rfl
theorem Status.num_lt (s : Status) : s.num < 2 ^ 64 := by cases s <;> decide

/-- common/src/rbac.rs 22-24. -/
inductive Role where | admin
  deriving DecidableEq, Repr
def Role.num : Role → Nat | .admin => 1
def Role.ofNum : Nat → Option Role | 1 => some .admin | _ => none
@[simp] theorem Role.ofNum_num (s : Role) : Role.ofNum s.num = some s := by cases s <;> rfl
theorem Role.num_lt (s : Role) : s.num < 2 ^ 64 := by cases s <;> decide

/-- common/src/rbac.rs 32-36. -/
inductive OrgRole where | owner | admin | member
  deriving DecidableEq, Repr
def OrgRole.num : OrgRole → Nat | .owner => 1 | .admin => 2 | .member => 3
def OrgRole.ofNum : Nat → Option OrgRole | 1 => some .owner | 2 => some .admin | 3 => some .member | _ => none
@[simp] theorem OrgRole.ofNum_num (s : OrgRole) : OrgRole.ofNum s.num = some s := by cases s <;> rfl
theorem OrgRole.num_lt (s : OrgRole) : s.num < 2 ^ 64 := by cases s <;> decide

/-- common/src/rbac.rs, `ProjectRole`. -/
inductive ProjRole where | owner | admin | member | reader
  deriving DecidableEq, Repr
def ProjRole.num : ProjRole → Nat | .owner => 1 | .admin => 2 | .member => 3 | .reader => 4
def ProjRole.ofNum : Nat → Option ProjRole
  | 1 => some .owner | 2 => some .admin | 3 => some .member | 4 => some .reader | _ => none
@[simp] theorem ProjRole.ofNum_num (s : ProjRole) : ProjRole.ofNum s.num = some s := by cases s <;> rfl
theorem ProjRole.num_lt (s : ProjRole) : s.num < 2 ^ 64 := by cases s <;> decide

/-! ## Teams -/

/-- teams.rs 184-192. -/
structure Team where
  id : Nat
  createdAt : Time
  createdBy : Nat
  updatedAt : Option Time
  updatedBy : Option Nat
  orgId : Nat
  name : Str
  deriving DecidableEq, Repr

namespace Team
def fields (t : Team) : List Fields :=
  [putU64 1 t.id, putTime 2 t.createdAt, putU64 3 t.createdBy, putOptTime 4 t.updatedAt, putOptU64 5 t.updatedBy,
   putU64 6 t.orgId, putS 7 t.name]
/-- teams.rs 208-220. -/
def enc (t : Team) : Bytes := encFields t.fields.flatten
/-- teams.rs 222-236. -/
def dec (b : Bytes) : Option Team := do
  let fs ← decFields b
  return { id := ← rdU64 (vals 1 fs), createdAt := ← rdTime (vals 2 fs), createdBy := ← rdU64 (vals 3 fs),
           updatedAt := ← rdOptTime (vals 4 fs), updatedBy := ← rdOptU64 (vals 5 fs), orgId := ← rdU64 (vals 6 fs),
           name := ← rdS (vals 7 fs) }
def norm (t : Team) : Team := { t with createdAt := t.createdAt.trunc, updatedAt := t.updatedAt.map Time.trunc }
structure Valid (t : Team) : Prop where
  head : HeadOk t.id t.createdBy t.updatedBy
  org : t.orgId < 2 ^ 64

theorem dec_enc (t : Team) (h : t.Valid) : dec t.enc = some t.norm := by
  obtain ⟨⟨h1, h2, h3⟩, h4⟩ := h
  have hw : WF t.fields.flatten := by unfold fields; wf_fields
  unfold dec enc
  rw [decFields_enc _ hw]
  unfold fields
  rd_fields
  rfl
end Team

/-! ## Events -/

/-- events.rs 423-439. -/
structure Event where
  id : Nat
  createdAt : Time
  createdBy : Nat
  updatedAt : Option Time
  updatedBy : Option Nat
  projectId : Nat
  tags : Option (List Str)
  name : Str
  displayName : Option Str
  description : Option Str
  status : Status
  isSystem : Bool
  eventProperties : Option (List Nat)
  userProperties : Option (List Nat)
  customProperties : Option (List Nat)
  deriving DecidableEq, Repr

namespace Event
def fields (r : Event) : List Fields :=
  [putU64 1 r.id, putTime 2 r.createdAt, putU64 3 r.createdBy, putOptTime 4 r.updatedAt, putOptU64 5 r.updatedBy,
   putU64 6 r.projectId, putStrs 7 (r.tags.getD []), putS 8 r.name, putOptS 9 r.displayName, putOptS 10 r.description,
   putU64 11 r.status.num, putBool 12 r.isSystem]
/-- events.rs 469-495: the message has no fields for the three property lists. -/
def enc (r : Event) : Bytes := encFields r.fields.flatten
/-- events.rs 497-527. -/
def dec (b : Bytes) : Option Event := do
  let fs ← decFields b
  let st ← rdU64 (vals 11 fs)
  return { id := ← rdU64 (vals 1 fs), createdAt := ← rdTime (vals 2 fs), createdBy := ← rdU64 (vals 3 fs),
           updatedAt := ← rdOptTime (vals 4 fs), updatedBy := ← rdOptU64 (vals 5 fs), projectId := ← rdU64 (vals 6 fs),
           tags := optList (← rdStrs (vals 7 fs)), name := ← rdS (vals 8 fs), displayName := ← rdOptS (vals 9 fs),
           description := ← rdOptS (vals 10 fs), status := ← Status.ofNum st, isSystem := ← rdBool (vals 12 fs),
           eventProperties := none, userProperties := none, customProperties := none }
def norm (r : Event) : Event :=
  { r with createdAt := r.createdAt.trunc, updatedAt := r.updatedAt.map Time.trunc, tags := normList r.tags,
           eventProperties := none, userProperties := none, customProperties := none }
structure Valid (r : Event) : Prop where
  head : HeadOk r.id r.createdBy r.updatedBy
  proj : r.projectId < 2 ^ 64

theorem dec_enc (r : Event) (h : r.Valid) : dec r.enc = some r.norm := by
  obtain ⟨⟨h1, h2, h3⟩, h4⟩ := h
  have hw : WF r.fields.flatten := by have := r.status.num_lt; unfold fields; wf_fields
  unfold dec enc
  rw [decFields_enc _ hw]
  unfold fields
  rd_fields
  simp only [Status.ofNum_num, Option.bind_some]
  rfl
end Event

/-! ## Members with roles (sub-messages {id = 1, role = 2}) -/

def memberFields (num : α → Nat) (m : Nat × α) : List Fields := [putU64 1 m.1, putU64 2 (num m.2)]
/-- account.proto Organization/Project/Team, organization.proto Member. -/
def encMember (num : α → Nat) (m : Nat × α) : Bytes := encFields (memberFields num m).flatten
def decMember (ofNum : Nat → Option α) (b : Bytes) : Option (Nat × α) := do
  let fs ← decFields b
  let id ← rdU64 (vals 1 fs)
  let role ← ofNum (← rdU64 (vals 2 fs))
  return (id, role)

theorem decMember_enc {num : α → Nat} {ofNum : Nat → Option α} (h : ∀ a, ofNum (num a) = some a)
    (hn : ∀ a, num a < 2 ^ 64) (m : Nat × α) (h1 : m.1 < 2 ^ 64) :
    decMember ofNum (encMember num m) = some m := by
  have hw : WF (memberFields num m).flatten := by have := hn m.2; unfold memberFields; wf_fields
  unfold decMember encMember
  rw [decFields_enc _ hw]
  unfold memberFields
  rd_fields
  simp only [h, Option.bind_some]

theorem rdMembers_put {num : α → Nat} {ofNum : Nat → Option α} (h : ∀ a, ofNum (num a) = some a)
    (hn : ∀ a, num a < 2 ^ 64) (n : Nat) (l : List (Nat × α)) (h1 : ∀ m ∈ l, m.1 < 2 ^ 64) :
    rdMsgs (decMember ofNum) (vals n (putRep n (l.map (encMember num)))) = some l := by
  rw [rdMsgs_put (encMember num) _ id n l
    (fun m hm => decMember_enc h hn m (h1 m hm)), List.map_id]

/-! ## Accounts -/

/-- accounts.rs 244-259. -/
structure Account where
  id : Nat
  createdAt : Time
  createdBy : Nat
  updatedAt : Option Time
  updatedBy : Option Nat
  passwordHash : Str
  email : Str
  name : Option Str
  role : Option Role
  forceUpdatePassword : Bool
  forceUpdateEmail : Bool
  organizations : Option (List (Nat × OrgRole))
  projects : Option (List (Nat × ProjRole))
  teams : Option (List (Nat × Role))
  deriving DecidableEq, Repr

namespace Account
def fields (r : Account) : List Fields :=
  [putU64 1 r.id, putTime 2 r.createdAt, putU64 3 r.createdBy, putOptTime 4 r.updatedAt, putOptU64 5 r.updatedBy,
   putS 6 r.passwordHash, putS 7 r.email, putOptS 8 r.name, putOptU64 9 (r.role.map Role.num),
   putBool 10 r.forceUpdatePassword, putBool 11 r.forceUpdateEmail,
   putRep 12 ((r.organizations.getD []).map (encMember OrgRole.num)),
   putRep 13 ((r.projects.getD []).map (encMember ProjRole.num)),
   putRep 14 ((r.teams.getD []).map (encMember Role.num))]
/-- accounts.rs 310-381. -/
def enc (r : Account) : Bytes := encFields r.fields.flatten
def decRole : Option Nat → Option (Option Role)
  | none => some none
  | some n => (Role.ofNum n).map some
/-- accounts.rs 383-450. -/
def dec (b : Bytes) : Option Account := do
  let fs ← decFields b
  let role ← decRole (← rdOptU64 (vals 9 fs))
  return { id := ← rdU64 (vals 1 fs), createdAt := ← rdTime (vals 2 fs), createdBy := ← rdU64 (vals 3 fs),
           updatedAt := ← rdOptTime (vals 4 fs), updatedBy := ← rdOptU64 (vals 5 fs), passwordHash := ← rdS (vals 6 fs),
           email := ← rdS (vals 7 fs), name := ← rdOptS (vals 8 fs), role := role,
           forceUpdatePassword := ← rdBool (vals 10 fs), forceUpdateEmail := ← rdBool (vals 11 fs),
           organizations := optList (← rdMsgs (decMember OrgRole.ofNum) (vals 12 fs)),
           projects := optList (← rdMsgs (decMember ProjRole.ofNum) (vals 13 fs)),
           teams := optList (← rdMsgs (decMember Role.ofNum) (vals 14 fs)) }
def norm (r : Account) : Account :=
  { r with createdAt := r.createdAt.trunc, updatedAt := r.updatedAt.map Time.trunc, organizations := normList r.organizations,
           projects := normList r.projects, teams := normList r.teams }
structure Valid (r : Account) : Prop where
  head : HeadOk r.id r.createdBy r.updatedBy
  orgs : ∀ m ∈ r.organizations.getD [], m.1 < 2 ^ 64
  projs : ∀ m ∈ r.projects.getD [], m.1 < 2 ^ 64
  teams : ∀ m ∈ r.teams.getD [], m.1 < 2 ^ 64

theorem dec_enc (r : Account) (h : r.Valid) : dec r.enc = some r.norm := by
  obtain ⟨⟨h1, h2, h3⟩, h4, h5, h6⟩ := h
  have hw : WF r.fields.flatten := by
    have h9 : OptOk (r.role.map Role.num) := by
      cases e : r.role with
      | none => simp
      | some a => have := a.num_lt; simpa using this
    unfold fields; wf_fields
  have l12 := rdMembers_put OrgRole.ofNum_num OrgRole.num_lt 12 _ h4
  have l13 := rdMembers_put ProjRole.ofNum_num ProjRole.num_lt 13 _ h5
  have l14 := rdMembers_put Role.ofNum_num Role.num_lt 14 _ h6
  unfold dec enc
  rw [decFields_enc _ hw]
  unfold fields
  rd_fields
  simp only [l12, l13, l14, optList_getD, Option.bind_some]
  have : decRole (r.role.map Role.num) = some r.role := by cases r.role <;> simp [decRole]
  rw [this]
  rfl
end Account

/-! ## Organizations -/

/-- organizations.rs 232-240. -/
structure Org where
  id : Nat
  createdAt : Time
  createdBy : Nat
  updatedAt : Option Time
  updatedBy : Option Nat
  name : Str
  members : List (Nat × OrgRole)
  deriving DecidableEq, Repr

namespace Org
def fields (r : Org) : List Fields :=
  [putU64 1 r.id, putTime 2 r.createdAt, putU64 3 r.createdBy, putOptTime 4 r.updatedAt, putOptU64 5 r.updatedBy,
   putS 6 r.name, putRep 7 (r.members.map (encMember OrgRole.num))]
/-- organizations.rs 260-279. -/
def enc (r : Org) : Bytes := encFields r.fields.flatten
/-- organizations.rs 282-308. -/
def dec (b : Bytes) : Option Org := do
  let fs ← decFields b
  return { id := ← rdU64 (vals 1 fs), createdAt := ← rdTime (vals 2 fs), createdBy := ← rdU64 (vals 3 fs),
           updatedAt := ← rdOptTime (vals 4 fs), updatedBy := ← rdOptU64 (vals 5 fs), name := ← rdS (vals 6 fs),
           members := ← rdMsgs (decMember OrgRole.ofNum) (vals 7 fs) }
def norm (r : Org) : Org := { r with createdAt := r.createdAt.trunc, updatedAt := r.updatedAt.map Time.trunc }
structure Valid (r : Org) : Prop where
  head : HeadOk r.id r.createdBy r.updatedBy
  members : ∀ m ∈ r.members, m.1 < 2 ^ 64

theorem dec_enc (r : Org) (h : r.Valid) : dec r.enc = some r.norm := by
  obtain ⟨⟨h1, h2, h3⟩, h4⟩ := h
  have hw : WF r.fields.flatten := by unfold fields; wf_fields
  have l7 := rdMembers_put OrgRole.ofNum_num OrgRole.num_lt 7 _ h4
  unfold dec enc
  rw [decFields_enc _ hw]
  unfold fields
  rd_fields
  simp only [l7, Option.bind_some]
  rfl
end Org

/-! ## Projects -/

/-- projects.rs 201-214. -/
structure Project where
  id : Nat
  createdAt : Time
  createdBy : Nat
  updatedAt : Option Time
  updatedBy : Option Nat
  orgId : Nat
  name : Str
  description : Option Str
  tags : Option (List Str)
  token : Str
  sessionDuration : Nat
  eventsCount : Nat
  deriving DecidableEq, Repr

namespace Project
def fields (r : Project) : List Fields :=
  [putU64 1 r.id, putTime 2 r.createdAt, putU64 3 r.createdBy, putOptTime 4 r.updatedAt, putOptU64 5 r.updatedBy,
   putU64 6 r.orgId, putS 7 r.name, putOptS 8 r.description, putStrs 9 (r.tags.getD []), putS 10 r.token,
   putU64 11 r.sessionDuration, putU64 12 r.eventsCount]
/-- projects.rs 240-263. -/
def enc (r : Project) : Bytes := encFields r.fields.flatten
/-- projects.rs 266-291. -/
def dec (b : Bytes) : Option Project := do
  let fs ← decFields b
  return { id := ← rdU64 (vals 1 fs), createdAt := ← rdTime (vals 2 fs), createdBy := ← rdU64 (vals 3 fs),
           updatedAt := ← rdOptTime (vals 4 fs), updatedBy := ← rdOptU64 (vals 5 fs), orgId := ← rdU64 (vals 6 fs),
           name := ← rdS (vals 7 fs), description := ← rdOptS (vals 8 fs), tags := optList (← rdStrs (vals 9 fs)),
           token := ← rdS (vals 10 fs), sessionDuration := ← rdU64 (vals 11 fs), eventsCount := ← rdU64 (vals 12 fs) }
def norm (r : Project) : Project :=
  { r with createdAt := r.createdAt.trunc, updatedAt := r.updatedAt.map Time.trunc, tags := normList r.tags }
structure Valid (r : Project) : Prop where
  head : HeadOk r.id r.createdBy r.updatedBy
  org : r.orgId < 2 ^ 64
  dur : r.sessionDuration < 2 ^ 64
  count : r.eventsCount < 2 ^ 64

theorem dec_enc (r : Project) (h : r.Valid) : dec r.enc = some r.norm := by
  obtain ⟨⟨h1, h2, h3⟩, h4, h5, h6⟩ := h
  have hw : WF r.fields.flatten := by unfold fields; wf_fields
  unfold dec enc
  rw [decFields_enc _ hw]
  unfold fields
  rd_fields
  rfl
end Project

/-! ## Dashboards -/

/-- dashboards.rs 168-176; `typ` has the single value `Report`. -/
structure Panel where
  reportId : Nat
  x : Nat
  y : Nat
  w : Nat
  h : Nat
  deriving DecidableEq, Repr

namespace Panel
def fields (p : Panel) : List Fields :=
  [putU64 1 1, putU64 2 p.reportId, putU64 3 (p.x % 2 ^ 32), putU64 4 (p.y % 2 ^ 32), putU64 5 (p.w % 2 ^ 32),
   putU64 6 (p.h % 2 ^ 32)]
/-- dashboards.rs 220-233: the coordinates are cast to u32. -/
def enc (p : Panel) : Bytes := encFields p.fields.flatten
/-- dashboards.rs 268-281. -/
def dec (b : Bytes) : Option Panel := do
  let fs ← decFields b
  let typ ← rdU64 (vals 1 fs)
  if typ = 1 then
    return { reportId := ← rdU64 (vals 2 fs), x := ← rdU64 (vals 3 fs), y := ← rdU64 (vals 4 fs), w := ← rdU64 (vals 5 fs),
             h := ← rdU64 (vals 6 fs) }
  else none
def norm (p : Panel) : Panel := { p with x := p.x % 2 ^ 32, y := p.y % 2 ^ 32, w := p.w % 2 ^ 32, h := p.h % 2 ^ 32 }

theorem dec_enc (p : Panel) (h1 : p.reportId < 2 ^ 64) : dec p.enc = some p.norm := by
  have hw : WF p.fields.flatten := by unfold fields; wf_fields
  unfold dec enc
  rw [decFields_enc _ hw]
  unfold fields
  rd_fields
  rfl
end Panel

/-- dashboards.rs 180-191. -/
structure Dashboard where
  id : Nat
  createdAt : Time
  createdBy : Nat
  updatedAt : Option Time
  updatedBy : Option Nat
  projectId : Nat
  tags : Option (List Str)
  name : Str
  description : Option Str
  panels : List Panel
  deriving DecidableEq, Repr

namespace Dashboard
def fields (r : Dashboard) : List Fields :=
  [putU64 1 r.id, putTime 2 r.createdAt, putU64 3 r.createdBy, putOptTime 4 r.updatedAt, putOptU64 5 r.updatedBy,
   putU64 6 r.projectId, putStrs 7 (r.tags.getD []), putS 8 r.name, putOptS 9 r.description, putRep 10 (r.panels.map Panel.enc)]
/-- dashboards.rs 213-248. -/
def enc (r : Dashboard) : Bytes := encFields r.fields.flatten
/-- dashboards.rs 250-283. -/
def dec (b : Bytes) : Option Dashboard := do
  let fs ← decFields b
  return { id := ← rdU64 (vals 1 fs), createdAt := ← rdTime (vals 2 fs), createdBy := ← rdU64 (vals 3 fs),
           updatedAt := ← rdOptTime (vals 4 fs), updatedBy := ← rdOptU64 (vals 5 fs), projectId := ← rdU64 (vals 6 fs),
           tags := optList (← rdStrs (vals 7 fs)), name := ← rdS (vals 8 fs), description := ← rdOptS (vals 9 fs),
           panels := ← rdMsgs Panel.dec (vals 10 fs) }
def norm (r : Dashboard) : Dashboard :=
  { r with createdAt := r.createdAt.trunc, updatedAt := r.updatedAt.map Time.trunc, tags := normList r.tags,
           panels := r.panels.map Panel.norm }
structure Valid (r : Dashboard) : Prop where
  head : HeadOk r.id r.createdBy r.updatedBy
  proj : r.projectId < 2 ^ 64
  panels : ∀ p ∈ r.panels, p.reportId < 2 ^ 64

theorem dec_enc (r : Dashboard) (h : r.Valid) : dec r.enc = some r.norm := by
  obtain ⟨⟨h1, h2, h3⟩, h4, h5⟩ := h
  have hw : WF r.fields.flatten := by unfold fields; wf_fields
  have l10 := rdMsgs_put Panel.enc Panel.dec Panel.norm 10 r.panels (fun p hp => Panel.dec_enc p (h5 p hp)
   )
  unfold dec enc
  rw [decFields_enc _ hw]
  unfold fields
  rd_fields
  simp only [l10, Option.bind_some]
  rfl
end Dashboard

/-! ## Reports and bookmarks

Queries are stored as bytes made by the `bincode` crate, a parameter here. -/

structure Bincode (Q : Type) where
  enc : Q → Bytes
  dec : Bytes → Option Q
  dec_enc : ∀ q, dec (enc q) = some q

/-- reports.rs 165-170. -/
inductive ReportType where | eventSegmentation | funnel
  deriving DecidableEq, Repr
def ReportType.num : ReportType → Nat | .eventSegmentation => 1 | .funnel => 2
def ReportType.ofNum : Nat → Option ReportType | 1 => some .eventSegmentation | 2 => some .funnel | _ => none
@[simp] theorem ReportType.ofNum_num (s : ReportType) : ReportType.ofNum s.num = some s := by cases s <;> rfl
theorem ReportType.num_lt (s : ReportType) : s.num < 2 ^ 64 := by cases s <;> decide

/-- reports.rs 179-192. -/
structure Report (Q : Type) where
  id : Nat
  createdAt : Time
  createdBy : Nat
  updatedAt : Option Time
  updatedBy : Option Nat
  projectId : Nat
  tags : Option (List Str)
  name : Str
  description : Option Str
  typ : ReportType
  query : Q

namespace Report
variable {Q : Type}
def fields (bc : Bincode Q) (r : Report Q) : List Fields :=
  [putU64 1 r.id, putTime 2 r.createdAt, putU64 3 r.createdBy, putOptTime 4 r.updatedAt, putOptU64 5 r.updatedBy,
   putU64 6 r.projectId, putStrs 7 (r.tags.getD []), putS 8 r.name, putOptS 9 r.description, putU64 10 r.typ.num,
   putStr 11 (bc.enc r.query)]
/-- reports.rs 216-236. -/
def enc (bc : Bincode Q) (r : Report Q) : Bytes := encFields (r.fields bc).flatten
/-- reports.rs 239-268. -/
def dec (bc : Bincode Q) (b : Bytes) : Option (Report Q) := do
  let fs ← decFields b
  let typ ← rdU64 (vals 10 fs)
  let query ← rdBytes (vals 11 fs)
  return { id := ← rdU64 (vals 1 fs), createdAt := ← rdTime (vals 2 fs), createdBy := ← rdU64 (vals 3 fs),
           updatedAt := ← rdOptTime (vals 4 fs), updatedBy := ← rdOptU64 (vals 5 fs), projectId := ← rdU64 (vals 6 fs),
           tags := optList (← rdStrs (vals 7 fs)), name := ← rdS (vals 8 fs), description := ← rdOptS (vals 9 fs),
           typ := ← ReportType.ofNum typ, query := ← bc.dec query }
def norm (r : Report Q) : Report Q :=
  { r with createdAt := r.createdAt.trunc, updatedAt := r.updatedAt.map Time.trunc, tags := normList r.tags }
structure Valid (bc : Bincode Q) (r : Report Q) : Prop where
  head : HeadOk r.id r.createdBy r.updatedBy
  proj : r.projectId < 2 ^ 64

theorem dec_enc (bc : Bincode Q) (r : Report Q) (h : r.Valid bc) : dec bc (r.enc bc) = some r.norm := by
  obtain ⟨⟨h1, h2, h3⟩, h4⟩ := h
  have hw : WF (r.fields bc).flatten := by have := r.typ.num_lt; unfold fields; wf_fields
  unfold dec enc
  rw [decFields_enc _ hw]
  unfold fields
  rd_fields
  simp only [ReportType.ofNum_num, bc.dec_enc, Option.bind_some]
  rfl
end Report

/-- bookmarks.rs 90-96. -/
structure Bookmark (Q : Type) where
  id : Str
  createdAt : Time
  createdBy : Nat
  projectId : Nat
  query : Option Q

namespace Bookmark
variable {Q : Type}
def fields (bc : Bincode Q) (r : Bookmark Q) : List Fields :=
  [putS 1 r.id, putTime 2 r.createdAt, putU64 3 r.createdBy, putU64 4 r.projectId, putOptStr 5 (r.query.map bc.enc)]
/-- bookmarks.rs 104-114. -/
def enc (bc : Bincode Q) (r : Bookmark Q) : Bytes := encFields (r.fields bc).flatten
def decQuery (bc : Bincode Q) : Option Bytes → Option (Option Q)
  | none => some none
  | some b => (bc.dec b).map some
/-- bookmarks.rs 116-127. -/
def dec (bc : Bincode Q) (b : Bytes) : Option (Bookmark Q) := do
  let fs ← decFields b
  return { id := ← rdS (vals 1 fs), createdAt := ← rdTime (vals 2 fs), createdBy := ← rdU64 (vals 3 fs),
           projectId := ← rdU64 (vals 4 fs), query := ← decQuery bc (← rdOptBytes (vals 5 fs)) }
def norm (r : Bookmark Q) : Bookmark Q := { r with createdAt := r.createdAt.trunc }
structure Valid (bc : Bincode Q) (r : Bookmark Q) : Prop where
  createdBy : r.createdBy < 2 ^ 64
  proj : r.projectId < 2 ^ 64

theorem dec_enc (bc : Bincode Q) (r : Bookmark Q) (h : r.Valid bc) : dec bc (r.enc bc) = some r.norm := by
  obtain ⟨h1, h2⟩ := h
  have hw : WF (r.fields bc).flatten := by unfold fields; wf_fields
  unfold dec enc
  rw [decFields_enc _ hw]
  unfold fields
  rd_fields
  have : decQuery bc (r.query.map bc.enc) = some r.query := by cases r.query <;> simp [decQuery, bc.dec_enc]
  rw [this]
  rfl
end Bookmark

/-! ## Sessions -/

/-- sessions.rs 136-139. -/
structure Session where
  userId : Nat
  createdAt : Time
  deriving DecidableEq, Repr

namespace Session
def fields (r : Session) : List Fields := [putU64 1 r.userId, putTime 2 r.createdAt]
/-- sessions.rs 142-149. -/
def enc (r : Session) : Bytes := encFields r.fields.flatten
/-- sessions.rs 152-158. -/
def dec (b : Bytes) : Option Session := do
  let fs ← decFields b
  return { userId := ← rdU64 (vals 1 fs), createdAt := ← rdTime (vals 2 fs) }
def norm (r : Session) : Session := { r with createdAt := r.createdAt.trunc }

theorem dec_enc (r : Session) (h : r.userId < 2 ^ 64) : dec r.enc = some r.norm := by
  have hw : WF r.fields.flatten := by unfold fields; wf_fields
  unfold dec enc
  rw [decFields_enc _ hw]
  unfold fields
  rd_fields
  rfl
end Session

/-! ## Backups -/

/-- backups.rs 29-46; paths are strings. -/
inductive Provider where
  | localDir (path : Str)
  | s3 (bucket path region : Str)
  | gcp (bucket path : Str)
  deriving DecidableEq, Repr

/-- backups.rs 49-55. -/
inductive BackupStatus where
  | idle
  | inProgress (p : Nat)
  | uploading
  | failed (e : Str)
  | completed
  deriving DecidableEq, Repr

/-- backups.rs 58-66. -/
structure Backup where
  id : Nat
  createdAt : Time
  updatedAt : Option Time
  provider : Provider
  status : BackupStatus
  isEncrypted : Bool
  password : Option Str
  deriving DecidableEq, Repr

namespace Backup
def fields (r : Backup) : List Fields :=
  [putU64 1 r.id, putTime 2 r.createdAt, putOptTime 3 r.updatedAt,
   putU64 4 (match r.provider with | .localDir _ => 1 | .s3 _ _ _ => 2 | .gcp _ _ => 3),
   putS 5 (match r.provider with | .localDir p => p | _ => []),
   putS 6 (match r.provider with | .s3 b _ _ => b | _ => []),
   putS 7 (match r.provider with | .s3 _ _ g => g | _ => []),
   putS 8 (match r.provider with | .gcp b _ => b | _ => []),
   putU64 9 (match r.status with | .idle => 1 | .inProgress _ => 2 | .uploading => 3 | .failed _ => 4 | .completed => 5),
   putS 10 (match r.status with | .failed e => e | _ => []),
   putU64 11 (match r.status with | .inProgress p => p | _ => 0),
   putBool 12 r.isEncrypted, putOptS 13 r.password,
   putS 14 (match r.provider with | .s3 _ p _ => p | _ => []),
   putS 15 (match r.provider with | .gcp _ p => p | _ => [])]
/-- backups.rs 236-309. -/
def enc (r : Backup) : Bytes := encFields r.fields.flatten
/-- backups.rs 310-346. -/
def dec (b : Bytes) : Option Backup := do
  let fs ← decFields b
  let id ← rdU64 (vals 1 fs)
  let createdAt ← rdTime (vals 2 fs)
  let updatedAt ← rdOptTime (vals 3 fs)
  let pr ← rdU64 (vals 4 fs)
  let local_ ← rdS (vals 5 fs)
  let s3b ← rdS (vals 6 fs)
  let s3r ← rdS (vals 7 fs)
  let gb ← rdS (vals 8 fs)
  let st ← rdU64 (vals 9 fs)
  let er ← rdS (vals 10 fs)
  let pg ← rdU64 (vals 11 fs)
  let isEncrypted ← rdBool (vals 12 fs)
  let password ← rdOptS (vals 13 fs)
  let s3p ← rdS (vals 14 fs)
  let gp ← rdS (vals 15 fs)
  let provider ← (match pr with
    | 1 => some (Provider.localDir local_)
    | 2 => some (.s3 s3b s3p s3r)
    | 3 => some (.gcp gb gp)
    | _ => none)
  let status ← (match st with
    | 1 => some BackupStatus.idle
    | 2 => some (.inProgress pg)
    | 3 => some .uploading
    | 4 => some (.failed er)
    | 5 => some .completed
    | _ => none)
  return { id, createdAt, updatedAt, provider, status, isEncrypted, password }
def norm (r : Backup) : Backup := { r with createdAt := r.createdAt.trunc, updatedAt := r.updatedAt.map Time.trunc }
structure Valid (r : Backup) : Prop where
  id : r.id < 2 ^ 64
  progress : ∀ p, r.status = .inProgress p → p < 2 ^ 64

theorem dec_enc (r : Backup) (h : r.Valid) : dec r.enc = some r.norm := by
  obtain ⟨h1, h2⟩ := h
  have hw : WF r.fields.flatten := by
    have h4 : (match r.provider with | .localDir _ => 1 | .s3 _ _ _ => 2 | .gcp _ _ => 3) < 2 ^ 64 := by split <;> omega
    have h9 : (match r.status with | .idle => 1 | .inProgress _ => 2 | .uploading => 3 | .failed _ => 4 | .completed => 5) < 2 ^ 64 := by
      split <;> omega
    have h11 : (match r.status with | .inProgress p => p | _ => 0) < 2 ^ 64 := by
      split
      · next e => exact h2 _ e
      · omega
    unfold fields; wf_fields
  unfold dec enc
  rw [decFields_enc _ hw]
  unfold fields
  rd_fields
  obtain ⟨i, c, u, p, s, e, pw⟩ := r
  cases p <;> cases s <;> rfl
end Backup

/-! ## Groups and group values -/

/-- groups.rs 294-298. -/
structure Group where
  id : Nat
  name : Str
  displayName : Str
  deriving DecidableEq, Repr

namespace Group
def fields (r : Group) : List Fields := [putU64 1 r.id, putS 2 r.name, putOptS 3 (some r.displayName)]
/-- groups.rs 383-391. -/
def enc (r : Group) : Bytes := encFields r.fields.flatten
/-- groups.rs 394-402. -/
def dec (b : Bytes) : Option Group := do
  let fs ← decFields b
  return { id := ← rdU64 (vals 1 fs), name := ← rdS (vals 2 fs), displayName := ← (← rdOptS (vals 3 fs)) }
structure Valid (r : Group) : Prop where
  id : r.id < 2 ^ 64

theorem dec_enc (r : Group) (h : r.Valid) : dec r.enc = some r := by
  obtain ⟨h1⟩ := h
  have hw : WF r.fields.flatten := by unfold fields; wf_fields
  unfold dec enc
  rw [decFields_enc _ hw]
  unfold fields
  rd_fields
end Group

/-- groups.rs 261-279; the eight list kinds are one constructor. -/
inductive GValue where
  | null
  | int8 (v : Option (BitVec 8))
  | int16 (v : Option (BitVec 16))
  | int32 (v : Option (BitVec 32))
  | int64 (v : Option (BitVec 64))
  | bool (v : Option Bool)
  | timestamp (v : Option (BitVec 64))
  | decimal (v : Option (BitVec 128))
  | str (v : Option Str)
  | list
  deriving DecidableEq, Repr

theorem ofNat_signExtend {w : Nat} (v : BitVec w) (h : w ≤ 64) : BitVec.ofNat w (v.signExtend 64).toNat = v := by
  rw [BitVec.ofNat_toNat]
  apply BitVec.eq_of_getLsbD_eq
  intro i hi
  rw [BitVec.getLsbD_setWidth, BitVec.getLsbD_signExtend]
  simp [hi, show i < 64 by omega]

namespace GValue
/-- The oneof: one field, written whatever its value. -/
def field : GValue → Option (Nat × WireVal)
  | null => some (1, .varint 1)
  | int8 (some v) => some (2, .varint (v.signExtend 64).toNat)
  | int16 (some v) => some (3, .varint (v.signExtend 64).toNat)
  | int32 (some v) => some (4, .varint (v.signExtend 64).toNat)
  | int64 (some v) => some (5, .varint v.toNat)
  | bool (some v) => some (6, .varint (if v then 1 else 0))
  | timestamp (some v) => some (7, .varint v.toNat)
  | decimal (some v) => some (8, .len (toLE 16 v.toNat))
  | str (some v) => some (9, .len (utf8 v))
  | _ => none
/-- groups.rs 308-343: `None` values and lists panic. -/
def enc (v : GValue) : Option Bytes := v.field.map fun f => encFields [f]
/-- groups.rs 361-375: the last field of the oneof decides. -/
def dec (b : Bytes) : Option GValue := do
  let fs ← decFields b
  match ← (fs.filter fun f => decide (1 ≤ f.1 ∧ f.1 ≤ 9)).getLast? with
  | (1, .varint _) => some null
  | (2, .varint n) => some (int8 (some (BitVec.ofNat 8 n)))
  | (3, .varint n) => some (int16 (some (BitVec.ofNat 16 n)))
  | (4, .varint n) => some (int32 (some (BitVec.ofNat 32 n)))
  | (5, .varint n) => some (int64 (some (BitVec.ofNat 64 n)))
  | (6, .varint n) => some (bool (some (n != 0)))
  | (7, .varint n) => some (timestamp (some (BitVec.ofNat 64 n)))
  | (8, .len b) => if b.length = 16 then some (decimal (some (BitVec.ofNat 128 (fromLE b)))) else none
  | (9, .len b) => (ofUtf8 b).map fun s => str (some s)
  | _ => none

theorem dec_enc (v : GValue) (b : Bytes) (h : v.enc = some b) : dec b = some v := by
  obtain ⟨f, hf, rfl⟩ := Option.map_eq_some_iff.mp h
  have hw : WF [f] := by
    intro g hg
    obtain rfl := List.mem_singleton.mp hg
    unfold field at hf
    split at hf <;> cases hf <;> refine ⟨by dsimp only; omega, by dsimp only; omega, ?_⟩ <;> intro n e <;> cases e
    · decide
    all_goals first | exact BitVec.isLt _ | (split <;> decide)
  unfold dec
  rw [decFields_enc _ hw]
  unfold field at hf
  split at hf <;> cases hf
  · rfl
  · next v => simp [ofNat_signExtend v (by decide)]
  · next v => simp [ofNat_signExtend v (by decide)]
  · next v => simp [ofNat_signExtend v (by decide)]
  · simp
  · next v => cases v <;> rfl
  · simp
  · next v =>
    have : v.toNat < 2 ^ (8 * 16) := v.isLt
    simp [Storage.toLE_length, Storage.fromLE_toLE 16 v.toNat (by omega)]
  · simp [ofUtf8_utf8]
end GValue

/-- groups.rs 282-285. -/
structure PropVal where
  propertyId : Nat
  value : GValue
  deriving DecidableEq, Repr

namespace PropVal
def fields (i : Nat) (v : Bytes) : List Fields := [putU64 1 i, putOptMsg 2 (some v)]
def enc (p : PropVal) : Option Bytes := p.value.enc.map fun v => encFields (fields p.propertyId v).flatten
def rdMsg (vs : List WireVal) : Option (Option Bytes) :=
  (vs.mapM WireVal.asLen).map fun l => if l.isEmpty then none else some l.flatten
def dec (b : Bytes) : Option PropVal := do
  let fs ← decFields b
  let id ← rdU64 (vals 1 fs)
  let v ← (← rdMsg (vals 2 fs))
  return { propertyId := id, value := ← GValue.dec v }

theorem rdMsg_put (n : Nat) (b : Option Bytes) : rdMsg (vals n (putOptMsg n b)) = some b :=
  getOptMsg_of (fs := putOptMsg n b) rfl

theorem dec_enc (p : PropVal) (b : Bytes) (h : p.enc = some b) (h1 : p.propertyId < 2 ^ 64) :
    dec b = some p := by
  obtain ⟨v, hv, rfl⟩ := Option.map_eq_some_iff.mp h
  have hw : WF (fields p.propertyId v).flatten := by unfold fields; wf_fields
  unfold dec
  rw [decFields_enc _ hw]
  unfold fields
  rd_fields
  rw [rdMsg_put]
  simp [GValue.dec_enc p.value v hv]
end PropVal

/-- groups.rs 288-291. -/
structure GroupValues where
  id : Nat
  values : List PropVal
  deriving DecidableEq, Repr

namespace GroupValues
def fields (i : Nat) (l : List Bytes) : List Fields := [putU64 1 i, putRep 2 l]
/-- groups.rs 300-349; `none` is a panic. -/
def enc (r : GroupValues) : Option Bytes := (r.values.mapM PropVal.enc).map fun l => encFields (fields r.id l).flatten
/-- groups.rs 351-380. -/
def dec (b : Bytes) : Option GroupValues := do
  let fs ← decFields b
  return { id := ← rdU64 (vals 1 fs), values := ← rdMsgs PropVal.dec (vals 2 fs) }

theorem mapM_dec {α : Type} {enc : α → Option Bytes} {dec : Bytes → Option α} (l : List α) (bs : List Bytes)
    (h : l.mapM enc = some bs) (hd : ∀ a ∈ l, ∀ b ∈ bs, enc a = some b → dec b = some a) : bs.mapM dec = some l := by
  induction l generalizing bs with
  | nil => cases h; rfl
  | cons a l ih =>
    rw [List.mapM_cons] at h
    simp only [Option.bind_eq_bind, Option.pure_def, Option.bind_eq_some_iff] at h
    obtain ⟨b, hb, bs', hbs, e⟩ := h
    cases e
    rw [List.mapM_cons, hd a (by simp) b (by simp) hb, ih bs' hbs fun a ha b hb => hd a (by simp [ha]) b (by simp [hb])]
    rfl

theorem dec_enc (r : GroupValues) (b : Bytes) (h : r.enc = some b) (h1 : r.id < 2 ^ 64)
    (h2 : ∀ p ∈ r.values, p.propertyId < 2 ^ 64) : dec b = some r := by
  obtain ⟨l, hv, rfl⟩ := Option.map_eq_some_iff.mp h
  have hw : WF (fields r.id l).flatten := by unfold fields; wf_fields
  have hm : rdMsgs PropVal.dec (vals 2 (putRep 2 l)) = some r.values := by
    unfold rdMsgs; rw [rdRep_put]
    exact mapM_dec r.values l hv fun p hp b hb e => PropVal.dec_enc p b e (h2 p hp)
  unfold dec
  rw [decFields_enc _ hw]
  unfold fields
  rd_fields
  rw [hm]
  rfl
end GroupValues

end OptiPrism.Meta
