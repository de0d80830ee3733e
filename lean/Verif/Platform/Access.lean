import Verif.Meta.System

/-!
# Permission checks of the platform

platform/src/context.rs 39-195, common/src/rbac.rs, and the check each endpoint of platform/src makes before
anything else.
-/

namespace OptiPrism.Platform

open OptiPrism.Meta

/-- `Permission`, rbac.rs 6-14. -/
inductive Perm where
  | all | manageAccounts | viewAccounts | manageOrganizations | viewOrganizations | manageProjects | manageServer
  deriving DecidableEq, Repr

/-- `OrganizationPermission`, rbac.rs 22-29. -/
inductive OrgPerm where
  | viewOrganization | manageOrganization | manageProjects | exploreProjects | deleteOrganization | all
  deriving DecidableEq, Repr

/-- `ProjectPermission`, rbac.rs 39-51. -/
inductive ProjPerm where
  | manageProject | deleteProject | viewProject | manageSchema | deleteSchema | viewSchema | inviteMembers | manageMembers
  | exploreReports | manageReports | all
  deriving DecidableEq, Repr

/-- `PERMISSIONS`, rbac.rs 62-63. -/
def permTable : List (Role × List Perm) := [(.admin, [.all])]

/-- `ORGANIZATION_PERMISSIONS`, rbac.rs 64-69. -/
def orgTable : List (OrgRole × List OrgPerm) := [(.owner, [.all]), (.admin, [.manageProjects])]

/-- `PROJECT_PERMISSIONS`, rbac.rs 70-91. -/
def projTable : List (ProjRole × List ProjPerm) :=
  [(.owner, [.all]),
   (.admin, [.manageProject, .inviteMembers, .manageMembers, .exploreReports, .manageReports, .viewSchema, .manageSchema]),
   (.member, [.exploreReports, .manageReports, .viewSchema, .manageSchema]),
   (.reader, [.exploreReports, .viewSchema])]

/-- `Context`, context.rs 26-36. -/
structure Ctx where
  accountId : Nat
  organizationId : Nat
  role : Option Role
  organizations : Option (List (Nat × OrgRole))
  projects : Option (List (Nat × ProjRole))
  deriving Repr

/-- The loop over a table common to the three checks (context.rs 52-61, 78-90, 111-122). -/
def inTable {ρ π : Type} [DecidableEq ρ] [DecidableEq π] (table : List (ρ × List π)) (all : π) (role : ρ) (perm : π) : Bool :=
  match table with
  | [] => false
  | (r, ps) :: rest =>
    if r ≠ role then inTable rest all role perm
    else if ps.contains all then true
    else if ps.contains perm then true
    else inTable rest all role perm

/-- The first entry for the identifier (`get_organization_role`, `get_project_role`, context.rs 127-151). -/
def roleFor {ρ : Type} (l : Option (List (Nat × ρ))) (id : Nat) : Option ρ :=
  match l with
  | none => none
  | some l => (l.find? fun e => e.1 == id).map (·.2)

/-- `check_permission`, context.rs 39-65; `false` is `Forbidden`. -/
def Ctx.checkPermission (c : Ctx) (p : Perm) : Bool :=
  match c.role with
  | some r => inTable permTable .all r p
  | none => false

/-- `check_organization_permission`, context.rs 67-93. -/
def Ctx.checkOrg (c : Ctx) (org : Nat) (p : OrgPerm) : Bool :=
  if c.checkPermission .manageOrganizations then true
  else match roleFor c.organizations org with
    | none => false
    | some r => inTable orgTable .all r p

/-- `check_project_permission`, context.rs 95-125. -/
def Ctx.checkProject (c : Ctx) (org project : Nat) (p : ProjPerm) : Bool :=
  if c.checkPermission .manageProjects then true
  else if roleFor c.organizations org = some .owner ∨ roleFor c.organizations org = some .admin then true
  else match roleFor c.projects project with
    | none => false
    | some r => inTable projTable .all r p

/-- `Context::from_request_parts`, context.rs 153-195: from the account of the token's claims as it is
stored when the request arrives. -/
def contextOf (account org : Nat) (kv : Kv) : Except Err Ctx :=
  match accountsC.getById account kv with
  | .error e => .error e
  | .ok acc => .ok ⟨acc.id, org, acc.role, acc.organizations, acc.projects⟩

/-- The endpoints of platform/src that act on one project. -/
inductive ProjOp where
  | bookmarkCreate | bookmarkGet
  | customCreate | customGet | customList | customUpdate | customDelete
  | dashboardCreate | dashboardGet | dashboardList | dashboardUpdate | dashboardDelete
  | recordGet | recordSearch | segmentation | funnel | groupRecordGet | groupRecordSearch
  | eventCreate | eventGet | eventGetByName | eventList | eventUpdate | eventAttach | eventDetach | eventDelete
  | groupCreate | groupList
  | propGet | propGetByName | propList | propUpdate | propDelete | propValues
  | reportCreate | reportGet | reportList | reportUpdate | reportDelete
  | projectGet | projectUpdate | projectDelete
  deriving DecidableEq, Repr

/-- The permission the endpoint asks for: bookmarks.rs 28-49, custom_events.rs 32-117, dashboards.rs 30-107,
event_records.rs 40-67, event_segmentation.rs 52-56, funnel.rs 52-56, group_records.rs 46-73, events.rs 29-157,
groups.rs 25-46, properties.rs 65-146, reports.rs 32-108, projects.rs 129-211. -/
def ProjOp.perm : ProjOp → ProjPerm
  | .bookmarkCreate | .bookmarkGet => .exploreReports
  | .customCreate | .customUpdate => .manageSchema
  | .customGet | .customList => .viewSchema
  | .customDelete => .deleteSchema
  | .dashboardCreate | .dashboardUpdate | .dashboardDelete => .manageReports
  | .dashboardGet | .dashboardList => .exploreReports
  | .recordGet | .recordSearch | .segmentation | .funnel | .groupRecordGet | .groupRecordSearch => .exploreReports
  | .eventCreate | .eventUpdate | .eventAttach | .eventDetach => .manageSchema
  | .eventGet | .eventGetByName | .eventList => .viewSchema
  | .eventDelete => .deleteSchema
  | .groupCreate => .manageSchema
  | .groupList => .viewSchema
  | .propGet | .propGetByName | .propList => .viewSchema
  | .propUpdate => .manageSchema
  | .propDelete => .deleteSchema
  | .propValues => .exploreReports
  | .reportCreate | .reportUpdate | .reportDelete => .manageReports
  | .reportGet | .reportList => .exploreReports
  | .projectGet => .viewProject
  | .projectUpdate => .manageProject
  | .projectDelete => .deleteProject

/-- Whether the endpoint goes on: all of them pass `ctx.organization_id`. -/
def ProjOp.allowed (o : ProjOp) (c : Ctx) (project : Nat) : Bool := c.checkProject c.organizationId project o.perm

/-- Whether the endpoint writes to the store. -/
def ProjOp.writes : ProjOp → Bool
  | .bookmarkCreate | .customCreate | .customUpdate | .customDelete | .dashboardCreate | .dashboardUpdate | .dashboardDelete
  | .eventCreate | .eventUpdate | .eventAttach | .eventDetach | .eventDelete | .groupCreate | .propUpdate | .propDelete
  | .reportCreate | .reportUpdate | .reportDelete | .projectUpdate | .projectDelete => true
  | _ => false

/-- The endpoints that act on one organization (organizations.rs 39-79, auth/provider.rs 322-327; the last two
on the organization of the token: projects.rs 86-162). -/
inductive OrgOp where
  | orgGet | orgUpdate | switchOrganization | projectCreate | projectList
  deriving DecidableEq, Repr

def OrgOp.perm : OrgOp → OrgPerm
  | .orgGet | .switchOrganization => .viewOrganization
  | .orgUpdate => .manageOrganization
  | .projectCreate => .manageProjects
  | .projectList => .exploreProjects

def OrgOp.allowed (o : OrgOp) (c : Ctx) (org : Nat) : Bool := c.checkOrg org o.perm

/-- The endpoints of the whole installation (accounts.rs, backups.rs, settings.rs, organizations.rs 24-29, 45-46,
82-83). -/
inductive RootOp where
  | accountCreate | accountGet | accountList | accountUpdate | accountDelete | backup | backupGet | backupList
  | settingsSet | settingsGet | orgCreate | orgList | orgDelete
  deriving DecidableEq, Repr

def RootOp.perm : RootOp → Perm
  | .accountCreate | .accountGet | .accountList | .accountUpdate | .accountDelete => .manageAccounts
  | .backup | .backupGet | .backupList | .settingsSet | .settingsGet => .manageServer
  | .orgCreate | .orgDelete => .manageOrganizations
  | .orgList => .viewOrganizations

def RootOp.allowed (o : RootOp) (c : Ctx) : Bool := c.checkPermission o.perm

/-- `Projects::get_by_id`, projects.rs 128-132. -/
def projectGet (c : Ctx) (id : Nat) (kv : Kv) : Except Err (Option Project) :=
  if ProjOp.projectGet.allowed c id then (projectsC.getById id kv).map some else .ok none

/-- `Projects::list`, projects.rs 134-162. -/
def projectList (c : Ctx) (kv : Kv) : Except Err (Option (List Project)) :=
  if OrgOp.projectList.allowed c c.organizationId then
    (projectsC.list kv).map fun l => some ((l.filter fun p => p.orgId == c.organizationId).filter fun p => ProjOp.projectGet.allowed c p.id)
  else .ok none

end OptiPrism.Platform
