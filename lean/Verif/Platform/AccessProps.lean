import Verif.Platform.Access
import Verif.Meta.SystemProps
import Verif.Meta.Listing
import Verif.Meta.ListingProps

/-!
# C42, C43, C71: who may do what
-/

namespace OptiPrism.Platform

open OptiPrism.Meta

/-! ## Specification -/

/-- The caller's role for an organization or project: the first entry of the list counts. -/
def HasRole {ρ : Type} (l : Option (List (Nat × ρ))) (id : Nat) (r : ρ) : Prop :=
  ∃ pre post, l = some (pre ++ (id, r) :: post) ∧ ∀ e ∈ pre, e.1 ≠ id

/-- What organization roles grant. -/
inductive OrgGrants : OrgRole → OrgPerm → Prop
  | owner (p : OrgPerm) : OrgGrants .owner p
  | admin : OrgGrants .admin .manageProjects

/-- What project roles grant. -/
inductive ProjGrants : ProjRole → ProjPerm → Prop
  | owner (p : ProjPerm) : ProjGrants .owner p
  | schemaView {r : ProjRole} : ProjGrants r .viewSchema
  | explore {r : ProjRole} : ProjGrants r .exploreReports
  | schemaManage {r : ProjRole} (h : r ≠ .reader) : ProjGrants r .manageSchema
  | reports {r : ProjRole} (h : r ≠ .reader) : ProjGrants r .manageReports
  | adminProject : ProjGrants .admin .manageProject
  | adminInvite : ProjGrants .admin .inviteMembers
  | adminMembers : ProjGrants .admin .manageMembers

theorem roleFor_iff {ρ : Type} (l : Option (List (Nat × ρ))) (id : Nat) (r : ρ) : roleFor l id = some r ↔ HasRole l id r := by
  cases l with
  | none => simp [roleFor, HasRole]
  | some l =>
    simp only [roleFor, HasRole, Option.map_eq_some_iff, List.find?_eq_some_iff_append, Option.some.injEq]
    constructor
    · rintro ⟨⟨i, r'⟩, ⟨hb, pre, post, hl, hp⟩, rfl⟩
      simp only [beq_iff_eq] at hb
      subst hb
      exact ⟨pre, post, hl, fun e he => by simpa using hp e he⟩
    · rintro ⟨pre, post, hl, hp⟩
      exact ⟨(id, r), ⟨by simp, pre, post, hl, fun e he => by simpa using hp e he⟩, rfl⟩

/-- With one entry for an identifier, the role is what is listed. -/
theorem hasRole_iff_mem {ρ : Type} {l : List (Nat × ρ)} (h : (l.map (·.1)).Nodup) (id : Nat) (r : ρ) : HasRole (some l) id r ↔ (id, r) ∈ l := by
  constructor
  · rintro ⟨pre, post, e, -⟩
    injection e with e
    rw [e]; simp
  · intro hm
    obtain ⟨pre, post, rfl⟩ := List.append_of_mem hm
    refine ⟨pre, post, rfl, fun e he hne => ?_⟩
    rw [List.map_append, List.map_cons, List.nodup_append] at h
    exact h.2.2 e.1 (List.mem_map.mpr ⟨e, he, rfl⟩) e.1 (by simp [hne]) rfl

theorem orgTable_iff (r : OrgRole) (p : OrgPerm) : inTable orgTable .all r p = true ↔ OrgGrants r p := by
  constructor
  · revert r p
    intro r p h
    cases r with
    | owner => exact .owner p
    | admin => cases p <;> first | exact .admin | (exact absurd h (by decide))
    | member => cases p <;> exact absurd h (by decide)
  · rintro (⟨p⟩ | _)
    · cases p <;> decide
    · decide

theorem projTable_iff (r : ProjRole) (p : ProjPerm) : inTable projTable .all r p = true ↔ ProjGrants r p := by
  constructor
  · intro h
    cases r with
    | owner => exact .owner p
    | admin =>
      cases p <;> first
        | exact .schemaView | exact .explore | exact .schemaManage (by decide) | exact .reports (by decide) | exact .adminProject
        | exact .adminInvite | exact .adminMembers | (exact absurd h (by decide))
    | member =>
      cases p <;> first
        | exact .schemaView | exact .explore | exact .schemaManage (by decide) | exact .reports (by decide) | (exact absurd h (by decide))
    | reader => cases p <;> first | exact .schemaView | exact .explore | (exact absurd h (by decide))
  · intro h
    cases h with
    | owner p => cases p <;> decide
    | schemaView => cases r <;> decide
    | explore => cases r <;> decide
    | schemaManage hr => cases r <;> first | decide | exact absurd rfl hr
    | reports hr => cases r <;> first | decide | exact absurd rfl hr
    | adminProject => decide
    | adminInvite => decide
    | adminMembers => decide

/-! ## C42 -/

/-- C42, installation permissions: exactly the administrators. -/
theorem C42_root (c : Ctx) (p : Perm) : c.checkPermission p = true ↔ c.role = some .admin := by
  unfold Ctx.checkPermission
  cases c.role with
  | none => simp
  | some r => cases r; cases p <;> decide

/-- C42, organization permissions: administrators, and the roles that grant the permission. -/
theorem C42_organization (c : Ctx) (org : Nat) (p : OrgPerm) :
    c.checkOrg org p = true ↔ c.role = some .admin ∨ ∃ r, HasRole c.organizations org r ∧ OrgGrants r p := by
  unfold Ctx.checkOrg
  rw [← C42_root c .manageOrganizations]
  cases hc : c.checkPermission .manageOrganizations with
  | true => simp
  | false =>
    simp only [Bool.false_eq_true, if_false, false_or]
    cases hr : roleFor c.organizations org with
    | none =>
      simp only [Bool.false_eq_true, false_iff]
      rintro ⟨r, h1, -⟩
      rw [← roleFor_iff, hr] at h1
      cases h1
    | some r =>
      rw [orgTable_iff]
      constructor
      · intro h; exact ⟨r, (roleFor_iff _ _ _).mp hr, h⟩
      · rintro ⟨r', h1, h2⟩
        rw [← roleFor_iff, hr] at h1
        injection h1 with h1
        rw [h1]; exact h2

/-- C42, project permissions: administrators, owners and administrators of the organization named in the call,
and the project roles that grant the permission. -/
theorem C42_project (c : Ctx) (org project : Nat) (p : ProjPerm) :
    c.checkProject org project p = true ↔ c.role = some .admin ∨ HasRole c.organizations org .owner ∨ HasRole c.organizations org .admin ∨
      ∃ r, HasRole c.projects project r ∧ ProjGrants r p := by
  unfold Ctx.checkProject
  rw [← C42_root c .manageProjects, ← roleFor_iff, ← roleFor_iff]
  cases hc : c.checkPermission .manageProjects with
  | true => simp
  | false =>
    simp only [Bool.false_eq_true, if_false, false_or]
    by_cases ho : roleFor c.organizations org = some .owner ∨ roleFor c.organizations org = some .admin
    · rw [if_pos ho]
      simp only [true_iff]
      rcases ho with h | h
      · exact .inl h
      · exact .inr (.inl h)
    · rw [if_neg ho]
      have h1 : roleFor c.organizations org ≠ some .owner := fun h => ho (.inl h)
      have h2 : roleFor c.organizations org ≠ some .admin := fun h => ho (.inr h)
      simp only [h1, h2, false_or]
      cases hr : roleFor c.projects project with
      | none =>
        simp only [Bool.false_eq_true, false_iff]
        rintro ⟨r, h1, -⟩
        rw [← roleFor_iff, hr] at h1
        cases h1
      | some r =>
        rw [projTable_iff]
        constructor
        · intro h; exact ⟨r, (roleFor_iff _ _ _).mp hr, h⟩
        · rintro ⟨r', h1, h2⟩
          rw [← roleFor_iff, hr] at h1
          injection h1 with h1
          rw [h1]; exact h2

/-- C42, a caller with no role at all is refused by every check. -/
theorem C42_no_role (c : Ctx) (h1 : c.role = none) (h2 : ∀ o r, ¬ HasRole c.organizations o r) (h3 : ∀ p r, ¬ HasRole c.projects p r) :
    (∀ p, c.checkPermission p = false) ∧ (∀ o p, c.checkOrg o p = false) ∧ ∀ o q p, c.checkProject o q p = false := by
  refine ⟨fun p => ?_, fun o p => ?_, fun o q p => ?_⟩
  · rw [← Bool.not_eq_true, C42_root, h1]; simp
  · rw [← Bool.not_eq_true, C42_organization, h1]
    rintro (h | ⟨r, h, -⟩)
    · cases h
    · exact h2 _ _ h
  · rw [← Bool.not_eq_true, C42_project, h1]
    rintro (h | h | h | ⟨r, h, -⟩)
    · cases h
    · exact h2 _ _ h
    · exact h2 _ _ h
    · exact h3 _ _ h

def exCtx : Ctx := ⟨7, 1, none, some [(1, .member), (2, .admin)], some [(5, .reader), (6, .admin)]⟩

example : HasRole exCtx.organizations 2 .admin ∧ ¬ HasRole exCtx.organizations 3 .owner ∧ exCtx.checkOrg 2 .manageProjects = true ∧
    exCtx.checkOrg 2 .exploreProjects = false ∧ exCtx.checkProject 1 6 .manageProject = true ∧ exCtx.checkProject 1 5 .manageReports = false ∧
    exCtx.checkProject 2 77 .deleteProject = true := by
  refine ⟨(roleFor_iff _ _ _).mp (by decide), fun h => ?_, by decide, by decide, by decide, by decide, by decide⟩
  have := (roleFor_iff _ _ _).mpr h
  exact absurd this (by decide)

/-! ## C43 -/

/-- C43, when the organization of the token is that of the project: every endpoint refuses a caller that is no
administrator and has neither a role in the organization nor one in the project.

Missing: nothing compares the two organizations, see `C43_violated`. -/
theorem C43_partial {kv : Kv} {pr : Project} {id : Nat} (_h : projectsC.getById id kv = .ok pr) (c : Ctx) (hc : c.organizationId = pr.orgId)
    (h1 : c.role = none) (h2 : ∀ r, ¬ HasRole c.organizations pr.orgId r) (h3 : ∀ r, ¬ HasRole c.projects id r) (o : ProjOp) :
    o.allowed c id = false := by
  unfold ProjOp.allowed
  rw [← Bool.not_eq_true, C42_project, h1, hc]
  rintro (h | h | h | ⟨r, h, -⟩)
  · cases h
  · exact h2 _ h
  · exact h2 _ h
  · exact h3 _ h

/-- C43, for callers that own or administer no organization: only projects they have a role in, whatever the
organization of the token. -/
theorem C43_members_partial (c : Ctx) (h1 : c.role = none) (h2 : ∀ o, ¬ HasRole c.organizations o .owner ∧ ¬ HasRole c.organizations o .admin)
    {id : Nat} (o : ProjOp) (h : o.allowed c id = true) : ∃ r, HasRole c.projects id r ∧ ProjGrants r o.perm := by
  unfold ProjOp.allowed at h
  rw [C42_project, h1] at h
  rcases h with h | h | h | h
  · cases h
  · exact absurd h (h2 _).1
  · exact absurd h (h2 _).2
  · exact h

/-- C43, listing: only projects of an organization the caller owns, or administrators. -/
theorem C43_list {c : Ctx} {kv : Kv} {l : List Project} (h : projectList c kv = .ok (some l)) :
    (∀ p ∈ l, p.orgId = c.organizationId) ∧ (c.role = some .admin ∨ HasRole c.organizations c.organizationId .owner) := by
  unfold projectList at h
  split at h
  · rename_i ha
    constructor
    · intro p hp
      cases hl : projectsC.list kv with
      | error e => rw [hl] at h; cases h
      | ok all =>
        rw [hl] at h
        simp only [Except.map, Except.ok.injEq, Option.some.injEq] at h
        subst h
        simpa using (List.mem_filter.mp (List.mem_filter.mp hp).1).2
    · unfold OrgOp.allowed at ha
      rw [C42_organization] at ha
      rcases ha with ha | ⟨r, h1, h2⟩
      · exact .inl ha
      · cases h2
        exact .inr h1
  · cases h

def exMail : Str := "o@x".toList
def exPName : Str := "p".toList
def exTokn : Str := "t".toList
def exOwner : Account := ⟨0, ⟨0, 0⟩, 1, none, none, exPName, exMail, none, none, false, false, some [(1, .owner)], none, none⟩
def exForeign : Project := ⟨0, ⟨0, 0⟩, 1, none, none, 2, exPName, none, none, exTokn, 1800, 0⟩
def exAcc : Req Unit := .accountCreate ⟨0, 0⟩ exOwner
def exPrj : Req Unit := .projectCreate ⟨0, 0⟩ exForeign
def exTenants : List (Req Unit) := [exAcc, exPrj]

/-- C43 does not hold: the account owns organization 1 and has no role in organization 2; it reads the project
of organization 2, and may do everything else with it. -/
theorem C43_violated : ∃ kv c pr, Hist exEnv 2 kv ∧ contextOf 1 1 kv = .ok c ∧ projectsC.getById 1 kv = .ok pr ∧ pr.orgId = 2 ∧
    c.role = none ∧ (∀ r, ¬ HasRole c.organizations 2 r) ∧ (∀ r, ¬ HasRole c.projects 1 r) ∧
    projectGet c 1 kv = .ok (some pr) ∧ ∀ o : ProjOp, o.allowed c 1 = true := by
  have e1 : (accountsC.getById 1 (runReqs exEnv exTenants [])).toOption.map (fun a => (decide (a.role = none), decide (a.organizations = some [(1, .owner)]), decide (a.projects = none))) = some (true, true, true) := by
    decide +kernel
  have e2 : (projectsC.getById 1 (runReqs exEnv exTenants [])).toOption.map (·.orgId) = some 2 := by decide +kernel
  have hh : Hist exEnv 2 (runReqs exEnv exTenants []) := by
    refine Hist.of_run exEnv exTenants ?_
    intro r hr
    simp only [exTenants, List.mem_cons, List.not_mem_nil, or_false] at hr
    rcases hr with rfl | rfl
    · exact ⟨by decide, ⟨fun m hm => by simp [exOwner] at hm; subst hm; decide, by simp [exOwner], by simp [exOwner]⟩⟩
    · exact ⟨by decide, by decide, by decide⟩
  cases g1 : accountsC.getById 1 (runReqs exEnv exTenants []) with
  | error x => rw [g1] at e1; cases e1
  | ok a => cases g2 : projectsC.getById 1 (runReqs exEnv exTenants []) with
    | error x => rw [g2] at e2; cases e2
    | ok pr =>
      rw [g1] at e1; rw [g2] at e2
      simp only [Except.toOption, Option.map_some, Option.some.injEq, Prod.mk.injEq] at e1 e2
      simp only [decide_eq_true_eq] at e1
      obtain ⟨a1, a2, a3⟩ := e1
      have hall : ∀ o : ProjOp, o.allowed ⟨a.id, 1, a.role, a.organizations, a.projects⟩ 1 = true := by
        intro o
        unfold ProjOp.allowed
        rw [C42_project]
        exact .inr (.inl ((roleFor_iff _ _ _).mp (by show roleFor a.organizations 1 = _; rw [a2]; decide)))
      refine ⟨_, ⟨a.id, 1, a.role, a.organizations, a.projects⟩, pr, hh, ?_, g2, e2, a1, ?_, ?_, ?_, hall⟩
      · unfold contextOf; rw [g1]
      · intro r h
        rw [← roleFor_iff] at h
        have h : roleFor a.organizations 2 = some r := h
        rw [a2] at h
        exact absurd h (by cases r <;> decide)
      · intro r h
        rw [← roleFor_iff] at h
        have h : roleFor a.projects 1 = some r := h
        rw [a3] at h
        cases h
      · unfold projectGet
        rw [if_pos (hall _), g2]
        rfl

/-! ## C71 -/

/-- C71: a caller whose only role is `Reader` of some projects can, of everything that writes to a project,
only create bookmarks, and nothing in other projects. -/
theorem C71_reader (c : Ctx) (h1 : c.role = none) (h2 : ∀ o r, ¬ HasRole c.organizations o r) (h3 : ∀ p r, HasRole c.projects p r → r = .reader)
    (o : ProjOp) (project : Nat) (h : o.allowed c project = true) : HasRole c.projects project .reader ∧ (o.writes = true → o = .bookmarkCreate) := by
  obtain ⟨r, hr, hg⟩ := C43_members_partial c h1 (fun o => ⟨h2 o _, h2 o _⟩) o h
  have := h3 _ _ hr
  subst this
  refine ⟨hr, fun hw => ?_⟩
  rw [← projTable_iff] at hg
  cases o <;> first | rfl | (exact absurd hw (by decide)) | (exact absurd hg (by decide))

/-- C71: deleting a project or parts of its schema takes the owner of the project, an owner or administrator of the
token's organization, or an administrator of the installation. -/
theorem C71_delete (c : Ctx) (project : Nat) (o : ProjOp) (ho : o = .projectDelete ∨ o = .eventDelete ∨ o = .customDelete ∨ o = .propDelete)
    (h : o.allowed c project = true) :
    c.role = some .admin ∨ HasRole c.organizations c.organizationId .owner ∨ HasRole c.organizations c.organizationId .admin ∨ HasRole c.projects project .owner := by
  unfold ProjOp.allowed at h
  rw [C42_project] at h
  rcases h with h | h | h | ⟨r, hr, hg⟩
  · exact .inl h
  · exact .inr (.inl h)
  · exact .inr (.inr (.inl h))
  · refine .inr (.inr (.inr ?_))
    rw [← projTable_iff] at hg
    rcases ho with rfl | rfl | rfl | rfl <;> cases r <;> first | exact hr | (exact absurd hg (by decide))

/-- C71: the installation's endpoints take an administrator; without any role nothing is allowed. -/
theorem C71_root (c : Ctx) (o : RootOp) : o.allowed c = true ↔ c.role = some .admin := C42_root c o.perm

theorem C71_no_role (c : Ctx) (h1 : c.role = none) (h2 : ∀ o r, ¬ HasRole c.organizations o r) (h3 : ∀ p r, ¬ HasRole c.projects p r) :
    (∀ o : RootOp, o.allowed c = false) ∧ (∀ (o : OrgOp) org, o.allowed c org = false) ∧ ∀ (o : ProjOp) project, o.allowed c project = false :=
  ⟨fun o => (C42_no_role c h1 h2 h3).1 o.perm, fun o org => (C42_no_role c h1 h2 h3).2.1 org o.perm,
   fun o project => (C42_no_role c h1 h2 h3).2.2 _ project o.perm⟩

/-- C71: an organization is seen and changed by its owners and the administrators of the installation only; its
administrators can create projects, and nothing else. -/
theorem C71_organization (c : Ctx) (o : OrgOp) (org : Nat) :
    o.allowed c org = true ↔ c.role = some .admin ∨ HasRole c.organizations org .owner ∨ (o = .projectCreate ∧ HasRole c.organizations org .admin) := by
  unfold OrgOp.allowed
  rw [C42_organization]
  constructor
  · rintro (h | ⟨r, hr, hg⟩)
    · exact .inl h
    · cases hg' : o.perm <;> rw [hg'] at hg <;> cases hg <;> first
        | exact .inr (.inl hr)
        | (refine .inr (.inr ⟨?_, hr⟩); cases o <;> first | rfl | cases hg')
  · rintro (h | h | ⟨rfl, h⟩)
    · exact .inl h
    · exact .inr ⟨_, h, .owner _⟩
    · exact .inr ⟨_, h, .admin⟩

/-- Spec: the endpoints that look at a project's data. -/
def lookOps : List ProjOp :=
  [.bookmarkCreate, .bookmarkGet, .customGet, .customList, .dashboardGet, .dashboardList, .recordGet, .recordSearch, .segmentation, .funnel,
   .groupRecordGet, .groupRecordSearch, .eventGet, .eventGetByName, .eventList, .groupList, .propGet, .propGetByName, .propList, .propValues,
   .reportGet, .reportList]

/-- Spec: the endpoints that change reports, dashboards and the schema without deleting parts of the schema. -/
def workOps : List ProjOp :=
  [.customCreate, .customUpdate, .dashboardCreate, .dashboardUpdate, .dashboardDelete, .eventCreate, .eventUpdate, .eventAttach, .eventDetach,
   .groupCreate, .propUpdate, .reportCreate, .reportUpdate, .reportDelete]

/-- C71: what each role of a project allows, endpoint by endpoint: readers look; members work, too; administrators can also update the
project; owners can do everything. -/
theorem C71_project (c : Ctx) (h1 : c.role = none) (h2 : ∀ o r, ¬ HasRole c.organizations o r) (project : Nat) (o : ProjOp) :
    o.allowed c project = true ↔ (HasRole c.projects project .owner) ∨ (HasRole c.projects project .admin ∧ (o ∈ lookOps ∨ o ∈ workOps ∨ o = .projectUpdate)) ∨
      (HasRole c.projects project .member ∧ (o ∈ lookOps ∨ o ∈ workOps)) ∨ (HasRole c.projects project .reader ∧ o ∈ lookOps) := by
  unfold ProjOp.allowed
  rw [C42_project, h1]
  constructor
  · rintro (h | h | h | ⟨r, hr, hg⟩)
    · cases h
    · exact absurd h (h2 _ _)
    · exact absurd h (h2 _ _)
    · rw [← projTable_iff] at hg
      cases r with
      | owner => exact .inl hr
      | admin => exact .inr (.inl ⟨hr, by revert hg; cases o <;> decide⟩)
      | member => exact .inr (.inr (.inl ⟨hr, by revert hg; cases o <;> decide⟩))
      | reader => exact .inr (.inr (.inr ⟨hr, by revert hg; cases o <;> decide⟩))
  · rintro (h | ⟨h, ho⟩ | ⟨h, ho⟩ | ⟨h, ho⟩) <;> refine .inr (.inr (.inr ⟨_, h, ?_⟩)) <;> rw [← projTable_iff]
    · cases o <;> decide
    all_goals revert ho; cases o <;> decide

example : OrgOp.projectCreate.allowed exCtx 2 = true ∧ OrgOp.orgUpdate.allowed exCtx 2 = false ∧ OrgOp.orgGet.allowed exCtx 1 = false := by decide

def exReader : Ctx := ⟨7, 0, none, none, some [(5, .reader)]⟩

example : ProjOp.reportGet.allowed exReader 5 = true ∧ ProjOp.bookmarkCreate.allowed exReader 5 = true ∧
    ProjOp.reportUpdate.allowed exReader 5 = false ∧ ProjOp.reportGet.allowed exReader 6 = false := by decide

end OptiPrism.Platform
