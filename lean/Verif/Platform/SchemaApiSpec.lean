import Verif.Platform.SchemaApi
import Verif.Platform.RequestSpec
import Verif.Meta.UpdateProps

/-!
# What the calls of the schema API should show

What is asked and what is shown, compared field by field; neither the store nor the conversions are mentioned.
-/

namespace OptiPrism.Platform

open OptiPrism.Meta (Str Time Honours HonoursList Property PropType)

variable {N : Type}

/-- An event as it was asked for. A missing list of tags and an empty one are the same. -/
structure EventAsked (account p : Nat) (now : Time) (q : JEventNew) (j : JEventDef) : Prop where
  name : j.name = q.name
  displayName : j.displayName = q.displayName
  description : j.description = q.description
  status : j.status = q.status
  isSystem : j.isSystem = q.isSystem
  tags : j.tags.getD [] = q.tags.getD []
  project : j.projectId = p
  creator : j.createdBy = account
  created : j.createdAt = now.trunc
  fresh : j.updatedAt = none ∧ j.updatedBy = none

/-- An event after an update: what was mentioned is as it was asked for, all else as before. -/
structure EventChanged (account : Nat) (now : Time) (q : JEventUpd) (old j : JEventDef) : Prop where
  id : j.id = old.id
  displayName : Honours q.displayName old.displayName j.displayName
  description : Honours q.description old.description j.description
  status : Honours q.status old.status j.status
  tags : HonoursList q.tags old.tags j.tags
  name : j.name = old.name
  isSystem : j.isSystem = old.isSystem
  project : j.projectId = old.projectId
  creator : j.createdBy = old.createdBy
  created : j.createdAt = old.createdAt
  updated : j.updatedAt = some now.trunc ∧ j.updatedBy = some account

/-- A part of a custom event that survives: its filters are absent, or there are some, and each compares with a list of texts and
truth values. -/
def StoredPart (e : JCustomPart N) : Prop :=
  AbsentOrFull (fun f => ∃ l, f.value = some l ∧ ∀ v ∈ l, (∃ b, v = .bool b) ∨ ∃ s, v = .str s) e.filters

structure CustomAsked (account p : Nat) (now : Time) (q : JCustomNew N) (j : JCustomDef N) : Prop where
  name : j.name = q.name
  description : j.description = q.description
  status : j.status = q.status
  isSystem : j.isSystem = q.isSystem
  tags : j.tags.getD [] = q.tags.getD []
  events : j.events = q.events
  project : j.projectId = p
  creator : j.createdBy = account
  created : j.createdAt = now.trunc
  fresh : j.updatedAt = none ∧ j.updatedBy = none

structure CustomChanged (account : Nat) (now : Time) (q : JCustomUpd N) (old j : JCustomDef N) : Prop where
  id : j.id = old.id
  name : Honours q.name old.name j.name
  description : Honours q.description old.description j.description
  status : Honours q.status old.status j.status
  tags : HonoursList q.tags old.tags j.tags
  events : Honours q.events old.events j.events
  isSystem : j.isSystem = old.isSystem
  project : j.projectId = old.projectId
  creator : j.createdBy = old.createdBy
  created : j.createdAt = old.createdAt
  updated : j.updatedAt = some now.trunc ∧ j.updatedBy = some account

/-- A panel whose place is told in numbers of 32 bits. -/
def JPanel.Fits (j : JPanel) : Prop := j.reportId < 2 ^ 64 ∧ j.x < 2 ^ 32 ∧ j.y < 2 ^ 32 ∧ j.w < 2 ^ 32 ∧ j.h < 2 ^ 32

structure DashboardAsked (account p : Nat) (now : Time) (q : JDashboardNew) (j : JDashboard) : Prop where
  name : j.name = q.name
  description : j.description = q.description
  tags : j.tags.getD [] = q.tags.getD []
  panels : j.panels = q.panels
  project : j.projectId = p
  creator : j.createdBy = account
  created : j.createdAt = now.trunc
  fresh : j.updatedAt = none ∧ j.updatedBy = none

structure DashboardChanged (account : Nat) (now : Time) (q : JDashboardUpd) (old j : JDashboard) : Prop where
  id : j.id = old.id
  name : Honours q.name old.name j.name
  description : Honours q.description old.description j.description
  tags : HonoursList q.tags old.tags j.tags
  panels : Honours q.panels old.panels j.panels
  project : j.projectId = old.projectId
  creator : j.createdBy = old.createdBy
  created : j.createdAt = old.createdAt
  updated : j.updatedAt = some now.trunc ∧ j.updatedBy = some account

/-- A property as it is kept. -/
structure PropShown (r : Property) (j : JPropDef) : Prop where
  id : j.id = r.id
  created : j.createdAt = r.createdAt ∧ j.createdBy = r.createdBy
  updated : j.updatedAt = r.updatedAt ∧ j.updatedBy = r.updatedBy
  project : j.projectId = r.projectId
  tags : j.tags = r.tags
  name : j.name = r.name
  displayName : j.displayName = r.displayName
  description : j.description = r.description
  kind : match r.typ with
    | .event => j.typ = .event ∧ j.groupId = none
    | .group g => j.typ = .group ∧ j.groupId = some g
  order : j.order = r.order
  dataType : j.dataType = r.dataType
  status : j.status = r.status
  flags : j.hidden = r.hidden ∧ j.isSystem = r.isSystem ∧ j.nullable = r.nullable ∧ j.isArray = r.isArray ∧ j.isDictionary = r.isDictionary
  dict : j.dictType = r.dictType

structure PropChanged (account : Nat) (now : Time) (q : JPropUpd) (old j : JPropDef) : Prop where
  tags : HonoursList q.tags old.tags j.tags
  displayName : Honours q.displayName old.displayName j.displayName
  description : Honours q.description old.description j.description
  status : Honours q.status old.status j.status
  rest : j = { old with tags := j.tags, displayName := j.displayName, description := j.description, status := j.status,
                        updatedAt := some now.trunc, updatedBy := some account }

end OptiPrism.Platform
