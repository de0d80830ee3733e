import Verif.Platform.AdminApi
import Verif.Meta.UpdateProps

/-!
# What the administration calls should show

What is asked and what is shown, compared field by field; neither the store nor the conversions are mentioned.
-/

namespace OptiPrism.Platform

open OptiPrism.Meta (Str Time Honours HonoursList Settings Provider)

/-- An account as it was asked for. A missing list and an empty one are the same. -/
structure AccountAsked (account : Nat) (now : Time) (q : JAccountNew) (j : JAccount) : Prop where
  email : j.email = q.email
  name : j.name = q.name
  forced : j.forceUpdatePassword = q.forceUpdatePassword ∧ j.forceUpdateEmail = q.forceUpdateEmail
  role : j.role = q.role
  organizations : j.organizations.getD [] = q.organizations.getD []
  projects : j.projects.getD [] = q.projects.getD []
  teams : j.teams.getD [] = q.teams.getD []
  creator : j.createdBy = account
  created : j.createdAt = now.trunc
  fresh : j.updatedAt = none ∧ j.updatedBy = none

/-- An account after an update: what was mentioned is as it was asked for, all else as before. -/
structure AccountChanged (account : Nat) (now : Time) (q : JAccountUpd) (old j : JAccount) : Prop where
  id : j.id = old.id
  email : Honours q.email old.email j.email
  name : Honours q.name old.name j.name
  forcedPassword : Honours q.forceUpdatePassword old.forceUpdatePassword j.forceUpdatePassword
  forcedEmail : j.forceUpdateEmail = old.forceUpdateEmail
  role : Honours q.role old.role j.role
  organizations : HonoursList q.organizations old.organizations j.organizations
  projects : HonoursList q.projects old.projects j.projects
  teams : HonoursList q.teams old.teams j.teams
  creator : j.createdBy = old.createdBy
  created : j.createdAt = old.createdAt
  updated : j.updatedAt = some now.trunc ∧ j.updatedBy = some account

structure OrgAsked (account : Nat) (now : Time) (name : Str) (j : JOrg) : Prop where
  name : j.name = name
  creator : j.createdBy = account
  created : j.createdAt = now.trunc
  fresh : j.updatedAt = none ∧ j.updatedBy = none

structure OrgChanged (account : Nat) (now : Time) (name : Option Str) (old j : JOrg) : Prop where
  id : j.id = old.id
  name : Honours name old.name j.name
  creator : j.createdBy = old.createdBy
  created : j.createdAt = old.createdAt
  updated : j.updatedAt = some now.trunc ∧ j.updatedBy = some account

structure ProjectChanged (account : Nat) (now : Time) (q : JProjectUpd) (old j : JProject) : Prop where
  id : j.id = old.id
  name : Honours q.name old.name j.name
  token : Honours q.token old.sdkToken j.sdkToken
  description : Honours q.description old.description j.description
  sessionDuration : Honours q.sessionDuration old.sessionDuration j.sessionDuration
  tags : HonoursList q.tags old.tags j.tags
  count : j.eventsCount = old.eventsCount
  creator : j.createdBy = old.createdBy
  created : j.createdAt = old.createdAt
  updated : j.updatedAt = some now.trunc ∧ j.updatedBy = some account

/-- A backup as the settings ask for it: to where they say, waiting to be run. -/
structure BackupAsked (now : Time) (s : Settings) (j : JBackup) : Prop where
  place : match s.provider with
    | .localDir => j.provider = .localDir s.localPath
    | .s3 => j.provider = .s3 s.s3Bucket s.s3Path s.s3Region
    | .gcp => j.provider = .gcp s.gcpBucket s.gcpPath
  waiting : j.status = .idle ∧ j.progress = none ∧ j.error = none
  encrypted : j.isEncrypted = s.encryptionEnabled
  created : j.createdAt = now.trunc
  fresh : j.updatedAt = none

end OptiPrism.Platform
