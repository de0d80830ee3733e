import Verif.Platform.SchemaApi
import Verif.Platform.SettingsApi
import Verif.Ingest.Model

/-!
# The administration calls of the API (platform/src/accounts.rs, organizations.rs, projects.rs, backups.rs, bookmarks.rs)

As in `SchemaApi.lean`: each call checks the permission of the caller, asks the metadata, and turns the record it gets into what is
shown; a reply is `none` when the call panics. `Projects::create` is the subject of `Ingest/Setup.lean` and left out. Of an HTTP error
only forbidden and the error of the metadata are told apart.
-/

namespace OptiPrism.Platform

open OptiPrism.Meta

variable {N : Type}

/-! ## What is shown -/

/-- platform/src/accounts.rs 99-113. -/
structure JAccount where
  id : Nat
  createdAt : Time
  createdBy : Nat
  updatedAt : Option Time
  updatedBy : Option Nat
  email : Str
  name : Option Str
  forceUpdatePassword : Bool
  forceUpdateEmail : Bool
  role : Option Role
  organizations : Option (List (Nat × OrgRole))
  projects : Option (List (Nat × ProjRole))
  teams : Option (List (Nat × Role))
  deriving DecidableEq, Repr

/-- platform/src/accounts.rs 116-134. -/
def accountOut (r : Account) : JAccount :=
  { id := r.id, createdAt := r.createdAt, createdBy := r.createdBy, updatedAt := r.updatedAt, updatedBy := r.updatedBy, email := r.email,
    name := r.name, forceUpdatePassword := r.forceUpdatePassword, forceUpdateEmail := r.forceUpdateEmail, role := r.role,
    organizations := r.organizations, projects := r.projects, teams := r.teams }

/-- `Profile`, platform/src/accounts.rs 137-146. -/
structure JProfile where
  email : Str
  name : Option Str
  forceUpdatePassword : Bool
  forceUpdateEmail : Bool
  deriving DecidableEq, Repr

def profileOut (j : JAccount) : JProfile := ⟨j.email, j.name, j.forceUpdatePassword, j.forceUpdateEmail⟩

/-- platform/src/organizations.rs 91-98: the members are not shown. -/
structure JOrg where
  id : Nat
  createdAt : Time
  updatedAt : Option Time
  createdBy : Nat
  updatedBy : Option Nat
  name : Str
  deriving DecidableEq, Repr

/-- platform/src/organizations.rs 100-111. -/
def orgOut (r : Org) : JOrg :=
  { id := r.id, createdAt := r.createdAt, updatedAt := r.updatedAt, createdBy := r.createdBy, updatedBy := r.updatedBy, name := r.name }

/-- platform/src/projects.rs 219-231. -/
structure JProject where
  id : Nat
  createdAt : Time
  updatedAt : Option Time
  createdBy : Nat
  updatedBy : Option Nat
  tags : Option (List Str)
  sdkToken : Str
  name : Str
  description : Option Str
  sessionDuration : Nat
  eventsCount : Nat
  deriving DecidableEq, Repr

/-- platform/src/projects.rs 233-249. -/
def projectOut (r : Project) : JProject :=
  { id := r.id, createdAt := r.createdAt, updatedAt := r.updatedAt, createdBy := r.createdBy, updatedBy := r.updatedBy, tags := r.tags,
    sdkToken := r.token, name := r.name, description := r.description, sessionDuration := r.sessionDuration, eventsCount := r.eventsCount }

/-- platform/src/backups.rs 85-93. -/
inductive JBackupStatus where | idle | inProgress | uploading | failed | completed
  deriving DecidableEq, Repr

/-- platform/src/backups.rs 97-106; `Provider`, 57-83, has the values of the metadata. -/
structure JBackup where
  id : Nat
  createdAt : Time
  updatedAt : Option Time
  provider : Provider
  status : JBackupStatus
  progress : Option Nat
  error : Option Str
  isEncrypted : Bool
  deriving DecidableEq, Repr

/-- platform/src/backups.rs 128-134. -/
def backupStatusOut : BackupStatus → JBackupStatus
  | .idle => .idle | .inProgress _ => .inProgress | .uploading => .uploading | .failed _ => .failed | .completed => .completed

/-- platform/src/backups.rs 109-145. -/
def backupOut (b : Backup) : JBackup :=
  { id := b.id, createdAt := b.createdAt, updatedAt := b.updatedAt, provider := b.provider, status := backupStatusOut b.status,
    progress := match b.status with | .inProgress p => some p | _ => none
    error := match b.status with | .failed e => some e | _ => none
    isEncrypted := b.isEncrypted }

/-- platform/src/bookmarks.rs 69-75. -/
structure JBookmark (N : Type) where
  id : Str
  createdAt : Time
  createdBy : Nat
  projectId : Nat
  query : Option (JReportQuery N)

/-- platform/src/bookmarks.rs 55-65. -/
def bookmarkOut (R : ReqEnv N) (r : Bookmark CReportQuery) : Option (JBookmark N) := do
  let q ← optConv (reportQueryOut R) r.query
  return { id := r.id, createdAt := r.createdAt, createdBy := r.createdBy, projectId := r.projectId, query := q }

/-! ## What is asked -/

/-- platform/src/accounts.rs 150-160. -/
structure JAccountNew where
  password : Str
  email : Str
  name : Option Str := none
  forceUpdatePassword : Bool := false
  forceUpdateEmail : Bool := false
  role : Option Role := none
  organizations : Option (List (Nat × OrgRole)) := none
  projects : Option (List (Nat × ProjRole)) := none
  teams : Option (List (Nat × Role)) := none

/-- platform/src/accounts.rs 164-174; `salt` is left out, nothing reads it. -/
structure JAccountUpd where
  password : Option Str := none
  email : Option Str := none
  name : Option (Option Str) := none
  forceUpdatePassword : Option Bool := none
  role : Option (Option Role) := none
  organizations : Option (Option (List (Nat × OrgRole))) := none
  projects : Option (Option (List (Nat × ProjRole))) := none
  teams : Option (Option (List (Nat × Role))) := none

/-- platform/src/projects.rs 262-273. -/
structure JProjectUpd where
  tags : Option (Option (List Str)) := none
  token : Option Str := none
  name : Option Str := none
  description : Option (Option Str) := none
  sessionDuration : Option Nat := none

/-- platform/src/accounts.rs 32-43. -/
def accountNewIn (hash : Str → Nat → Str) (account : Nat) (now : Time) (salt : Nat) (q : JAccountNew) : Account :=
  { id := 0, createdAt := now, createdBy := account, updatedAt := none, updatedBy := none, passwordHash := hash q.password salt,
    email := q.email, name := q.name, role := q.role, forceUpdatePassword := q.forceUpdatePassword, forceUpdateEmail := q.forceUpdateEmail,
    organizations := q.organizations, projects := q.projects, teams := q.teams }

/-- platform/src/accounts.rs 70-84: `force_update_password` is not passed on. -/
def accountUpdIn (hash : Str → Nat → Str) (account salt : Nat) (q : JAccountUpd) : AccountUpd :=
  { updatedBy := account, email := q.email, name := q.name, role := q.role, organizations := q.organizations, projects := q.projects,
    teams := q.teams, passwordHash := q.password.map fun p => hash p salt }

/-- platform/src/projects.rs 176-183. -/
def projectUpdIn (account : Nat) (q : JProjectUpd) : ProjectUpd :=
  { updatedBy := account, tags := q.tags, name := q.name, description := q.description, sessionDuration := q.sessionDuration, token := q.token }

/-- The place of the settings for backups, metadata/src/backups.rs 210-223. -/
def providerOf (s : Settings) : Provider :=
  match s.provider with
  | .localDir => .localDir s.localPath
  | .s3 => .s3 s.s3Bucket s.s3Path s.s3Region
  | .gcp => .gcp s.gcpBucket s.gcpPath

/-- `CreateBackupRequest::from_settings`, metadata/src/backups.rs 209-236. -/
def fromSettings (now : Time) (s : Settings) : Backup :=
  { id := 0, createdAt := now, updatedAt := none, provider := providerOf s, status := .idle, isEncrypted := s.encryptionEnabled,
    password := if s.encryptionEnabled then some s.encryptionPassword else none }

/-! ## The calls -/

/-- What the calls need from outside: the conversion of numbers, the encoding of queries, the hash of passwords. -/
structure AdminEnv (N : Type) where
  R : ReqEnv N
  bc : Bincode CReportQuery
  hash : Str → Nat → Str

/-- `salt` and the name of a new bookmark are drawn by the call. -/
inductive AdminCall (N : Type) where
  | accountCreate (salt : Nat) (q : JAccountNew)
  | accountGet (id : Nat)
  | accountList
  | accountUpdate (salt id : Nat) (q : JAccountUpd)
  | accountDelete (id : Nat)
  | profile
  | orgCreate (name : Str)
  | orgGet (id : Nat)
  | orgList
  | orgUpdate (id : Nat) (name : Option Str)
  | orgDelete (id : Nat)
  | projectGet (id : Nat)
  | projectList
  | projectUpdate (id : Nat) (q : JProjectUpd)
  | projectDelete (id : Nat)
  | backup
  | backupGet (id : Nat)
  | backupList
  | bookmarkCreate (p : Nat) (name : Str) (q : Option (JReportQuery N))
  | bookmarkGet (p : Nat) (id : Str)

/-- The check in front of the call; the profile is one's own (platform/src/auth/provider.rs 142-150) and needs none. -/
def AdminCall.allowed (ctx : Ctx) : AdminCall N → Bool
  | .accountCreate .. => RootOp.accountCreate.allowed ctx
  | .accountGet _ => RootOp.accountGet.allowed ctx
  | .accountList => RootOp.accountList.allowed ctx
  | .accountUpdate .. => RootOp.accountUpdate.allowed ctx
  | .accountDelete _ => RootOp.accountDelete.allowed ctx
  | .profile => true
  | .orgCreate _ => RootOp.orgCreate.allowed ctx
  | .orgGet id => OrgOp.orgGet.allowed ctx id
  | .orgList => RootOp.orgList.allowed ctx
  | .orgUpdate id _ => OrgOp.orgUpdate.allowed ctx id
  | .orgDelete _ => RootOp.orgDelete.allowed ctx
  | .projectGet id => ProjOp.projectGet.allowed ctx id
  | .projectList => OrgOp.projectList.allowed ctx ctx.organizationId
  | .projectUpdate id _ => ProjOp.projectUpdate.allowed ctx id
  | .projectDelete id => ProjOp.projectDelete.allowed ctx id
  | .backup => RootOp.backup.allowed ctx
  | .backupGet _ => RootOp.backupGet.allowed ctx
  | .backupList => RootOp.backupList.allowed ctx
  | .bookmarkCreate p .. => ProjOp.bookmarkCreate.allowed ctx p
  | .bookmarkGet p _ => ProjOp.bookmarkGet.allowed ctx p

/-- What an answer has in it. -/
inductive AdminShown (N : Type) where
  | account (j : JAccount) | accounts (l : List JAccount) | profile (j : JProfile)
  | org (j : JOrg) | orgs (l : List JOrg)
  | project (j : JProject) | projects (l : List JProject)
  | backup (j : JBackup) | backups (l : List JBackup)
  | bookmark (j : JBookmark N)

/-- A reply to an administration call. -/
abbrev AdminReply (N : Type) := Option (Except Refusal (AdminShown N))

/-- The reply to a metadata call, with the conversion of what it answers. -/
def told {α : Type} (f : α → Option (AdminShown N)) : Except Err α → AdminReply N
  | .error e => some (.error (.failed e))
  | .ok a => (f a).map .ok

/-- A reply to a call that may write. -/
def telling {α : Type} (f : α → Option (AdminShown N)) (r : Except Err α × Kv) : AdminReply N × Kv := (told f r.1, r.2)

/-- The names of a project in its dictionaries, platform/src/projects.rs 186-201. -/
def projectKeys (r : Project) (kv : Kv) : Kv :=
  (kEvents :: (List.range 5).map Ingest.groupCol).foldl (fun kv t => (runCall (dictCreateKey r.id t Ingest.kProjectId r.id r.name) kv).2) kv

/-- platform/src/projects.rs 185-201: the project is updated and then named in the dictionaries. -/
def updateProject (id : Nat) (now : Time) (q : ProjectUpd) (kv : Kv) : Except Err Project × Kv :=
  match runCall (Meta.projectUpdate id now q) kv with
  | (.error e, kv) => (.error e, kv)
  | (.ok r, kv) => (.ok r, projectKeys r kv)

/-- platform/src/backups.rs 29-37. -/
def makeBackup (now : Time) (kv : Kv) : AdminReply N × Kv :=
  match loadSettings kv with
  | .error e => (some (.error (.failed e)), kv)
  | .ok s =>
    if !s.backupEnabled then (some (.error .forbidden), kv)
    else telling (fun b => some (.backup (backupOut b))) (runCall (backupCreate now (fromSettings now s)) kv)

/-- `list` of metadata/src/backups.rs, 172-175, unwraps. -/
def backupsTold : Except Err (List Backup) → AdminReply N
  | .error _ => none
  | .ok l => some (.ok (.backups (l.map backupOut)))

/-- The calls after the check of the permission: platform/src/accounts.rs 32-94, auth/provider.rs 142-150, organizations.rs 30-85,
projects.rs 131-211, backups.rs 29-53, bookmarks.rs 35-53. -/
def AdminCall.act (A : AdminEnv N) (ctx : Ctx) (now : Time) (kv : Kv) : AdminCall N → AdminReply N × Kv
  | .accountCreate salt q => telling (fun r => some (.account (accountOut r)))
      (runCall (Meta.accountCreate now (accountNewIn A.hash ctx.accountId now salt q)) kv)
  | .accountGet id => (told (fun r => some (.account (accountOut r))) (accountsC.getById id kv), kv)
  | .accountList => (told (fun l => some (.accounts (l.map accountOut))) (accountsC.list kv), kv)
  | .accountUpdate salt id q => telling (fun r => some (.account (accountOut r)))
      (runCall (Meta.accountUpdate id now (accountUpdIn A.hash ctx.accountId salt q)) kv)
  | .accountDelete id => telling (fun r => some (.account (accountOut r))) (runCall (accountsC.delete id) kv)
  | .profile => (told (fun r => some (.profile (profileOut (accountOut r)))) (accountsC.getById ctx.accountId kv), kv)
  | .orgCreate n => telling (fun r => some (.org (orgOut r))) (runCall (Meta.orgCreate now ctx.accountId n) kv)
  | .orgGet id => (told (fun r => some (.org (orgOut r))) (orgsC.getById id kv), kv)
  | .orgList => (told (fun l => some (.orgs ((l.filter fun o => OrgOp.orgGet.allowed ctx o.id).map orgOut))) (orgsC.list kv), kv)
  | .orgUpdate id n => telling (fun r => some (.org (orgOut r))) (runCall (Meta.orgUpdate id now ctx.accountId n) kv)
  | .orgDelete id => telling (fun r => some (.org (orgOut r))) (runCall (orgsC.delete id) kv)
  | .projectGet id => (told (fun r => some (.project (projectOut r))) (projectsC.getById id kv), kv)
  | .projectList => (told (fun l => some (.projects
      (((l.filter fun p => p.orgId == ctx.organizationId).filter fun p => ProjOp.projectGet.allowed ctx p.id).map projectOut))) (projectsC.list kv), kv)
  | .projectUpdate id q => telling (fun r => some (.project (projectOut r))) (updateProject id now (projectUpdIn ctx.accountId q) kv)
  | .projectDelete id => telling (fun r => some (.project (projectOut r))) (runCall (projectsC.delete id) kv)
  | .backup => makeBackup now kv
  | .backupGet id => (told (fun r => some (.backup (backupOut r))) (backupsC.getById id kv), kv)
  | .backupList => (backupsTold (backupsC.list kv), kv)
  | .bookmarkCreate p name q => match optConv (reportQueryIn A.R) q with
    | none => (none, kv)
    | some c => telling (fun r => (bookmarkOut A.R r).map .bookmark) (runCall (Meta.bookmarkCreate A.bc p
        { id := name, createdAt := now, createdBy := ctx.accountId, projectId := p, query := c }) kv)
  | .bookmarkGet p id => (told (fun r => (bookmarkOut A.R r).map .bookmark) (Meta.bookmarkGet A.bc p ctx.accountId id kv), kv)

/-- A call with the check of the permission in front of it. -/
def AdminCall.run (A : AdminEnv N) (ctx : Ctx) (now : Time) (c : AdminCall N) (kv : Kv) : AdminReply N × Kv :=
  if c.allowed ctx then c.act A ctx now kv else (some (.error .forbidden), kv)

/-- Whether a call may write. -/
def AdminCall.writes : AdminCall N → Bool
  | .accountCreate .. | .accountUpdate .. | .accountDelete _ | .orgCreate _ | .orgUpdate .. | .orgDelete _ | .projectUpdate ..
  | .projectDelete _ | .backup | .bookmarkCreate .. => true
  | _ => false

/-! ## The files of backups -/

/-- The hour of a time since the beginning of 1970 (`%Y-%m-%dT%H`, metadata/src/backups.rs 69-91; the days of the calendar are not
spelled out). -/
def hourOf (t : Time) : Int := t.sec.toInt / 3600

/-- Where a backup is written to, metadata/src/backups.rs 69-91: the place (bucket and directory) and the hour in the name of the file. -/
def backupFile (b : Backup) : Provider × Int := (b.provider, hourOf b.createdAt)

end OptiPrism.Platform
