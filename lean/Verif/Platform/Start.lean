import Verif.Platform.SettingsApi
import Verif.Platform.Scheduler

/-!
# Starting the server

`start`, cmd/src/command/server.rs 35-102, as far as the metadata are concerned: `init_settings` (cmd/src/lib.rs 440-464),
`backup::init` (cmd/src/backup.rs 47-65, see `restart` of `Scheduler`), the check of the directory of the user interface and
the making of the administrator and of the first organization. Creating directories and tables, the metrics, the threads and
the routes that follow are left out: they write no metadata. The metadata are written by several transactions one after the
other; a start is described by its outcome and by the stores after each of them, so that it may be interrupted anywhere.
-/

namespace OptiPrism.Platform

open OptiPrism.Meta

variable {Q : Type}

/-- What a start finds and draws: whether the user interface is there, the keys (lib.rs 432-438), the password (server.rs
70-74), the salt of its hash and the clock. -/
structure Boot where
  ui : Bool
  access : Str
  refresh : Str
  pwd : Str
  salt : Nat
  clock : Nat → Time
  accountAt : Time
  orgAt : Time

/-- A part of the start: its outcome and the stores after its transactions. -/
abbrev Part (α : Type) := Except Err α × List Kv

/-- One transaction. -/
def one {α : Type} (r : Except Err α × Kv) : Part α := (r.1, [r.2])

/-- `?`: the next part, with the store the first one leaves, unless that failed. -/
def Part.next {α β : Type} (kv : Kv) (p : Part α) (f : α → Kv → Part β) : Part β :=
  match p.1 with
  | .error e => (.error e, p.2)
  | .ok a => ((f a (p.2.getLastD kv)).1, p.2 ++ (f a (p.2.getLastD kv)).2)

/-- `init_settings`, lib.rs 440-464: default settings are saved first, then the ones with keys. -/
def settingsPart (b : Boot) (kv : Kv) : Part Unit :=
  match loadSettings kv with
  | .ok s => one (initSettings.fill b.access b.refresh s kv)
  | .error .notFound =>
    Part.next kv (one (runCall (saveSettings defaultSettings) kv)) fun _ kv => one (initSettings.fill b.access b.refresh defaultSettings kv)
  | .error e => (.error e, [])

/-- The stores while the backups `ids` are marked as failed. -/
def failEach (E : Env Q) (clock : Nat → Time) : List Nat → Kv → List Kv
  | [], _ => []
  | id :: ids, kv =>
    let kv' := (Req.backupStatus id (clock id) (.failed kRestarted)).exec E kv
    kv' :: failEach E clock ids kv'

/-- `backup::init`, as in `restart`. -/
def backupsPart (E : Env Q) (b : Boot) (kv : Kv) : Part Unit :=
  match backupsC.list kv with
  | .error e => (.error e, [])
  | .ok l => (.ok (), failEach E b.clock ((l.filter fun b => match b.status with | .inProgress _ => true | _ => false).map (·.id)) kv)

@[irreducible] def kAdminMail : Str := "admin@admin.com".toList
@[irreducible] def kAdminName : Str := "admin".toList
@[irreducible] def kMyOrg : Str := "My Organization".toList

/-- The account of server.rs 79-90. -/
def adminAccount (C : AuthEnv) (b : Boot) : Account :=
  { id := 0, createdAt := ⟨0, 0⟩, createdBy := adminId, updatedAt := none, updatedBy := none, passwordHash := C.hash b.pwd b.salt,
    email := kAdminMail, name := some kAdminName, role := some .admin, forceUpdatePassword := true, forceUpdateEmail := true,
    organizations := none, projects := none, teams := none }

/-- server.rs 66-102. -/
def adminPart (C : AuthEnv) (b : Boot) (kv : Kv) : Part Account :=
  match accountsC.getById adminId kv with
  | .ok acc => (.ok acc, [])
  | .error .notFound =>
    match loadSettings kv with
    | .error e => (.error e, [])
    | .ok s =>
      Part.next kv (one (runCall (saveSettings { s with adminPassword := b.pwd }) kv)) fun _ kv =>
      Part.next kv (one (runCall (accountCreate b.accountAt (adminAccount C b)) kv)) fun acc kv =>
      Part.next kv (one (runCall (orgCreate b.orgAt acc.id kMyOrg) kv)) fun _ _ => (.ok acc, [])
  | .error e => (.error e, [])

/-- `start`, server.rs 35-102. That the user interface is missing (58-63) is told by an error of its own, here `notFound`. -/
def start (C : AuthEnv) (E : Env Q) (b : Boot) (kv : Kv) : Part Account :=
  Part.next kv (settingsPart b kv) fun _ kv =>
  Part.next kv (backupsPart E b kv) fun _ kv =>
  if b.ui then adminPart C b kv else (.error .notFound, [])

/-- The store after a start that was not interrupted. -/
def afterStart (C : AuthEnv) (E : Env Q) (b : Boot) (kv : Kv) : Kv := (start C E b kv).2.getLastD kv

/-- Any number of starts of a server that nobody talks to, each of them perhaps interrupted. -/
inductive Starts (C : AuthEnv) (E : Env Q) (kv : Kv) : Kv → Prop
  | refl : Starts C E kv kv
  | step {kv1 kv2 : Kv} (b : Boot) : Starts C E kv kv1 → kv2 ∈ (start C E b kv1).2 → Starts C E kv kv2

end OptiPrism.Platform
