import Verif.Platform.Auth

/-!
# The settings endpoint and the keys made at start-up

platform/src/settings.rs, platform/src/http/settings.rs and `init_settings`, cmd/src/lib.rs 440-464.
-/

namespace OptiPrism.Platform

open OptiPrism.Meta

/-- The body of request and answer, settings.rs 149-189. -/
structure SettingsBody where
  accessToken : Option Str := none
  refreshToken : Option Str := none
  adminPassword : Option Str := none
  backupEnabled : Option Bool := none
  encryptionEnabled : Option Bool := none
  encryptionPassword : Option Str := none
  compressionEnabled : Option Bool := none
  provider : Option BackupProvider := none
  s3Bucket : Option Str := none
  s3Path : Option Str := none
  s3Region : Option Str := none
  s3AccessKey : Option Str := none
  s3SecretKey : Option Str := none
  gcpBucket : Option Str := none
  gcpPath : Option Str := none
  gcpKey : Option Str := none
  interval : Option Interval := none
  startHour : Option Nat := none
  deriving DecidableEq, Repr

/-- The assignments of `set`, settings.rs 24-74. -/
def SettingsBody.apply (q : SettingsBody) (s : Settings) : Settings :=
  { s with
    accessToken := q.accessToken.getD s.accessToken, refreshToken := q.refreshToken.getD s.refreshToken,
    backupEnabled := q.backupEnabled.getD s.backupEnabled, encryptionEnabled := q.encryptionEnabled.getD s.encryptionEnabled,
    encryptionPassword := q.encryptionPassword.getD s.encryptionPassword,
    compressionEnabled := q.compressionEnabled.getD s.compressionEnabled, provider := q.provider.getD s.provider,
    s3Bucket := q.s3Bucket.getD s.s3Bucket, s3Path := q.s3Path.getD s.s3Path, s3Region := q.s3Region.getD s.s3Region,
    s3AccessKey := q.s3AccessKey.getD s.s3AccessKey, s3SecretKey := q.s3SecretKey.getD s.s3SecretKey,
    gcpBucket := q.gcpBucket.getD s.gcpBucket, gcpPath := q.gcpPath.getD s.gcpPath }

/-- The answer of `get`, settings.rs 86-125. -/
def answerSettings (s : Settings) : SettingsBody :=
  { backupEnabled := some s.backupEnabled, encryptionEnabled := some s.encryptionEnabled,
    compressionEnabled := some s.compressionEnabled, provider := some s.provider, s3Bucket := some s.s3Bucket, s3Path := some s.s3Path,
    s3Region := some s.s3Region, s3AccessKey := some s.s3AccessKey, gcpBucket := some s.gcpBucket, gcpPath := some s.gcpPath,
    interval := some s.interval, startHour := some s.startHour }

/-- `get`, settings.rs 81-128. -/
def getSettings (c : Ctx) (kv : Kv) : Except AErr SettingsBody :=
  if !RootOp.settingsGet.allowed c then .error .forbidden
  else match loadSettings kv with
    | .error e => .error (.store e)
    | .ok s => .ok (answerSettings s)

/-- `set`, settings.rs 19-79. -/
def setSettings (c : Ctx) (q : SettingsBody) (kv : Kv) : Except AErr SettingsBody × Kv :=
  if !RootOp.settingsSet.allowed c then (.error .forbidden, kv)
  else match loadSettings kv with
    | .error e => (.error (.store e), kv)
    | .ok s => match runCall (saveSettings (q.apply s)) kv with
      | (.error e, kv') => (.error (.store e), kv')
      | (.ok _, kv') => (getSettings c kv', kv')

/-- `Settings::default`, metadata/src/settings.rs 51-75. -/
def defaultSettings : Settings := ⟨[], [], [], false, false, [], false, .localDir, [], [], [], [], [], [], [], [], [], .daily, 0⟩

/-- `init_settings`, cmd/src/lib.rs 440-464; `k1` and `k2` are the keys drawn. -/
def initSettings (k1 k2 : Str) (kv : Kv) : Except Err Unit × Kv :=
  match loadSettings kv with
  | .ok s => fill s kv
  | .error .notFound =>
    match runCall (saveSettings defaultSettings) kv with
    | (.error e, kv') => (.error e, kv')
    | (.ok _, kv') => fill defaultSettings kv'
  | .error e => (.error e, kv)
where
  fill (s : Settings) (kv : Kv) : Except Err Unit × Kv :=
    runCall (saveSettings { s with
      accessToken := if s.accessToken.isEmpty then k1 else s.accessToken
      refreshToken := if s.refreshToken.isEmpty then k2 else s.refreshToken }) kv

/-- What happens to the settings: the server starts, or somebody uses the endpoint. -/
inductive SetOp where
  | start (k1 k2 : Str)
  | set (c : Ctx) (q : SettingsBody)

def SetOp.run : SetOp → Kv → Kv
  | .start k1 k2, kv => (initSettings k1 k2 kv).2
  | .set c q, kv => (setSettings c q kv).2

def runSets (l : List SetOp) (kv : Kv) : Kv := l.foldl (fun kv o => o.run kv) kv

end OptiPrism.Platform
