import Verif.Platform.SettingsApi
import Verif.Platform.AccessProps

/-!
# C103, C106, C107: the settings endpoint
-/

namespace OptiPrism.Platform

open OptiPrism.Meta

/-- What saving does, in terms of loading. -/
theorem save_cases (s : Settings) (kv : Kv) :
    (¬ s.Complete ∧ (∃ e, runCall (saveSettings s) kv = (.error e, kv))) ∨
    (s.Complete ∧ ∃ kv', runCall (saveSettings s) kv = (.ok (), kv') ∧ loadSettings kv' = .ok { s with startHour := 0 }) := by
  obtain ⟨h1, h2⟩ := C37_accepts s kv
  cases hr : runCall (saveSettings s) kv with
  | mk a kv' =>
    rw [hr] at h1 h2
    dsimp only at h1 h2
    cases a with
    | ok u =>
      have hc := h1.mp rfl
      have := C37_settings_partial s kv hc
      rw [hr] at this
      exact .inr ⟨hc, kv', rfl, this⟩
    | error e =>
      have hc : ¬ s.Complete := fun h => by cases h1.mpr h
      exact .inl ⟨hc, e, by rw [h2 hc]⟩

/-! ## C103 -/

/-- A field of the request was honoured: given, it is what is stored; not given, what was stored stays. -/
def Honours {α : Type} (q : Option α) (old new : α) : Prop := (∀ v, q = some v → new = v) ∧ (q = none → new = old)

theorem honours_getD {α : Type} (q : Option α) (old : α) : Honours q old (q.getD old) :=
  ⟨fun v h => by rw [h]; rfl, fun h => by rw [h]; rfl⟩

/-- C103 for the fields the endpoint knows. Missing: the GCP key, the schedule and the administrator's password, below. -/
theorem C103_set_partial {c : Ctx} {q : SettingsBody} {kv : Kv} {b : SettingsBody} (h : (setSettings c q kv).1 = .ok b) :
    ∃ s s', loadSettings kv = .ok s ∧ loadSettings (setSettings c q kv).2 = .ok s' ∧
      Honours q.accessToken s.accessToken s'.accessToken ∧ Honours q.refreshToken s.refreshToken s'.refreshToken ∧
      Honours q.backupEnabled s.backupEnabled s'.backupEnabled ∧ Honours q.encryptionEnabled s.encryptionEnabled s'.encryptionEnabled ∧
      Honours q.encryptionPassword s.encryptionPassword s'.encryptionPassword ∧
      Honours q.compressionEnabled s.compressionEnabled s'.compressionEnabled ∧ Honours q.provider s.provider s'.provider ∧
      Honours q.s3Bucket s.s3Bucket s'.s3Bucket ∧ Honours q.s3Path s.s3Path s'.s3Path ∧ Honours q.s3Region s.s3Region s'.s3Region ∧
      Honours q.s3AccessKey s.s3AccessKey s'.s3AccessKey ∧ Honours q.s3SecretKey s.s3SecretKey s'.s3SecretKey ∧
      Honours q.gcpBucket s.gcpBucket s'.gcpBucket ∧ Honours q.gcpPath s.gcpPath s'.gcpPath ∧
      s'.adminPassword = s.adminPassword ∧ s'.localPath = s.localPath ∧ s'.gcpKey = s.gcpKey ∧ s'.interval = s.interval := by
  unfold setSettings at h ⊢
  split at h
  · cases h
  · rename_i hp
    rw [if_neg hp]
    cases hl : loadSettings kv with
    | error e => rw [hl] at h; cases h
    | ok s =>
      rw [hl] at h
      dsimp only at h ⊢
      rcases save_cases (q.apply s) kv with ⟨-, e, hr⟩ | ⟨-, kv', hr, hs⟩
      · rw [hr] at h; cases h
      · rw [hr]
        refine ⟨s, _, rfl, hs, ?_⟩
        simp only [SettingsBody.apply, honours_getD, and_self]

/-- C103: a refused request changes nothing. -/
theorem C103_refused {c : Ctx} {q : SettingsBody} {kv : Kv} {e : AErr} (h : (setSettings c q kv).1 = .error e) :
    (setSettings c q kv).2 = kv := by
  unfold setSettings at h ⊢
  split
  · rfl
  · rename_i hp
    rw [if_neg hp] at h
    cases hl : loadSettings kv with
    | error e => rfl
    | ok s =>
      rw [hl] at h
      dsimp only at h ⊢
      rcases save_cases (q.apply s) kv with ⟨-, e, hr⟩ | ⟨-, kv', hr, hs⟩
      · rw [hr]
      · rw [hr] at h
        dsimp only at h
        unfold getSettings at h
        rw [if_neg (by
          simp only [RootOp.allowed, RootOp.perm] at hp ⊢
          exact hp), hs] at h
        cases h

def exAdmin : Ctx := ⟨1, 1, some .admin, none, none⟩

def exStored : Kv := (runCall (saveSettings sampleSettings) []).2

/-- Hypotheses of `C103_set_partial`. -/
example : ((setSettings exAdmin { s3Bucket := some "b2".toList } exStored).1.toOption.bind (·.s3Bucket)) = some "b2".toList := by decide +kernel

/-- C103 fails: key, schedule and password of an accepted request are not stored. -/
theorem C103_ignored_violated : ∃ q s', (setSettings exAdmin q exStored).1.toOption.isSome = true ∧
    loadSettings (setSettings exAdmin q exStored).2 = .ok s' ∧ q.gcpKey = some "key".toList ∧ s'.gcpKey = [] ∧
    q.interval = some .hourly ∧ s'.interval = .daily ∧ q.startHour = some 5 ∧ s'.startHour = 0 ∧
    q.adminPassword = some "new".toList ∧ s'.adminPassword = "p".toList :=
  ⟨{ gcpKey := some "key".toList, interval := some .hourly, startHour := some 5, adminPassword := some "new".toList },
    { sampleSettings with startHour := 0 }, by decide +kernel, by decide +kernel, rfl, rfl, rfl, rfl, rfl, rfl, rfl, rfl⟩

/-- Nothing is stored yet, or settings with `P`. -/
def Stored (P : Settings → Prop) (kv : Kv) : Prop := loadSettings kv = .error .notFound ∨ ∃ s, loadSettings kv = .ok s ∧ P s

/-- The state of the settings along a history of starts and requests. -/
theorem runSets_inv (P : Settings → Prop) (hP : ∀ s, P s → P { s with startHour := 0 })
    (hset : ∀ s (q : SettingsBody), P s → (q.apply s).Complete → P (q.apply s))
    (hkeys : ∀ s k1 k2, P s → P { s with accessToken := k1, refreshToken := k2 })
    (h0 : P defaultSettings) (l : List SetOp) {kv : Kv} (hk : Stored P kv) : Stored P (runSets l kv) := by
  induction l generalizing kv with
  | nil => exact hk
  | cons o l ih =>
    refine ih (kv := o.run kv) ?_
    have fill : ∀ k1 k2 s kv, P s → Stored P kv → Stored P (initSettings.fill k1 k2 s kv).2 := by
      intro k1 k2 s kv hs hk
      unfold initSettings.fill
      rcases save_cases { s with
        accessToken := if s.accessToken.isEmpty then k1 else s.accessToken
        refreshToken := if s.refreshToken.isEmpty then k2 else s.refreshToken } kv with ⟨-, e, hr⟩ | ⟨-, kv', hr, hl⟩
      · rw [hr]; exact hk
      · rw [hr]; exact .inr ⟨_, hl, hP _ (hkeys _ _ _ hs)⟩
    cases o with
    | start k1 k2 =>
      show Stored P (initSettings k1 k2 kv).2
      unfold initSettings
      rcases hk with hk | ⟨s, hk, hs⟩
      · rw [hk]
        dsimp only
        rcases save_cases defaultSettings kv with ⟨-, e, hr⟩ | ⟨-, kv', hr, hl⟩
        · rw [hr]; exact .inl hk
        · rw [hr]; exact fill k1 k2 _ kv' h0 (.inr ⟨_, hl, hP _ h0⟩)
      · rw [hk]; exact fill k1 k2 s kv hs (.inr ⟨s, hk, hs⟩)
    | set c q =>
      show Stored P (setSettings c q kv).2
      unfold setSettings
      split
      · exact hk
      · rcases hk with hk | ⟨s, hk, hs⟩
        · rw [hk]; exact .inl hk
        · rw [hk]
          dsimp only
          rcases save_cases (q.apply s) kv with ⟨-, e, hr⟩ | ⟨hc, kv', hr, hl⟩
          · rw [hr]; exact .inr ⟨s, hk, hs⟩
          · rw [hr]; exact .inr ⟨_, hl, hP _ (hset s q hs hc)⟩

/-- C103 fails: whatever requests are made, backups to GCP can never be chosen. -/
theorem C103_gcp_violated (l : List SetOp) {s : Settings} (h : loadSettings (runSets l []) = .ok s) : s.provider ≠ .gcp := by
  have := runSets_inv (fun s => s.gcpKey = [] ∧ s.provider ≠ .gcp) (fun s h => h)
    (fun s q h hc => ⟨h.1, fun hp => (hc.2.2 hp).2 h.1⟩) (fun s _ _ h => h) ⟨rfl, by decide⟩ l (kv := []) (.inl rfl)
  unfold Stored at this
  rw [h] at this
  rcases this with h | ⟨s', e, hs⟩
  · cases h
  · cases e; exact hs.2

example : (loadSettings (runSets [.start "k1".toList "k2".toList, .set exAdmin { provider := some .gcp, gcpBucket := some "b".toList, gcpKey := some "k".toList }] [])).toOption.map (·.provider) = some .localDir := by decide +kernel

/-! ## C106 -/

/-- Two settings that differ in secrets only. -/
def SamePublic (a b : Settings) : Prop :=
  a.backupEnabled = b.backupEnabled ∧ a.encryptionEnabled = b.encryptionEnabled ∧ a.compressionEnabled = b.compressionEnabled ∧
  a.provider = b.provider ∧ a.s3Bucket = b.s3Bucket ∧ a.s3Path = b.s3Path ∧ a.s3Region = b.s3Region ∧ a.s3AccessKey = b.s3AccessKey ∧
  a.gcpBucket = b.gcpBucket ∧ a.gcpPath = b.gcpPath ∧ a.interval = b.interval ∧ a.startHour = b.startHour

/-- C106: answers depend on no signing key, password or secret key; callers who are not administrators get none. -/
theorem C106_secrets {kv kv' : Kv} {s s' : Settings} (h : loadSettings kv = .ok s) (h' : loadSettings kv' = .ok s') (hp : SamePublic s s')
    (c : Ctx) : getSettings c kv = getSettings c kv' ∧ (c.role ≠ some .admin → getSettings c kv = .error .forbidden) := by
  obtain ⟨h1, h2, h3, h4, h5, h6, h7, h8, h9, h10, h11, h12⟩ := hp
  unfold getSettings
  refine ⟨?_, fun hr => ?_⟩
  · rw [h, h']
    dsimp only [answerSettings]
    rw [h1, h2, h3, h4, h5, h6, h7, h8, h9, h10, h11, h12]
  · rw [if_pos]
    simp only [Bool.not_eq_true', RootOp.allowed]
    cases hc : c.checkPermission RootOp.settingsGet.perm with
    | false => rfl
    | true => exact absurd ((C42_root c _).mp hc) hr

/-- C106 for `set`: nor does the answer to a request, if both are accepted or both refused. -/
theorem C106_set {kv kv' : Kv} {s s' : Settings} (h : loadSettings kv = .ok s) (h' : loadSettings kv' = .ok s') (hp : SamePublic s s')
    (c : Ctx) (q : SettingsBody) {b b' : SettingsBody} (hb : (setSettings c q kv).1 = .ok b) (hb' : (setSettings c q kv').1 = .ok b') : b = b' := by
  obtain ⟨h1, h2, h3, h4, h5, h6, h7, h8, h9, h10, h11, h12⟩ := hp
  unfold setSettings at hb hb'
  split at hb
  · cases hb
  · rename_i hpm
    rw [if_neg hpm] at hb'
    rw [h] at hb
    rw [h'] at hb'
    dsimp only at hb hb'
    rcases save_cases (q.apply s) kv with ⟨-, e, hr⟩ | ⟨-, kv1, hr, hl⟩
    · rw [hr] at hb; cases hb
    · rcases save_cases (q.apply s') kv' with ⟨-, e, hr'⟩ | ⟨-, kv2, hr', hl'⟩
      · rw [hr'] at hb'; cases hb'
      · rw [hr] at hb
        rw [hr'] at hb'
        dsimp only at hb hb'
        have := (C106_secrets hl hl' (by
          unfold SamePublic SettingsBody.apply
          dsimp only
          rw [h1, h2, h3, h4, h5, h6, h7, h8, h9, h10, h11]
          simp) c).1
        rw [hb, hb'] at this
        injection this

example : SamePublic sampleSettings { sampleSettings with accessToken := "x".toList, s3SecretKey := "y".toList } := by
  unfold SamePublic; simp

/-! ## C107 -/

/-- C107: after a start that succeeds the signing keys are not empty. -/
theorem C107_start {k1 k2 : Str} (hk1 : k1 ≠ []) (hk2 : k2 ≠ []) {kv : Kv} (h : (initSettings k1 k2 kv).1 = .ok ()) :
    ∃ s, loadSettings (initSettings k1 k2 kv).2 = .ok s ∧ s.accessToken ≠ [] ∧ s.refreshToken ≠ [] := by
  have fill : ∀ s kv, (initSettings.fill k1 k2 s kv).1 = .ok () →
      ∃ s', loadSettings (initSettings.fill k1 k2 s kv).2 = .ok s' ∧ s'.accessToken ≠ [] ∧ s'.refreshToken ≠ [] := by
    intro s kv h
    unfold initSettings.fill at h ⊢
    rcases save_cases { s with
        accessToken := if s.accessToken.isEmpty then k1 else s.accessToken
        refreshToken := if s.refreshToken.isEmpty then k2 else s.refreshToken } kv with ⟨-, e, hr⟩ | ⟨-, kv', hr, hl⟩
    · rw [hr] at h; cases h
    · rw [hr]
      refine ⟨_, hl, ?_, ?_⟩ <;> dsimp only <;> split <;> simp_all
  unfold initSettings at h ⊢
  split at h
  · exact fill _ _ h
  · split at h
    · cases h
    · exact fill _ _ h
  · cases h

/-- C107: a restart keeps the keys, so that tokens given out before stay valid. -/
theorem C107_restart {k1 k2 : Str} {kv : Kv} {s : Settings} (h : loadSettings kv = .ok s) (ha : s.accessToken ≠ []) (hr : s.refreshToken ≠ []) :
    ∃ s', loadSettings (initSettings k1 k2 kv).2 = .ok s' ∧ s'.accessToken = s.accessToken ∧ s'.refreshToken = s.refreshToken := by
  unfold initSettings initSettings.fill
  rw [h]
  dsimp only
  rw [if_neg (by simpa using ha), if_neg (by simpa using hr)]
  rcases save_cases s kv with ⟨-, e, hr⟩ | ⟨-, kv', hr, hl⟩
  · rw [hr]; exact ⟨s, h, rfl, rfl⟩
  · rw [hr]; exact ⟨_, hl, rfl, rfl⟩

example : (initSettings "k1".toList "k2".toList []).1 = .ok () := by decide +kernel

/-- C107 fails: the endpoint accepts an empty signing key, which anybody can sign with. -/
theorem C107_empty_violated : ∃ l s, loadSettings (runSets l []) = .ok s ∧ s.accessToken = [] ∧
    l = [.start "k1".toList "k2".toList, .set exAdmin { accessToken := some [] }] :=
  ⟨[.start "k1".toList "k2".toList, .set exAdmin { accessToken := some [] }],
    { defaultSettings with refreshToken := "k2".toList }, by decide +kernel, rfl, rfl⟩

end OptiPrism.Platform
