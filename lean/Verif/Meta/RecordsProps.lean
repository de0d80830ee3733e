import Verif.Meta.Records2
import Verif.Meta.Kv

/-!
# C41, C37: records and settings read back as written

For every record kind: reading what was written gives the record back exactly when it has no value the
encoding cannot express. The conditions below are the complete list of such values; each is met by some
record that the code accepts, so the property as stated fails (`_violated`).
-/

namespace OptiPrism.Meta

open OptiPrism.Storage (Bytes)

/-- A time without a fraction of a second. -/
def Whole (t : Time) : Prop := t.nano = 0
def WholeO (t : Option Time) : Prop := ∀ x, t = some x → Whole x

theorem trunc_eq {t : Time} : t.trunc = t ↔ Whole t := by
  cases t; simp [Time.trunc, Whole, eq_comm]

theorem truncO_eq {t : Option Time} : t.map Time.trunc = t ↔ WholeO t := by
  cases t <;> simp [WholeO, trunc_eq]

theorem normList_eq {α : Type} {l : Option (List α)} : normList l = l ↔ l ≠ some [] := by
  rcases l with _ | _ | ⟨a, l⟩ <;> simp [normList]

/-! ## C41 -/

theorem C41_event_partial (r : Event) (h : r.Valid) :
    Event.dec r.enc = some r ↔ Whole r.createdAt ∧ WholeO r.updatedAt ∧ r.tags ≠ some [] ∧
      r.eventProperties = none ∧ r.userProperties = none ∧ r.customProperties = none := by
  rw [Event.dec_enc r h, Option.some.injEq, ← trunc_eq, ← truncO_eq, ← normList_eq]
  obtain ⟨⟩ := r
  simp [Event.norm, eq_comm]

theorem C41_team_partial (r : Team) (h : r.Valid) :
    Team.dec r.enc = some r ↔ Whole r.createdAt ∧ WholeO r.updatedAt := by
  rw [Team.dec_enc r h, Option.some.injEq, ← trunc_eq, ← truncO_eq]
  obtain ⟨⟩ := r
  simp [Team.norm]

theorem C41_account_partial (r : Account) (h : r.Valid) :
    Account.dec r.enc = some r ↔ Whole r.createdAt ∧ WholeO r.updatedAt ∧ r.organizations ≠ some [] ∧
      r.projects ≠ some [] ∧ r.teams ≠ some [] := by
  rw [Account.dec_enc r h, Option.some.injEq, ← trunc_eq, ← truncO_eq, ← normList_eq, ← normList_eq, ← normList_eq]
  obtain ⟨⟩ := r
  simp [Account.norm]

theorem C41_organization_partial (r : Org) (h : r.Valid) :
    Org.dec r.enc = some r ↔ Whole r.createdAt ∧ WholeO r.updatedAt := by
  rw [Org.dec_enc r h, Option.some.injEq, ← trunc_eq, ← truncO_eq]
  obtain ⟨⟩ := r
  simp [Org.norm]

theorem C41_project_partial (r : Project) (h : r.Valid) :
    Project.dec r.enc = some r ↔ Whole r.createdAt ∧ WholeO r.updatedAt ∧ r.tags ≠ some [] := by
  rw [Project.dec_enc r h, Option.some.injEq, ← trunc_eq, ← truncO_eq, ← normList_eq]
  obtain ⟨⟩ := r
  simp [Project.norm]

/-- Coordinates must fit 32 bits. -/
def Panel.Fits (p : Panel) : Prop := p.x < 2 ^ 32 ∧ p.y < 2 ^ 32 ∧ p.w < 2 ^ 32 ∧ p.h < 2 ^ 32

theorem Panel.norm_eq {p : Panel} : p.norm = p ↔ p.Fits := by
  have h : ∀ n : Nat, n % 2 ^ 32 = n ↔ n < 2 ^ 32 := fun n => by omega
  obtain ⟨i, x, y, w, k⟩ := p
  simp only [Panel.norm, Panel.Fits, Panel.mk.injEq, true_and, h]

theorem C41_dashboard_partial (r : Dashboard) (h : r.Valid) :
    Dashboard.dec r.enc = some r ↔ Whole r.createdAt ∧ WholeO r.updatedAt ∧ r.tags ≠ some [] ∧ ∀ p ∈ r.panels, p.Fits := by
  have hp : r.panels.map Panel.norm = r.panels ↔ ∀ p ∈ r.panels, p.Fits := by
    rw [show (r.panels.map Panel.norm = r.panels) ↔ r.panels.map Panel.norm = r.panels.map id by simp, List.map_inj_left]
    simp only [id, Panel.norm_eq]
  rw [Dashboard.dec_enc r h, Option.some.injEq, ← trunc_eq, ← truncO_eq, ← normList_eq, ← hp]
  obtain ⟨⟩ := r
  simp [Dashboard.norm]

theorem C41_report_partial {Q : Type} (bc : Bincode Q) (r : Report Q) (h : r.Valid bc) :
    Report.dec bc (r.enc bc) = some r ↔ Whole r.createdAt ∧ WholeO r.updatedAt ∧ r.tags ≠ some [] := by
  rw [Report.dec_enc bc r h, Option.some.injEq, ← trunc_eq, ← truncO_eq, ← normList_eq]
  obtain ⟨⟩ := r
  simp [Report.norm]

theorem C41_bookmark_partial {Q : Type} (bc : Bincode Q) (r : Bookmark Q) (h : r.Valid bc) :
    Bookmark.dec bc (r.enc bc) = some r ↔ Whole r.createdAt := by
  rw [Bookmark.dec_enc bc r h, Option.some.injEq, ← trunc_eq]
  obtain ⟨⟩ := r
  simp [Bookmark.norm]

theorem C41_backup_partial (r : Backup) (h : r.Valid) :
    Backup.dec r.enc = some r ↔ Whole r.createdAt ∧ WholeO r.updatedAt := by
  rw [Backup.dec_enc r h, Option.some.injEq, ← trunc_eq, ← truncO_eq]
  obtain ⟨⟩ := r
  simp [Backup.norm]

theorem C41_property_partial (r : Property) (b : Bytes) (h : r.Bounds) (he : r.encO = some b) :
    Property.dec b = some r ↔ Whole r.createdAt ∧ WholeO r.updatedAt ∧ r.tags ≠ some [] := by
  rw [Property.dec_enc r b h he, Option.some.injEq, ← trunc_eq, ← truncO_eq, ← normList_eq]
  obtain ⟨⟩ := r
  simp [Property.norm]

/-- Writing a property panics exactly for list types. -/
theorem C41_property_writable (r : Property) : r.encO ≠ none ↔ ∀ t, r.dataType ≠ .list t := by
  unfold Property.encO
  cases r.dataType <;> simp [DType.num]

/-- Group values come back exactly, if they can be written at all. -/
theorem C41_group_values (r : GroupValues) (b : Bytes) (he : r.enc = some b) (h1 : r.id < 2 ^ 64)
    (h2 : ∀ p ∈ r.values, p.propertyId < 2 ^ 64) : GroupValues.dec b = some r :=
  GroupValues.dec_enc r b he h1 h2

/-- A value with something in it. -/
def GValue.Present : GValue → Prop
  | .null => True
  | .int8 v => v ≠ none
  | .int16 v => v ≠ none
  | .int32 v => v ≠ none
  | .int64 v => v ≠ none
  | .bool v => v ≠ none
  | .timestamp v => v ≠ none
  | .decimal v => v ≠ none
  | .str v => v ≠ none
  | .list => False

theorem mapM_ne_none {α β : Type} (f : α → Option β) (l : List α) : l.mapM f ≠ none ↔ ∀ a ∈ l, f a ≠ none := by
  induction l with
  | nil => simp
  | cons a l ih =>
    rw [List.mapM_cons]
    cases h : f a with
    | none => simp [h]
    | some b =>
      cases h' : l.mapM f with
      | none => simp only [h', ne_eq, not_true_eq_false, false_iff] at ih; simpa [h, h'] using ih
      | some c => simp only [h', ne_eq, reduceCtorEq, not_false_eq_true, true_iff] at ih; simpa [h, h'] using ih

/-- Writing group values panics exactly when some value is a list or a typed null. -/
theorem C41_group_values_writable (r : GroupValues) : r.enc ≠ none ↔ ∀ p ∈ r.values, p.value.Present := by
  have hv : ∀ p : PropVal, p.enc ≠ none ↔ p.value.Present := by
    rintro ⟨i, v⟩
    cases v with
    | null => simp [PropVal.enc, GValue.enc, GValue.field, GValue.Present]
    | list => simp [PropVal.enc, GValue.enc, GValue.field, GValue.Present]
    | _ v => cases v <;> simp [PropVal.enc, GValue.enc, GValue.field, GValue.Present]
  unfold GroupValues.enc
  rw [ne_eq, Option.map_eq_none_iff, ← ne_eq, mapM_ne_none]
  exact ⟨fun h p hp => (hv p).mp (h p hp), fun h p hp => (hv p).mpr (h p hp)⟩

/-- Group definitions come back exactly. -/
theorem C41_group (r : Group) (h : r.Valid) : Group.dec r.enc = some r := Group.dec_enc r h

/-- Custom events: beyond times and empty lists, filters without values come back with an empty list of
values and decimals and timestamps lose their parameters. -/
theorem C41_custom_event_partial (r : CustomEvent) (b : Bytes) (h : r.Bounds) (he : r.encO = some b) :
    CustomEvent.dec b = some r ↔ Whole r.createdAt ∧ WholeO r.updatedAt ∧ r.tags ≠ some [] ∧
      r.events.map CEvent.norm = r.events := by
  rw [CustomEvent.dec_enc r b h he, Option.some.injEq, ← trunc_eq, ← truncO_eq, ← normList_eq]
  obtain ⟨⟩ := r
  simp [CustomEvent.norm]

/-! ### witnesses -/

def t0 : Time := ⟨1700000000, 0⟩
/-- An event created with properties: `Events::create` answers with them, reading it shows none. -/
def evP : Event := ⟨1, t0, 7, none, none, 1, none, "e".toList, none, none, .enabled, false, some [3], none, none⟩

theorem evP_valid : evP.Valid := ⟨⟨by decide, by decide, by simp [evP]⟩, by decide⟩

theorem C41_event_properties_violated : ∃ r : Event, r.Valid ∧ ∃ r', Event.dec r.enc = some r' ∧
    r.eventProperties = some [3] ∧ r'.eventProperties = none :=
  ⟨evP, evP_valid, evP.norm, Event.dec_enc _ evP_valid, rfl, rfl⟩

/-- An event created at a time with a fraction (every real clock reading). -/
theorem C41_time_violated : ∃ r : Event, r.Valid ∧ Event.dec r.enc ≠ some r := by
  have hv : ({ evP with createdAt := ⟨1700000000, 5⟩, eventProperties := none } : Event).Valid :=
    ⟨⟨by decide, by decide, by simp [evP]⟩, by decide⟩
  exact ⟨_, hv, fun e => by
    have := ((C41_event_partial _ hv).mp e).1
    simp [Whole] at this⟩

/-- A dashboard with a panel at x = 2^32 comes back with x = 0. -/
theorem C41_panel_violated : ∃ p : Panel, p.reportId < 2 ^ 64 ∧ Panel.dec p.enc = some { p with x := 0 } ∧ p.x = 2 ^ 32 := by
  refine ⟨⟨1, 2 ^ 32, 0, 1, 1⟩, by decide, ?_, rfl⟩
  rw [Panel.dec_enc _ (by decide)]
  rfl

/-- Some empty list of tags comes back as no list. -/
theorem C41_empty_tags_violated : ∃ r : Event, r.Valid ∧ r.tags = some [] ∧ ∃ r', Event.dec r.enc = some r' ∧ r'.tags = none := by
  have hv : ({ evP with tags := some [] } : Event).Valid := ⟨⟨by decide, by decide, by simp [evP]⟩, by decide⟩
  exact ⟨_, hv, rfl, _, Event.dec_enc _ hv, rfl⟩

/-- A custom event with a null filter value is written and can never be read again. -/
theorem C41_null_filter_violated : ∃ f : Scalar, ∃ b, f.encO = some b ∧ Scalar.dec b = none :=
  ⟨.bool none, _, rfl, by rw [Scalar.dec_enc (.bool none) _ rfl]; rfl⟩

/-- Non-vacuity: a record that comes back unchanged. -/
example : Event.dec ({ evP with eventProperties := none, tags := some ["x".toList] } : Event).enc =
    some { evP with eventProperties := none, tags := some ["x".toList] } :=
  (C41_event_partial _ ⟨⟨by decide, by decide, by simp [evP]⟩, by decide⟩).mpr
    ⟨rfl, by simp [WholeO, evP], by simp, rfl, rfl, rfl⟩

/-- Non-vacuity: group values of all kinds. -/
example : ∃ b, (⟨5, [⟨1, .int8 (some 255)⟩, ⟨2, .bool (some false)⟩, ⟨3, .decimal (some 12345)⟩, ⟨4, .str (some "é".toList)⟩,
    ⟨5, .null⟩]⟩ : GroupValues).enc = some b ∧ b.length < 2 ^ 64 := ⟨_, rfl, by decide +kernel⟩

/-! ## C37 -/

/-- settings.rs 77-123. -/
def Settings.validate (s : Settings) : Except Err Unit :=
  if s.encryptionEnabled && s.encryptionPassword.isEmpty then .error .badRequest
  else match s.provider with
    | .localDir => .ok ()
    | .s3 =>
      if s.s3Bucket.isEmpty then .error .badRequest
      else if s.s3Region.isEmpty then .error .badRequest
      else if s.s3AccessKey.isEmpty then .error .badRequest
      else if s.s3SecretKey.isEmpty then .error .badRequest
      else .ok ()
    | .gcp =>
      if s.gcpBucket.isEmpty then .error .badRequest
      else if s.gcpKey.isEmpty then .error .badRequest
      else .ok ()

/-- settings.rs 144-154. -/
def saveSettings (s : Settings) : Call Unit := fun kv =>
  match s.validate with
  | .error e => .error e
  | .ok () => .ok ((), putK kv .config s.enc)

/-- settings.rs 134-142. -/
def loadSettings (kv : Kv) : Except Err Settings :=
  match getK kv .config with
  | none => .error .notFound
  | some b => match Settings.dec b with
    | none => .error .panic
    | some s => .ok s

/-- The part of the settings a backup needs is filled in. -/
def Settings.Complete (s : Settings) : Prop :=
  (s.encryptionEnabled = true → s.encryptionPassword ≠ []) ∧
  (s.provider = .s3 → s.s3Bucket ≠ [] ∧ s.s3Region ≠ [] ∧ s.s3AccessKey ≠ [] ∧ s.s3SecretKey ≠ []) ∧
  (s.provider = .gcp → s.gcpBucket ≠ [] ∧ s.gcpKey ≠ [])

/-- Settings are accepted exactly when they are complete; refused settings leave the store alone. -/
theorem C37_accepts (s : Settings) (kv : Kv) :
    ((runCall (saveSettings s) kv).1 = .ok () ↔ s.Complete) ∧ (¬ s.Complete → (runCall (saveSettings s) kv).2 = kv) := by
  have h : (s.validate = .ok () ↔ s.Complete) := by
    unfold Settings.validate Settings.Complete
    cases he : s.encryptionEnabled <;> cases hp : s.provider <;> simp
    all_goals
      repeat' split
      all_goals simp_all
  constructor
  · rw [← h]
    unfold runCall saveSettings
    cases hv : s.validate <;> simp
  · intro hn
    unfold runCall saveSettings
    cases hv : s.validate with
    | error e => rfl
    | ok u => exact absurd (h.mp hv) hn

/-- What is loaded after any accepted save, whatever was stored before: the saved settings except for
the start hour, which is 0. -/
theorem C37_settings_partial (s : Settings) (kv : Kv) (h : s.Complete) :
    loadSettings (runCall (saveSettings s) kv).2 = .ok { s with startHour := 0 } := by
  have hv := ((C37_accepts s kv).1.mpr h)
  unfold runCall saveSettings at *
  cases e : s.validate with
  | error e' => rw [e] at hv; simp at hv
  | ok u =>
    simp only
    unfold loadSettings
    rw [getK_putK kv (k := .config) (k' := .config) trivial trivial]
    simp only [if_true]
    rw [Settings.dec_enc s]
    rfl

/-- The saved settings come back exactly when the start hour is 0. -/
theorem C37_settings_iff_partial (s : Settings) (kv : Kv) (h : s.Complete) :
    loadSettings (runCall (saveSettings s) kv).2 = .ok s ↔ s.startHour = 0 := by
  rw [C37_settings_partial s kv h]
  obtain ⟨⟩ := s
  simp [eq_comm]

/-- Loading twice or saving the loaded settings again changes nothing more. -/
theorem C37_resave (s : Settings) : ({ s with startHour := 0 } : Settings).enc = s.enc := rfl

def sampleSettings : Settings :=
  ⟨"aaaa".toList, "bbbb".toList, "p".toList, true, true, "secret".toList, false, .s3, [], "b".toList, "p".toList, "r".toList,
   "k".toList, "s".toList, [], [], [], .daily, 3⟩

theorem sampleSettings_complete : sampleSettings.Complete := by unfold Settings.Complete; decide +kernel

/-- A backup scheduled at 3 o'clock is scheduled at 0 after a reload. -/
theorem C37_start_hour_violated : ∃ s : Settings, s.Complete ∧ ∀ kv,
    loadSettings (runCall (saveSettings s) kv).2 ≠ .ok s :=
  ⟨sampleSettings, sampleSettings_complete, fun kv h => by
    have := (C37_settings_iff_partial sampleSettings kv sampleSettings_complete).mp h
    simp [sampleSettings] at this⟩

end OptiPrism.Meta
