import Verif.Platform.Start
import Verif.Platform.SettingsApiProps
import Verif.Platform.SchedulerProps

/-!
# Starting the server: what the parts of a start do
-/

namespace OptiPrism.Platform

open OptiPrism.Meta

variable {Q : Type}

/-- What is true of every store with a history, and needs no count of its requests. -/
structure SoundKv (kv : Kv) : Prop where
  clean : Clean kv
  acc : accountsC.Inv Account.Valid kv
  org : orgsC.Inv Org.Valid kv
  bak : backupsC.Inv Backup.Valid kv
  set : loadSettings kv = .error .notFound ∨ ∃ s, loadSettings kv = .ok s ∧ s.Complete ∧ s.startHour = 0

/-- Nothing but settings and backups changed. -/
def Still (kv kv' : Kv) : Prop := ∀ m, m ≠ .config → m ≠ .coll .backups → Same m kv kv'

theorem Still.refl (kv : Kv) : Still kv kv := fun _ _ _ => .refl _ _

theorem Still.trans {a b c : Kv} (h : Still a b) (h' : Still b c) : Still a c := fun m h1 h2 => (h m h1 h2).trans (h' m h1 h2)

theorem load_same {kv kv' : Kv} (h : Same .config kv kv') : loadSettings kv' = loadSettings kv := by
  unfold loadSettings
  rw [h .config trivial rfl]

theorem complete_hour {s : Settings} (h : s.Complete) (n : Nat) : Settings.Complete { s with startHour := n } := h

theorem hist_settings {E : Env Q} {n : Nat} {kv : Kv} (h : Hist E n kv) :
    loadSettings kv = .error .notFound ∨ ∃ s, loadSettings kv = .ok s ∧ s.Complete ∧ s.startHour = 0 := by
  induction h with
  | start => exact .inl rfl
  | @step n kv r _ hr ih =>
    by_cases hm : Mod.config ∈ r.mods
    · cases r <;> simp only [Req.mods, List.mem_cons, List.not_mem_nil, or_false, reduceCtorEq, or_self] at hm
      case settings s =>
        show loadSettings (runCall (saveSettings s) kv).2 = _ ∨ ∃ s', loadSettings (runCall (saveSettings s) kv).2 = _ ∧ _
        rcases save_cases s kv with ⟨-, e, he⟩ | ⟨hc, kv', he, hl⟩
        · rw [he]; exact ih
        · rw [he]; exact .inr ⟨_, hl, complete_hour hc 0, rfl⟩
    · rw [load_same (exec_same E hr hm kv)]; exact ih

theorem hist_sound {E : Env Q} {n : Nat} {kv : Kv} (h : Hist E n kv) (hn : n < 2 ^ 62) : SoundKv kv :=
  ⟨h.clean, (hist_accounts h hn).inv accounts_ok, (hist_orgs h hn).inv orgs_ok, (hist_backups h hn).inv backups_ok, hist_settings h⟩

theorem sound_empty : SoundKv [] := ⟨clean_empty, empty_inv _ _, empty_inv _ _, empty_inv _ _, .inl rfl⟩

/-! ## Settings -/

theorem save_steps (E : Env Q) (s : Settings) (kv : Kv) : Steps (fun k => k.mod ∈ [Mod.config]) kv (runCall (saveSettings s) kv).2 :=
  exec_steps E (.settings s) trivial kv

theorem save_ok (E : Env Q) {s : Settings} (hs : s.Complete) {kv : Kv} (h : SoundKv kv) :
    ∃ kv', runCall (saveSettings s) kv = (.ok (), kv') ∧ SoundKv kv' ∧ Still kv kv' ∧ loadSettings kv' = .ok { s with startHour := 0 } ∧
      ∀ m, m ≠ .config → Same m kv kv' := by
  have st := save_steps E s kv
  rcases save_cases s kv with ⟨hc, -⟩ | ⟨hc, kv', he, hl⟩
  · exact absurd hs hc
  rw [he] at st
  have sm : ∀ m, m ≠ .config → Same m kv kv' := fun m hm => st.same fun k hk e => hm (e ▸ List.mem_singleton.mp hk)
  exact ⟨kv', he, ⟨st.clean h.clean, AgreeOn.inv (c := accountsC) (sm _ (by simp)).agree h.acc, AgreeOn.inv (c := orgsC) (sm _ (by simp)).agree h.org,
    AgreeOn.inv (c := backupsC) (sm _ (by simp)).agree h.bak, .inr ⟨_, hl, complete_hour hs 0, rfl⟩⟩, fun m hm _ => sm m hm, hl, sm⟩

/-- The settings with keys. -/
def withKeys (b : Boot) (s : Settings) : Settings :=
  { s with
    accessToken := if s.accessToken.isEmpty then b.access else s.accessToken
    refreshToken := if s.refreshToken.isEmpty then b.refresh else s.refreshToken }

/-- The settings a start begins with. -/
def settingsOf (kv : Kv) : Settings :=
  match loadSettings kv with
  | .ok s => s
  | .error _ => defaultSettings

theorem default_complete : defaultSettings.Complete := by
  refine ⟨fun h => ?_, fun h => ?_, fun h => ?_⟩ <;> cases h

theorem settingsOf_complete {kv : Kv} (h : SoundKv kv) : (settingsOf kv).Complete ∧ (settingsOf kv).startHour = 0 := by
  unfold settingsOf
  rcases h.set with e | ⟨s, e, h1, h2⟩
  · rw [e]; exact ⟨default_complete, rfl⟩
  · rw [e]; exact ⟨h1, h2⟩

theorem fill_ok (E : Env Q) {b : Boot} {s : Settings} (hs : s.Complete) {kv : Kv} (h : SoundKv kv) (hh : s.startHour = 0) :
    ∃ kv', initSettings.fill b.access b.refresh s kv = (.ok (), kv') ∧ SoundKv kv' ∧ Still kv kv' ∧ loadSettings kv' = .ok (withKeys b s) ∧
      ∀ m, m ≠ .config → Same m kv kv' := by
  have hc : (withKeys b s).Complete := hs
  obtain ⟨kv', h1, h2, h3, h4, h5⟩ := save_ok E hc h
  refine ⟨kv', h1, h2, h3, ?_, h5⟩
  rw [h4]
  have : (withKeys b s).startHour = 0 := hh
  rw [show ({ withKeys b s with startHour := 0 } : Settings) = withKeys b s by rw [← this]]

theorem settingsPart_spec (E : Env Q) (b : Boot) {kv : Kv} (h : SoundKv kv) :
    (settingsPart b kv).1 = .ok () ∧ (∀ k ∈ (settingsPart b kv).2, SoundKv k ∧ Still kv k ∧
      (loadSettings k = .ok (settingsOf kv) ∨ loadSettings k = .ok (withKeys b (settingsOf kv))) ∧ ∀ m, m ≠ .config → Same m kv k) ∧
      (settingsPart b kv).2 ≠ [] ∧ loadSettings ((settingsPart b kv).2.getLastD kv) = .ok (withKeys b (settingsOf kv)) := by
  unfold settingsPart settingsOf
  rcases h.set with e | ⟨s, e, h1, h2⟩
  · rw [e]
    dsimp only
    obtain ⟨k1, a1, a2, a3, a4, a5⟩ := save_ok E default_complete h
    obtain ⟨k2, b1, b2, b3, b4, b5⟩ := fill_ok E (b := b) default_complete a2 rfl
    rw [a1]
    simp only [Part.next, one, List.getLastD_cons, List.getLastD_nil, b1]
    refine ⟨trivial, fun k hk => ?_, by simp, by simpa using b4⟩
    simp only [List.cons_append, List.nil_append, List.mem_cons, List.not_mem_nil, or_false] at hk
    rcases hk with rfl | rfl
    · exact ⟨a2, a3, .inl a4, a5⟩
    · exact ⟨b2, a3.trans b3, .inr b4, fun m hm => (a5 m hm).trans (b5 m hm)⟩
  · rw [e]
    dsimp only
    obtain ⟨k2, b1, b2, b3, b4, b5⟩ := fill_ok E (b := b) h1 h h2
    rw [b1]
    refine ⟨rfl, fun k hk => ?_, by simp [one], b4⟩
    rw [List.mem_singleton.mp hk]
    exact ⟨b2, b3, .inr b4, b5⟩

/-- The part is `init_settings`. -/
theorem settingsPart_init (b : Boot) (kv : Kv) :
    (settingsPart b kv).1 = (initSettings b.access b.refresh kv).1 ∧ (settingsPart b kv).2.getLastD kv = (initSettings b.access b.refresh kv).2 := by
  unfold settingsPart initSettings
  cases loadSettings kv with
  | ok s => exact ⟨rfl, rfl⟩
  | error e =>
    cases e
    case notFound =>
      cases hr : runCall (saveSettings defaultSettings) kv with
      | mk a k =>
        cases a with
        | error e => simp [Part.next, one, hr]
        | ok u => simp [Part.next, one, hr]
    all_goals exact ⟨rfl, rfl⟩

/-! ## Backups -/

theorem failed_ok {E : Env Q} {id : Nat} {now : Time} {kv : Kv} (h : SoundKv kv) :
    SoundKv ((Req.backupStatus id now (.failed kRestarted)).exec E kv) ∧ Still kv ((Req.backupStatus id now (.failed kRestarted)).exec E kv) ∧
      Same .config kv ((Req.backupStatus id now (.failed kRestarted)).exec E kv) := by
  have hr : (Req.backupStatus id now (.failed kRestarted) : Req Q).Ok := by intro n e; cases e
  have sm : ∀ m, m ≠ .coll .backups → Same m kv ((Req.backupStatus id now (.failed kRestarted)).exec E kv) := fun m hm =>
    exec_same E hr (by simpa [Req.mods] using hm) kv
  refine ⟨⟨(exec_steps E _ hr kv).clean h.clean, AgreeOn.inv (c := accountsC) (sm _ (by simp [accountsC])).agree h.acc,
      AgreeOn.inv (c := orgsC) (sm _ (by simp [orgsC])).agree h.org, ?_, ?_⟩,
    fun m _ hm => sm m hm, sm _ (by simp)⟩
  · obtain ⟨ho1, ho2, ho3, sel, hs', hsn, hp, hrest⟩ := backupStatus_ok (id := id) (now := now) (st := .failed kRestarted) (by intro n e; cases e)
    show backupsC.Inv Backup.Valid (runCall (backupUpdateStatus id now (.failed kRestarted)) kv).2
    unfold runCall backupUpdateStatus
    rcases update_spec backups_ok h.bak hs' hsn ho1 hp hrest ho2 ho3 (id := id) with ⟨-, e'⟩ | ⟨r, hr, ⟨-, e'⟩ | ⟨-, ⟨x, -, e'⟩ | ⟨hf, kv', e', h1, h2, h3⟩⟩⟩
    · rw [e']; exact h.bak
    · rw [e']; exact h.bak
    · rw [e']; exact h.bak
    · rw [e']; exact h1
  · rw [load_same (sm _ (by simp))]; exact h.set

theorem failEach_spec (E : Env Q) (clock : Nat → Time) {ids : List Nat} : ∀ {kv : Kv}, SoundKv kv →
    (∀ k ∈ failEach E clock ids kv, SoundKv k ∧ Still kv k ∧ Same .config kv k) ∧
    (failEach E clock ids kv).getLastD kv = runReqs E (ids.map fun id => .backupStatus id (clock id) (.failed kRestarted)) kv := by
  induction ids with
  | nil => exact fun h => ⟨nofun, rfl⟩
  | cons i ids ih =>
    intro kv h
    obtain ⟨a1, a2, a3⟩ := failed_ok (E := E) (id := i) (now := clock i) h
    obtain ⟨b1, b2⟩ := ih a1
    refine ⟨fun k hk => ?_, ?_⟩
    · rcases List.mem_cons.mp hk with rfl | hk
      · exact ⟨a1, a2, a3⟩
      · obtain ⟨c1, c2, c3⟩ := b1 k hk
        exact ⟨c1, a2.trans c2, a3.trans c3⟩
    · show (_ :: _).getLastD kv = _
      rw [List.getLastD_cons, b2]
      rfl

theorem getLastD_mem {α : Type} (l : List α) (d : α) : l.getLastD d = d ∨ l.getLastD d ∈ l := by
  cases l with
  | nil => exact .inl rfl
  | cons a l => rw [List.getLastD_cons]; exact .inr (by
      cases l with
      | nil => exact List.mem_singleton.mpr rfl
      | cons b l => rw [show (b :: l).getLastD a = (b :: l).getLast (by simp) from by simp [List.getLastD_eq_getLast?, List.getLast?_eq_some_getLast]]
                    exact List.mem_cons_of_mem _ (List.getLast_mem _))

theorem backupsPart_spec (E : Env Q) (b : Boot) {kv : Kv} (h : SoundKv kv) :
    (backupsPart E b kv).1 = .ok () ∧ (∀ k ∈ (backupsPart E b kv).2, SoundKv k ∧ Still kv k ∧ Same .config kv k) := by
  obtain ⟨l, hl, -, -⟩ := list_spec h.clean h.bak
  unfold backupsPart
  rw [hl]
  exact ⟨rfl, (failEach_spec E b.clock h).1⟩

/-- The part is `restart`. -/
theorem backupsPart_restart (E : Env Q) (b : Boot) {w : Server} (h : SoundKv w.kv) :
    restart E b.clock w = some { w with kv := (backupsPart E b w.kv).2.getLastD w.kv, alive := true } := by
  obtain ⟨l, hl, -, -⟩ := list_spec h.clean h.bak
  unfold backupsPart restart
  rw [hl]
  dsimp only
  rw [(failEach_spec E b.clock h).2]
  rfl

/-! ## Both -/

/-- The store in which the administrator is looked for. -/
def ready (E : Env Q) (b : Boot) (kv : Kv) : Kv := (backupsPart E b ((settingsPart b kv).2.getLastD kv)).2.getLastD ((settingsPart b kv).2.getLastD kv)

theorem start_eq (C : AuthEnv) (E : Env Q) (b : Boot) {kv : Kv} (h : SoundKv kv) :
    ∃ l, (∀ k ∈ l, SoundKv k ∧ Still kv k ∧ (loadSettings k = .ok (settingsOf kv) ∨ loadSettings k = .ok (withKeys b (settingsOf kv)))) ∧
      l ≠ [] ∧ l.getLastD kv = ready E b kv ∧
      SoundKv (ready E b kv) ∧ Still kv (ready E b kv) ∧ loadSettings (ready E b kv) = .ok (withKeys b (settingsOf kv)) ∧
      start C E b kv = if b.ui then ((adminPart C b (ready E b kv)).1, l ++ (adminPart C b (ready E b kv)).2) else (.error .notFound, l) := by
  obtain ⟨a1, a2, a3, a4⟩ := settingsPart_spec E b h
  have hk : SoundKv ((settingsPart b kv).2.getLastD kv) ∧ Still kv ((settingsPart b kv).2.getLastD kv) := by
    rcases getLastD_mem (settingsPart b kv).2 kv with e | e
    · rw [e]; exact ⟨h, .refl _⟩
    · exact ⟨(a2 _ e).1, (a2 _ e).2.1⟩
  unfold start ready
  generalize hk1 : (settingsPart b kv).2.getLastD kv = k1 at *
  obtain ⟨b1, b2⟩ := backupsPart_spec E b hk.1
  refine ⟨(settingsPart b kv).2 ++ (backupsPart E b k1).2, fun k hk' => ?_, by simp [a3], ?_, ?_⟩
  · rcases List.mem_append.mp hk' with hk' | hk'
    · exact ⟨(a2 k hk').1, (a2 k hk').2.1, (a2 k hk').2.2.1⟩
    · obtain ⟨c1, c2, c3⟩ := b2 k hk'
      exact ⟨c1, hk.2.trans c2, .inr ((load_same c3).trans a4)⟩
  · rw [List.getLastD_eq_getLast?, List.getLast?_append, ← hk1, List.getLastD_eq_getLast?]
    cases (backupsPart E b ((settingsPart b kv).2.getLastD kv)).2.getLast? <;> simp [List.getLastD_eq_getLast?]
  · have hr : SoundKv ((backupsPart E b k1).2.getLastD k1) ∧ Still kv ((backupsPart E b k1).2.getLastD k1) ∧
        loadSettings ((backupsPart E b k1).2.getLastD k1) = .ok (withKeys b (settingsOf kv)) := by
      rcases getLastD_mem (backupsPart E b k1).2 k1 with e | e
      · rw [e]; exact ⟨hk.1, hk.2, a4⟩
      · obtain ⟨c1, c2, c3⟩ := b2 _ e
        exact ⟨c1, hk.2.trans c2, (load_same c3).trans a4⟩
    refine ⟨hr.1, hr.2.1, hr.2.2, ?_⟩
    simp only [Part.next, a1, hk1, b1]
    cases b.ui <;> simp

end OptiPrism.Platform
