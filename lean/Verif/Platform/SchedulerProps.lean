import Verif.Platform.SchedulerSpec
import Verif.Platform.SchedulerBase
import Verif.Platform.AdminApiProps

/-!
# C148: what the scheduler of backups does
-/

namespace OptiPrism.Platform
open OptiPrism.Meta

variable {Q : Type}

/-! ## The schedule -/

theorem due_iff {iv : Interval} {h : Nat} {t : Int} : (dueAt iv h (t / 60) = true) ↔ Scheduled iv h t := by
  constructor
  · intro hd
    unfold dueAt at hd
    simp only [Bool.and_eq_true, decide_eq_true_eq] at hd
    obtain ⟨h0, hd⟩ := hd
    generalize hday : t / 60 / 1440 + 719162 = day at hd
    obtain ⟨c1, c2, c3, c4, c5⟩ := Query.civil_spec day
    refine ⟨Query.yearOf day, Query.monthOf day, Query.dayOf day, t / 60 / 60 % 24, t % 60, c1, c2, c3, c4, by omega, by omega, by omega, by omega, ?_, ?_⟩
    · rw [c5]; omega
    · rw [c5]
      cases iv <;> simp only [Bool.and_eq_true, decide_eq_true_eq] at hd ⊢ <;> first | trivial | exact hd | exact ⟨hd.1.1, hd.1.2, hd.2⟩
  · rintro ⟨y, m, d, hr, s, c1, c2, c3, c4, h0, h1, s0, s1, ht, hm⟩
    obtain ⟨-, e2, e3⟩ := Query.dayNum_civil c1 c2 c3 c4
    have a1 : t / 60 / 1440 + 719162 = Query.dayNum y m d := by omega
    have a2 : t / 60 / 60 % 24 = hr := by omega
    have a3 : t / 60 % 60 = 0 := by omega
    unfold dueAt
    simp only [a1, a2, a3, e2, e3]
    cases iv <;> simp_all

theorem cronOk_of {s : Settings} {m : Int} (h : dueAt s.interval s.startHour m = true) : cronOk s = true := by
  unfold dueAt at h
  unfold cronOk
  simp only [Bool.and_eq_true, decide_eq_true_eq] at h
  obtain ⟨-, h⟩ := h
  cases hi : s.interval <;> rw [hi] at h <;> simp only [Bool.and_eq_true, decide_eq_true_eq] at h <;> simp <;> omega

/-! ## Runs -/

theorem ended_job {p : Provider} {o : Outcome} : Ended p o ((jobStatuses p o).getLast?.getD .idle) := by
  have hlast : ∀ (l : List Nat), ∀ st, (l.map BackupStatus.inProgress).getLast?.getD .idle = st → st ≠ .completed := by
    intro l st h e
    subst e
    cases hl : (l.map BackupStatus.inProgress).getLast? with
    | none => rw [hl] at h; cases h
    | some x =>
      rw [hl] at h
      obtain ⟨y, -, rfl⟩ := List.mem_map.mp (List.mem_of_getLast? hl)
      cases h
  have hq := hlast o.progress _ rfl
  rcases o with ⟨pr, a, d⟩
  unfold jobStatuses
  cases a <;> cases p <;> cases d <;> constructor <;> simp_all

theorem sinkOf_iff {s : Settings} {b : Backup} {k : Sink} : sinkOf s b = some k ↔ FileOf s b k := by
  unfold sinkOf hourOf
  constructor
  · intro h
    split at h
    · next hp => cases h; exact .data hp
    · next hp => cases h; exact .bucket hp
    · cases h
  · intro h
    cases h with
    | data hp => rw [hp]
    | bucket hp => rw [hp]

theorem runJob_file {E : Env Q} {s : Settings} {b : Backup} {clock : Nat → Time} {o : Outcome} {w : Server} (k : Sink) :
    (runJob E s b clock o w).files k = some (b.id, decide (o.archive = .ok)) ∧ FileOf s b k ∧ o.archive ≠ .panic ∧ o.deliver = .ok ∨
    (runJob E s b clock o w).files k = w.files k ∧ ¬ (FileOf s b k ∧ o.archive ≠ .panic ∧ o.deliver = .ok) := by
  show Outcome.write s b o w.files k = _ ∧ _ ∨ Outcome.write s b o w.files k = _ ∧ _
  unfold Outcome.write
  cases hk : sinkOf s b with
  | none => exact .inr ⟨rfl, fun h => by rw [sinkOf_iff.mpr h.1] at hk; cases hk⟩
  | some k' =>
    dsimp only
    split
    · next hc =>
      by_cases he : k = k'
      · subst he; exact .inl ⟨if_pos rfl, sinkOf_iff.mp hk, hc⟩
      · exact .inr ⟨if_neg he, fun h => he (by rw [sinkOf_iff.mpr h.1] at hk; exact Option.some.inj hk)⟩
    · next hc => exact .inr ⟨rfl, fun h => hc h.2⟩

theorem runJob_alive {E : Env Q} {s : Settings} {b : Backup} {clock : Nat → Time} {o : Outcome} {w : Server} :
    (runJob E s b clock o w).alive = false ↔ o.archive = .panic ∨ (o.deliver = .panic ∧ ∀ x y z, b.provider ≠ .s3 x y z) := by
  show (!Outcome.halts b.provider o) = false ↔ _
  unfold Outcome.halts
  by_cases ha : o.archive = .panic <;> cases b.provider <;> simp [ha]

theorem get_same {c : Coll α} {Valid Valid' : α → Prop} {kv kv' : Kv} (h : c.Inv Valid kv) (h' : c.Inv Valid' kv') {id : Nat}
    (he : c.live kv' id = c.live kv id) : c.getById id kv' = c.getById id kv := by
  rw [getById_eq h, getById_eq h', he]

theorem get_none {c : Coll α} {Valid : α → Prop} {kv : Kv} (h : c.Inv Valid kv) {id : Nat} : c.getById id kv = .error .notFound ↔ c.live kv id = none := by
  rw [getById_eq h]
  cases c.live kv id <;> simp

/-! ## C148 -/

/-- While backups are off nothing happens. -/
theorem C148_off {E : Env Q} {w : Server} {s : Settings} (hs : loadSettings w.kv = .ok s) (hoff : s.backupEnabled = false) (ts : List Turn) :
    turns E ts w = w := by
  induction ts with
  | nil => rfl
  | cons t ts ih =>
    show turns E ts (turn E t w) = w
    rw [show turn E t w = w by unfold turn; rw [hs]; simp [hoff]]
    exact ih

/-- While a backup waits, a turn runs one that waits and makes none. -/
theorem C148_waiting {E : Env Q} {n : Nat} {w : Server} (h : Hist E n w.kv) (hal : w.alive = true) {s : Settings} (hs : loadSettings w.kv = .ok s)
    (hon : s.backupEnabled = true) {id0 : Nat} {b0 : Backup} (h0 : backupsC.getById id0 w.kv = .ok b0) (hw : b0.status = .idle) {t : Turn}
    (ho : Fits t.out) (hn : n + t.cost < 2 ^ 62) :
    ∃ id b b', backupsC.getById id w.kv = .ok b ∧ b.status = .idle ∧ RunOf s t.out id w (turn E t w) b b' := by
  have hn' : n + t.out.progress.length + 4 < 2 ^ 62 := by unfold Turn.cost at hn; omega
  have hi := (hist_backups h (by omega)).inv backups_ok
  have hl0 := live_get hi h0
  obtain ⟨l, hl, hm⟩ := list_live h (by omega)
  cases hf : firstIdle l with
  | none =>
    exact absurd hw (firstIdle_none hf b0 ((hm b0).mpr (by rw [show b0.id = id0 from (Inv.live_id hi hl0).1]; exact hl0)))
  | some b =>
    obtain ⟨h1, h2⟩ := firstIdle_some hf
    have ht : turn E t w = runJob E s b t.clock t.out w := by
      unfold turn
      simp [hal, hs, hon, hl, hf]
    have hb := (hm b).mp h1
    obtain ⟨⟨m, hm1, hm2⟩, -, r3, r4⟩ := runJob_spec h s b t.clock ho (by omega)
    obtain ⟨b', e1, e2, e3⟩ := r4 hb
    have hi' := (hist_backups hm2 (by omega)).inv backups_ok
    rw [h2] at e2
    rw [ht]
    exact ⟨b.id, b, b', get_live hi hb, h2, get_live hi' e1, e2 ▸ ended_job, e3, fun j hj => get_same hi hi' (r3 j hj), runJob_file, runJob_alive⟩

/-- A backup asked for through the API is the one the next turn runs, as long as backups are still on. -/
theorem C148_asked {N : Type} (A : AdminEnv N) {E : Env Q} {n : Nat} {kv : Kv} (h : Hist E n kv) {ctx : Ctx} {now : Time} {j : JBackup} {w : Server}
    (hc : AdminCall.backup.run A ctx now kv = (some (.ok (.backup j)), w.kv)) (hal : w.alive = true) {s : Settings} (hs : loadSettings w.kv = .ok s)
    (hon : s.backupEnabled = true) {t : Turn} (ho : Fits t.out) (hn : n + 1 + t.cost < 2 ^ 62) :
    ∃ b b', backupsC.getById j.id w.kv = .ok b ∧ RunOf s t.out j.id w (turn E t w) b b' := by
  have hc := (ran_act hc).2
  change makeBackup now kv = _ at hc
  unfold makeBackup at hc
  split at hc
  · cases hc
  · next s0 hs0 =>
    split at hc
    · cases hc
    · obtain ⟨r, e, er⟩ := telling_ok hc
      cases er
      have hi := (hist_backups h (by omega)).inv backups_ok
      have h1 := h.step (.backupCreate now (fromSettings now s0) : Req Q) (fun _ h => by cases h)
      rw [show Req.exec E (.backupCreate now (fromSettings now s0)) kv = w.kv from congrArg Prod.snd e] at h1
      have hi1 := (hist_backups h1 (by omega)).inv backups_ok
      have e0 := apiCall_ok e
      rcases create_exec h (by omega) (now := now) (req := fromSettings now s0) (fun _ e => by cases e) with ⟨e1, -⟩ | ⟨hno, b, kv', e1, e2, -, e3⟩
      · rw [e1] at e0; cases e0
      · rw [e1] at e0
        obtain ⟨rfl, rfl⟩ : b = r ∧ kv' = w.kv := by injection e0 with e0; injection e0 with a b; exact ⟨a, b⟩
        have hl := e3 b.id
        rw [if_pos rfl] at hl
        obtain ⟨id, c, c', g1, g2, g3⟩ := C148_waiting h1 hal hs hon (get_live hi1 hl) e2 ho (by omega)
        have hid : id = b.id := by
          by_cases hj : id = b.id
          · exact hj
          · have := live_get hi1 g1
            rw [e3, if_neg hj] at this
            exact absurd g2 (hno rfl _ _ this)
        rw [hid] at g1 g3
        exact ⟨c, c', g1, g3⟩

/-- A turn makes a backup exactly when backups are on, none waits, the minute is one of the schedule, the archive does not go to S3, and the backup with the
greatest number, as a string, is not of this minute. -/
theorem C148_made {E : Env Q} {n : Nat} {w : Server} (h : Hist E n w.kv) {t : Turn} (ho : Fits t.out) (hn : n + t.cost < 2 ^ 62) :
    (∃ id b, Appeared w.kv (turn E t w).kv id b) ↔
      w.alive = true ∧ ∃ s, loadSettings w.kv = .ok s ∧ s.backupEnabled = true ∧ (∀ id b, backupsC.getById id w.kv = .ok b → b.status ≠ .idle) ∧
        Scheduled s.interval s.startHour t.now.sec.toInt ∧ s.provider ≠ .s3 ∧
        ∀ id b, Topmost w.kv id b → b.createdAt.sec.toInt / 60 ≠ t.now.sec.toInt / 60 := by
  have hn' : n + t.out.progress.length + 4 < 2 ^ 62 := by unfold Turn.cost at hn; omega
  have hi := (hist_backups h (by omega)).inv backups_ok
  constructor
  · rintro ⟨id, b, a1, a2⟩
    rcases turn_cases h (by omega) t with ⟨e, -⟩ | ⟨s, b0, hal, hs, hen, hb, hid, e⟩ | ⟨s, kv1, hal, hs, hen, hno, -, hdue, hlast, hs3, h1, -, -, -⟩
    · rw [e, a1] at a2; cases a2
    · rw [e] at a2
      obtain ⟨⟨m, hm1, hm2⟩, -, r3, -⟩ := runJob_spec h s b0 t.clock ho (by omega)
      have hi' := (hist_backups hm2 (by omega)).inv backups_ok
      by_cases hj : id = b0.id
      · rw [hj, get_live hi hb] at a1; cases a1
      · rw [get_same hi hi' (r3 id hj), a1] at a2; cases a2
    · refine ⟨hal, s, hs, hen, fun i c hc => hno i c (live_get hi hc), due_iff.mp hdue, hs3, fun i c hc => ?_⟩
      have hl := live_get hi hc.1
      have hci : c.id = i := (Inv.live_id hi hl).1
      exact hlast c (by rw [hci]; exact hl) (fun i' c' hc' => by rw [hci]; exact hc.2 i' c' (get_live hi hc'))
  · rintro ⟨hal, s, hs, hen, hno, hdue, hs3, hlast⟩
    have hdue := due_iff.mpr hdue
    obtain ⟨l, hl, hm⟩ := list_live h (by omega)
    have hf : firstIdle l = none := by
      cases hf : firstIdle l with
      | none => rfl
      | some b =>
        obtain ⟨h1, h2⟩ := firstIdle_some hf
        exact absurd h2 (hno _ b (get_live hi ((hm b).mp h1)))
    have hmin : madeThisMinute t.now l = false := by
      unfold madeThisMinute
      cases hk : keyLast l with
      | none => rfl
      | some b =>
        obtain ⟨h1, h2⟩ := keyLast_some hk
        refine decide_eq_false (hlast b.id b ⟨get_live hi ((hm b).mp h1), fun i c hc => ?_⟩)
        have hlc := live_get hi hc
        have hci : c.id = i := (Inv.live_id hi hlc).1
        rw [← hci]
        exact h2 c ((hm c).mpr (by rw [hci]; exact hlc))
    have ht : turn E t w = schedule E s l t w := by
      unfold turn
      simp [hal, hs, hen, hl, hf, cronOk_of hdue, show dueAt s.interval s.startHour (minuteOf t.now) = true from hdue]
    have h2 := C38_create h (by omega) (now := t.now) (req := fromSettings t.now s) rfl
    obtain ⟨b, hb, -⟩ := h2.2 (fun e => by
      obtain ⟨i, c, g1, g2⟩ := h2.1.mp e
      exact hno i c g1 g2)
    rcases create_exec h (by omega) (now := t.now) (req := fromSettings t.now s) (fun _ e => by cases e) with ⟨-, -, i, c, g1, g2⟩ | ⟨-, b, kv1, e, -, e2, e3⟩
    · exact absurd g2 (hno i c (get_live hi g1))
    · have er : runCall (backupCreate t.now (fromSettings t.now s)) w.kv = (.ok b, kv1) := by unfold runCall; rw [e]
      have h1 : Hist E (n + 1) kv1 := by
        have h1 := h.step (.backupCreate t.now (fromSettings t.now s) : Req Q) (fun _ h => by cases h)
        rwa [show Req.exec E (.backupCreate t.now (fromSettings t.now s)) w.kv = kv1 from congrArg Prod.snd er] at h1
      have ht2 : turn E t w = runJob E s b t.clock t.out { w with kv := kv1 } := by
        rw [ht]
        unfold schedule
        rw [hmin, er]
        simp [hs3]
      obtain ⟨⟨m, hm1, hm2⟩, -, -, r4⟩ := runJob_spec (w := { w with kv := kv1 }) h1 s b t.clock ho (by omega)
      obtain ⟨b', g1, -⟩ := r4 (c := b.norm) (by rw [e3, if_pos rfl])
      rw [ht2]
      exact ⟨b.id, b', (get_none hi).mpr e2, get_live ((hist_backups hm2 (by omega)).inv backups_ok) g1⟩

/-- The backup made is the one the settings ask for, and it is run at once; nothing else changes. -/
theorem C148_scheduled {E : Env Q} {n : Nat} {w : Server} (h : Hist E n w.kv) {t : Turn} (ho : Fits t.out) (hn : n + t.cost < 2 ^ 62) {id : Nat} {b' : Backup}
    (ha : Appeared w.kv (turn E t w).kv id b') :
    ∃ s b, loadSettings w.kv = .ok s ∧
      (match s.provider with
        | .localDir => b.provider = .localDir s.localPath
        | .s3 => False
        | .gcp => b.provider = .gcp s.gcpBucket s.gcpPath) ∧
      b.createdAt = t.now ∧ b.isEncrypted = s.encryptionEnabled ∧ b.password = (if s.encryptionEnabled then some s.encryptionPassword else none) ∧
      RunOf s t.out id w (turn E t w) b b' := by
  have hn' : n + t.out.progress.length + 4 < 2 ^ 62 := by unfold Turn.cost at hn; omega
  have hi := (hist_backups h (by omega)).inv backups_ok
  obtain ⟨a1, a2⟩ := ha
  rcases turn_cases h (by omega) t with ⟨e, -⟩ | ⟨s, b0, hal, hs, hen, hb, hid, e⟩ | ⟨s, kv1, hal, hs, hen, hno, -, hdue, hlast, hs3, h1, hnew, hl1, e⟩
  · rw [e, a1] at a2; cases a2
  · rw [e] at a2
    obtain ⟨⟨m, hm1, hm2⟩, -, r3, -⟩ := runJob_spec h s b0 t.clock ho (by omega)
    have hi' := (hist_backups hm2 (by omega)).inv backups_ok
    by_cases hj : id = b0.id
    · rw [hj, get_live hi hb] at a1; cases a1
    · rw [get_same hi hi' (r3 id hj), a1] at a2; cases a2
  · rw [e] at a2 ⊢
    generalize hN : Meta.lastId w.kv backupsC.ns + 1 = N at *
    obtain ⟨⟨m, hm1, hm2⟩, -, r3, r4⟩ := runJob_spec (w := { w with kv := kv1 }) h1 s (madeBy t.now s N) t.clock ho (by omega)
    have hi' := (hist_backups hm2 (by omega)).inv backups_ok
    have hid : id = N := by
      by_cases hj : id = N
      · exact hj
      · have := r3 id hj
        rw [hl1, if_neg hj] at this
        rw [get_same hi hi' this, a1] at a2; cases a2
    obtain ⟨c, g1, g2, g3, g4, g5, g6⟩ := r4 (c := (madeBy t.now s N).norm) (by rw [show (madeBy t.now s N).id = N from rfl, hl1, if_pos rfl])
    subst hid
    have hcb : c = b' := by
      have := get_live hi' g1
      rw [show (madeBy t.now s id).id = id from rfl, a2] at this
      exact (Except.ok.inj this).symm
    subst hcb
    refine ⟨s, madeBy t.now s id, hs, ?_, rfl, rfl, rfl, a2, ?_, ⟨g3, g4, g5, g6⟩, fun j hj => get_same hi hi' ?_, fun k => ?_, ?_⟩
    · cases hp : s.provider with
      | s3 => exact hs3 hp
      | localDir => simp [madeBy, fromSettings, providerOf, hp]
      | gcp => simp [madeBy, fromSettings, providerOf, hp]
    · rw [g2]; exact ended_job
    · rw [r3 j hj, hl1, if_neg hj]
    · exact runJob_file (E := E) (w := { w with kv := kv1 }) (clock := t.clock) (b := madeBy t.now s id) k
    · exact runJob_alive

/-- A backup that does not wait is never touched by the loop. -/
theorem C148_untouched {E : Env Q} {ts : List Turn} : ∀ {n : Nat} {w : Server}, Hist E n w.kv → (∀ t ∈ ts, Fits t.out) → n + (ts.map Turn.cost).sum < 2 ^ 62 →
    ∀ {id : Nat} {b : Backup}, backupsC.getById id w.kv = .ok b → b.status ≠ .idle → backupsC.getById id (turns E ts w).kv = .ok b := by
  induction ts with
  | nil => intro n w _ _ _ id b hb _; exact hb
  | cons t ts ih =>
    intro n w h ho hn id b hb hid
    show backupsC.getById id (turns E ts (turn E t w)).kv = _
    have ho1 := ho t (List.mem_cons_self ..)
    rw [List.map_cons, List.sum_cons] at hn
    have hn' : n + t.out.progress.length + 4 + (ts.map Turn.cost).sum < 2 ^ 62 := by unfold Turn.cost at hn ⊢; omega
    have hi := (hist_backups h (by omega)).inv backups_ok
    have ho2 : ∀ t ∈ ts, Fits t.out := fun t ht => ho t (List.mem_cons_of_mem _ ht)
    rcases turn_cases h (by omega) t with ⟨e, -⟩ | ⟨s, b0, hal, hs, hen, hb0, hid0, e⟩ | ⟨s, kv1, hal, hs, hen, hno, -, hdue, hlast, hs3, h1, hnew, hl1, e⟩
    · exact ih (n := n) (by rw [e]; exact h) ho2 (by omega) (by rw [e]; exact hb) hid
    · obtain ⟨⟨m, hm1, hm2⟩, -, r3, -⟩ := runJob_spec h s b0 t.clock ho1 (by omega)
      have hi' := (hist_backups hm2 (by omega)).inv backups_ok
      have hne : id ≠ b0.id := by
        intro hj
        rw [hj, get_live hi hb0] at hb
        cases hb
        exact hid hid0
      exact ih (n := n + m) (by rw [e]; exact hm2) ho2 (by omega) (by rw [e, get_same hi hi' (r3 id hne)]; exact hb) hid
    · obtain ⟨⟨m, hm1, hm2⟩, -, r3, -⟩ := runJob_spec (w := { w with kv := kv1 }) h1 s (madeBy t.now s (Meta.lastId w.kv backupsC.ns + 1)) t.clock ho1 (by omega)
      have hi' := (hist_backups hm2 (by omega)).inv backups_ok
      have hne : id ≠ Meta.lastId w.kv backupsC.ns + 1 := by
        intro hj
        rw [hj] at hb
        rw [live_get hi hb] at hnew
        cases hnew
      have := r3 id hne
      rw [hl1, if_neg hne] at this
      exact ih (n := n + 1 + m) (by rw [e]; exact hm2) ho2 (by omega) (by rw [e, get_same hi hi' this]; exact hb) hid

theorem turns_hist {E : Env Q} {ts : List Turn} : ∀ {n : Nat} {w : Server}, Hist E n w.kv → (∀ t ∈ ts, Fits t.out) → n + (ts.map Turn.cost).sum < 2 ^ 62 →
    ∃ k, Hist E k (turns E ts w).kv ∧ k ≤ n + (ts.map Turn.cost).sum := by
  induction ts with
  | nil => intro n w h _ _; exact ⟨n, h, by simp⟩
  | cons t ts ih =>
    intro n w h ho hn
    show ∃ k, Hist E k (turns E ts (turn E t w)).kv ∧ _
    have ho1 := ho t (List.mem_cons_self ..)
    rw [List.map_cons, List.sum_cons] at hn ⊢
    have hc : t.cost = t.out.progress.length + 4 := rfl
    have ho2 : ∀ t ∈ ts, Fits t.out := fun t ht => ho t (List.mem_cons_of_mem _ ht)
    have step : ∃ k, k ≤ t.cost ∧ Hist E (n + k) (turn E t w).kv := by
      rcases turn_cases h (by omega) t with ⟨e, -⟩ | ⟨s, b0, hal, hs, hen, hb0, hid0, e⟩ | ⟨s, kv1, hal, hs, hen, hno, -, hdue, hlast, hs3, h1, hnew, hl1, e⟩
      · exact ⟨0, by omega, by rw [e]; exact h⟩
      · obtain ⟨⟨k, hk1, hk2⟩, -⟩ := runJob_spec h s b0 t.clock ho1 (by omega)
        exact ⟨k, by omega, by rw [e]; exact hk2⟩
      · obtain ⟨⟨k, hk1, hk2⟩, -⟩ := runJob_spec (w := { w with kv := kv1 }) h1 s (madeBy t.now s (Meta.lastId w.kv backupsC.ns + 1)) t.clock ho1 (by omega)
        exact ⟨1 + k, by omega, by rw [e, ← Nat.add_assoc]; exact hk2⟩
    obtain ⟨k, k1, k2⟩ := step
    obtain ⟨k', i1, i2⟩ := ih k2 ho2 (by omega)
    exact ⟨k', i1, by omega⟩

/-- The number of a backup is the last in the order of strings among those up to it. -/
def Leads (n : Nat) : Prop := ∀ k, 0 < k → k ≤ n → decimal k ≤ decimal n

theorem minute_norm (now : Time) (s : Settings) (id : Nat) : minuteOf (madeBy now s id).norm.createdAt = minuteOf now := rfl

/-- After a backup of this minute with the greatest number, no turn of this minute makes another. -/
theorem no_more {E : Env Q} {N : Nat} (hN : Leads N) {m : Int} {ts : List Turn} : ∀ {n : Nat} {w : Server}, Hist E n w.kv → (∀ t ∈ ts, Fits t.out) →
    (∀ t ∈ ts, minuteOf t.now = m) → n + (ts.map Turn.cost).sum < 2 ^ 62 → ∀ {b : Backup}, backupsC.live w.kv N = some b → minuteOf b.createdAt = m →
    (∀ id c, backupsC.live w.kv id = some c → id ≤ N) → ∀ id, backupsC.live w.kv id = none → backupsC.live (turns E ts w).kv id = none := by
  induction ts with
  | nil => intro n w _ _ _ _ b _ _ _ id h; exact h
  | cons t ts ih =>
    intro n w h ho hm hn b hb hbm hle id hid
    show backupsC.live (turns E ts (turn E t w)).kv id = none
    have ho1 := ho t (List.mem_cons_self ..)
    rw [List.map_cons, List.sum_cons] at hn
    have hn' : n + t.out.progress.length + 4 + (ts.map Turn.cost).sum < 2 ^ 62 := by unfold Turn.cost at hn ⊢; omega
    have hi := (hist_backups h (by omega)).inv backups_ok
    have ho2 : ∀ t ∈ ts, Fits t.out := fun t ht => ho t (List.mem_cons_of_mem _ ht)
    have hm2 : ∀ t ∈ ts, minuteOf t.now = m := fun t ht => hm t (List.mem_cons_of_mem _ ht)
    rcases turn_cases h (by omega) t with ⟨e, -⟩ | ⟨s, b0, hal, hs, hen, hb0, hid0, e⟩ | ⟨s, kv1, hal, hs, hen, hno, -, hdue, hlast, hs3, h1, hnew, hl1, e⟩
    · exact ih (n := n) (by rw [e]; exact h) ho2 hm2 (by omega) (b := b) (by rw [e]; exact hb) hbm (by rw [e]; exact hle) id (by rw [e]; exact hid)
    · obtain ⟨⟨k, hk1, hk2⟩, -, r3, r4⟩ := runJob_spec h s b0 t.clock ho1 (by omega)
      obtain ⟨c', g1, -, -, g4, -⟩ := r4 hb0
      have hb' : ∃ b', backupsC.live (turn E t w).kv N = some b' ∧ minuteOf b'.createdAt = m := by
        rw [e]
        by_cases hj : N = b0.id
        · rw [hj]
          rw [hj, hb0] at hb
          cases hb
          exact ⟨c', g1, by unfold minuteOf at hbm ⊢; rw [g4]; exact hbm⟩
        · exact ⟨b, by rw [r3 N hj]; exact hb, hbm⟩
      obtain ⟨b', hb1, hb2⟩ := hb'
      refine ih (n := n + k) (by rw [e]; exact hk2) ho2 hm2 (by omega) hb1 hb2 (fun i c hc => ?_) id ?_
      · rw [e] at hc
        by_cases hj : i = b0.id
        · rw [hj]; exact hle _ _ hb0
        · rw [r3 i hj] at hc; exact hle _ _ hc
      · rw [e]
        have hne : id ≠ b0.id := by intro hj; rw [hj, hb0] at hid; cases hid
        rw [r3 id hne]; exact hid
    · have hbi : b.id = N := (Inv.live_id hi hb).1
      refine absurd (hbm.trans (hm t (List.mem_cons_self ..)).symm) (hlast b (by rw [hbi]; exact hb) (fun i c hc => ?_))
      rw [hbi]
      exact hN i (Inv.live_id hi hc).2.1 (hle i c hc)

/-- C148, the part that holds of making one backup a minute: the turns of a minute make at most one backup, if the number of the next leads all before it in the
order of strings, as the first nine do. Missing: the other numbers, from the tenth backup on (`C148_once_violated`). -/
theorem C148_once_partial {E : Env Q} {m : Int} {ts : List Turn} : ∀ {n : Nat} {w : Server}, Hist E n w.kv → Leads (Meta.lastId w.kv backupsC.ns + 1) →
    (∀ t ∈ ts, Fits t.out) → (∀ t ∈ ts, t.now.sec.toInt / 60 = m) → n + (ts.map Turn.cost).sum < 2 ^ 62 →
    ∀ {id id' : Nat} {b b' : Backup}, Appeared w.kv (turns E ts w).kv id b → Appeared w.kv (turns E ts w).kv id' b' → id = id' := by
  have key : ∀ {ts : List Turn} {n : Nat} {w : Server}, Hist E n w.kv → Leads (Meta.lastId w.kv backupsC.ns + 1) →
      (∀ t ∈ ts, Fits t.out) → (∀ t ∈ ts, minuteOf t.now = m) → n + (ts.map Turn.cost).sum < 2 ^ 62 →
      (∃ k, Hist E k (turns E ts w).kv ∧ k ≤ n + (ts.map Turn.cost).sum) ∧
      ∀ id, backupsC.live w.kv id = none → id ≠ Meta.lastId w.kv backupsC.ns + 1 → backupsC.live (turns E ts w).kv id = none := by
    intro ts
    induction ts with
    | nil => intro n w h _ _ _ _; exact ⟨⟨n, h, by simp⟩, fun id h _ => h⟩
    | cons t ts ih =>
      intro n w h hN ho hm hn
      have ho1 := ho t (List.mem_cons_self ..)
      rw [List.map_cons, List.sum_cons] at hn
      have hc : t.cost = t.out.progress.length + 4 := rfl
      have hi := (hist_backups h (by omega)).inv backups_ok
      have ho2 : ∀ t ∈ ts, Fits t.out := fun t ht => ho t (List.mem_cons_of_mem _ ht)
      have hm2 : ∀ t ∈ ts, minuteOf t.now = m := fun t ht => hm t (List.mem_cons_of_mem _ ht)
      show (∃ k, Hist E k (turns E ts (turn E t w)).kv ∧ _) ∧ ∀ id, _ → _ → backupsC.live (turns E ts (turn E t w)).kv id = none
      rw [List.map_cons, List.sum_cons]
      rcases turn_cases h (by omega) t with ⟨e, -⟩ | ⟨s, b0, hal, hs, hen, hb0, hid0, e⟩ | ⟨s, kv1, hal, hs, hen, hno, -, hdue, hlast, hs3, h1, hnew, hl1, e⟩
      · obtain ⟨⟨k, i1, i2⟩, i3⟩ := ih (n := n) (w := turn E t w) (by rw [e]; exact h) (by rw [e]; exact hN) ho2 hm2 (by omega)
        exact ⟨⟨k, i1, by omega⟩, fun id => by rw [e] at i3; exact i3 id⟩
      · obtain ⟨⟨k, hk1, hk2⟩, r2, r3, -⟩ := runJob_spec h s b0 t.clock ho1 (by omega)
        obtain ⟨⟨k', i1, i2⟩, i3⟩ := ih (n := n + k) (w := turn E t w) (by rw [e]; exact hk2) (by rw [e, r2]; exact hN) ho2 hm2 (by omega)
        refine ⟨⟨k', i1, by omega⟩, fun id hl hne => i3 id ?_ (by rw [e, r2]; exact hne)⟩
        have hne : id ≠ b0.id := by intro hj; rw [hj, hb0] at hl; cases hl
        rw [e, r3 id hne]; exact hl
      · generalize hNN : Meta.lastId w.kv backupsC.ns + 1 = N at *
        obtain ⟨⟨k, hk1, hk2⟩, -, r3, r4⟩ := runJob_spec (w := { w with kv := kv1 }) h1 s (madeBy t.now s N) t.clock ho1 (by omega)
        obtain ⟨c', g1, -, -, g4, -⟩ := r4 (c := (madeBy t.now s N).norm) (by rw [show (madeBy t.now s N).id = N from rfl, hl1, if_pos rfl])
        have hmin : minuteOf c'.createdAt = m := by
          unfold minuteOf; rw [g4]; exact (minute_norm t.now s N).trans (hm t (List.mem_cons_self ..))
        have hle : ∀ i c, backupsC.live (turn E t w).kv i = some c → i ≤ N := by
          intro i c hc
          by_cases hj : i = N
          · omega
          · rw [e, r3 i hj, hl1, if_neg hj] at hc
            have := (Inv.live_id hi hc).2.2.1
            omega
        have hist2 : Hist E (n + 1 + k) (turn E t w).kv := by rw [e]; exact hk2
        refine ⟨?_, fun id hl hne => no_more hN hist2 ho2 hm2 (by omega) (b := c') (by rw [e]; exact g1) hmin hle id ?_⟩
        · have hreach : ∀ {ts : List Turn} {n : Nat} {w : Server}, Hist E n w.kv → (∀ t ∈ ts, Fits t.out) → n + (ts.map Turn.cost).sum < 2 ^ 62 →
              ∃ k, Hist E k (turns E ts w).kv ∧ k ≤ n + (ts.map Turn.cost).sum := turns_hist
          obtain ⟨k', i1, i2⟩ := hreach hist2 ho2 (by omega)
          exact ⟨k', i1, by omega⟩
        · rw [e, r3 id hne, hl1, if_neg hne]; exact hl
  intro n w h hN ho hm hn id id' b b' a a'
  obtain ⟨⟨k, i1, i2⟩, i3⟩ := key h hN ho hm hn
  have hi := (hist_backups h (by omega)).inv backups_ok
  have hi' := (hist_backups i1 (by omega)).inv backups_ok
  have one : ∀ {id : Nat} {b : Backup}, Appeared w.kv (turns E ts w).kv id b → id = Meta.lastId w.kv backupsC.ns + 1 := by
    intro id b a
    by_cases hj : id = Meta.lastId w.kv backupsC.ns + 1
    · exact hj
    · have := i3 id ((get_none hi).mp a.1) hj
      rw [live_get hi' a.2] at this
      cases this
  rw [one a, one a']

/-- The first nine numbers lead. -/
theorem C148_leads {n : Nat} (h : n ≤ 9) : Leads n := by
  have key : ∀ n : Fin 10, ∀ k : Fin 10, k.val ≤ n.val → decimal k.val ≤ decimal n.val := by decide +kernel
  exact fun k _ hk => key ⟨n, by omega⟩ ⟨k, by omega⟩ hk

/-! ## Files -/

/-- The hour in the name of a file. -/
def Sink.hour : Sink → Int
  | .data h => h
  | .bucket _ _ h => h

/-- C148, the part that holds of keeping archives: a turn leaves a file alone unless it completes a backup of the hour of the file, whose archive then takes
its place. Missing: that the backup is the one the file was of (`C148_once_violated`, and `C147_backup_file_violated` for backups asked for). -/
theorem C148_kept_partial {E : Env Q} {n : Nat} {w : Server} (h : Hist E n w.kv) {t : Turn} (ho : Fits t.out) (hn : n + t.cost < 2 ^ 62) (k : Sink) :
    (turn E t w).files k = w.files k ∨
    ∃ id b, (turn E t w).files k = some (id, decide (t.out.archive = .ok)) ∧ backupsC.getById id (turn E t w).kv = .ok b ∧ b.status = .completed ∧
      b.createdAt.sec.toInt / 3600 = k.hour ∧ backupsC.getById id w.kv ≠ backupsC.getById id (turn E t w).kv := by
  have hn' : n + t.out.progress.length + 4 < 2 ^ 62 := by unfold Turn.cost at hn; omega
  have hi := (hist_backups h (by omega)).inv backups_ok
  have hour : ∀ {s : Settings} {b : Backup}, FileOf s b k → b.createdAt.sec.toInt / 3600 = k.hour := by
    intro s b hf
    cases hf <;> rfl
  rcases turn_cases h (by omega) t with ⟨-, e⟩ | ⟨s, b0, hal, hs, hen, hb0, hid0, e⟩ | ⟨s, kv1, hal, hs, hen, hno, -, hdue, hlast, hs3, h1, hnew, hl1, e⟩
  · exact .inl (by rw [e])
  · rw [e]
    rcases runJob_file (E := E) (s := s) (b := b0) (clock := t.clock) (o := t.out) (w := w) k with ⟨f1, f2, f3, f4⟩ | ⟨f1, -⟩
    · obtain ⟨⟨m, hm1, hm2⟩, -, -, r4⟩ := runJob_spec h s b0 t.clock ho (by omega)
      have hi' := (hist_backups hm2 (by omega)).inv backups_ok
      obtain ⟨b', e1, e2, -, e4, -⟩ := r4 hb0
      have hst : b'.status = .completed := by rw [e2, hid0]; exact ended_job.completed.mpr ⟨f3, .inl f4⟩
      refine .inr ⟨b0.id, b', f1, get_live hi' e1, hst, by rw [e4]; exact hour f2, ?_⟩
      rw [get_live hi hb0, get_live hi' e1]
      intro he
      cases he
      rw [hid0] at hst
      cases hst
    · exact .inl f1
  · rw [e]
    generalize hN : Meta.lastId w.kv backupsC.ns + 1 = N at *
    rcases runJob_file (E := E) (s := s) (b := madeBy t.now s N) (clock := t.clock) (o := t.out) (w := { w with kv := kv1 }) k with ⟨f1, f2, f3, f4⟩ | ⟨f1, -⟩
    · obtain ⟨⟨m, hm1, hm2⟩, -, -, r4⟩ := runJob_spec (w := { w with kv := kv1 }) h1 s (madeBy t.now s N) t.clock ho (by omega)
      have hi' := (hist_backups hm2 (by omega)).inv backups_ok
      obtain ⟨b', e1, e2, -, e4, -⟩ := r4 (c := (madeBy t.now s N).norm) (by rw [show (madeBy t.now s N).id = N from rfl, hl1, if_pos rfl])
      have g : backupsC.getById N _ = .ok b' := get_live hi' e1
      refine .inr ⟨N, b', f1, g, ?_, ?_, ?_⟩
      · rw [e2]; exact ended_job.completed.mpr ⟨f3, .inl f4⟩
      · rw [show b'.createdAt.sec = (madeBy t.now s N).createdAt.sec from e4]; exact hour f2
      · rw [(get_none hi).mpr hnew, g]
        intro he
        cases he
    · exact .inl f1

/-- The directory of the settings plays no part: backups of one hour to any two directories have the same file. -/
theorem C148_directory_violated {s s' : Settings} {b b' : Backup} {d d' : Str} (hb : b.provider = .localDir d) (hb' : b'.provider = .localDir d')
    (hh : b.createdAt.sec.toInt / 3600 = b'.createdAt.sec.toInt / 3600) (k : Sink) : FileOf s b k ↔ FileOf s' b' k := by
  constructor <;> intro h <;> cases h with
  | data => first | (rw [hh]; exact .data hb') | (rw [← hh]; exact .data hb)
  | bucket hp => first | (rw [hb] at hp; cases hp) | (rw [hb'] at hp; cases hp)

/-! ## Starting the server -/

theorem failing {E : Env Q} (clock : Nat → Time) {ids : List Nat} : ∀ {n : Nat} {kv : Kv}, Hist E n kv → n + ids.length < 2 ^ 62 →
    Hist E (n + ids.length) (runReqs E (ids.map fun id => .backupStatus id (clock id) (.failed kRestarted)) kv) ∧
    (∀ j, j ∉ ids → backupsC.live (runReqs E (ids.map fun id => .backupStatus id (clock id) (.failed kRestarted)) kv) j = backupsC.live kv j) ∧
    ∀ j, j ∈ ids → ∀ b, backupsC.live kv j = some b →
      ∃ b', backupsC.live (runReqs E (ids.map fun id => .backupStatus id (clock id) (.failed kRestarted)) kv) j = some b' ∧ b'.status = .failed kRestarted := by
  induction ids with
  | nil => intro n kv h _; exact ⟨h, fun _ _ => rfl, fun _ h => by cases h⟩
  | cons i ids ih =>
    intro n kv h hn
    rw [List.length_cons] at hn
    have hs : ∀ n, BackupStatus.failed kRestarted = .inProgress n → n < 2 ^ 64 := fun _ e => by cases e
    have hx := fun j => status_exec h (by omega) (clock i) hs j (id := i)
    obtain ⟨i1, i2, i3⟩ := ih (h.step (.backupStatus i (clock i) (.failed kRestarted)) hs) (by omega)
    refine ⟨by rw [List.length_cons, show n + (ids.length + 1) = n + 1 + ids.length by omega]; exact i1, fun j hj => ?_, fun j hj b hb => ?_⟩
    · refine (i2 j (fun h => hj (List.mem_cons_of_mem _ h))).trans ?_
      rw [hx, if_neg (fun e : j = i => hj (by rw [e]; exact List.mem_cons_self ..))]
    · have h2 := hx j
      by_cases hji : j = i
      · subst hji
        rw [if_pos rfl, hb] at h2
        by_cases hm : j ∈ ids
        · exact i3 j hm _ h2
        · exact ⟨_, (i2 j hm).trans h2, rfl⟩
      · rw [if_neg hji, hb] at h2
        exact i3 j ((List.mem_cons.mp hj).resolve_left hji) _ h2

/-- When the server starts, the backups in progress are marked as failed, the others stay as they are, and the loop runs. -/
theorem C148_restart {E : Env Q} {n : Nat} {w : Server} (h : Hist E n w.kv) (hn : n < 2 ^ 62) (hroom : ∀ l, backupsC.list w.kv = .ok l → n + l.length < 2 ^ 62)
    (clock : Nat → Time) : ∃ w', restart E clock w = some w' ∧ w'.alive = true ∧ w'.files = w.files ∧
      (∀ id b p, backupsC.getById id w.kv = .ok b → b.status = .inProgress p →
        ∃ b', backupsC.getById id w'.kv = .ok b' ∧ b'.status = .failed "server restarted".toList) ∧
      ∀ id b, backupsC.getById id w.kv = .ok b → (∀ p, b.status ≠ .inProgress p) → backupsC.getById id w'.kv = .ok b := by
  have hi := (hist_backups h hn).inv backups_ok
  obtain ⟨l, hl, hm⟩ := list_live h hn
  have hr := hroom l hl
  unfold restart
  rw [hl]
  dsimp only
  generalize hids : (l.filter fun b => match b.status with | .inProgress _ => true | _ => false).map (·.id) = ids
  have hlen : ids.length ≤ l.length := by rw [← hids, List.length_map]; exact List.length_filter_le ..
  obtain ⟨f1, f2, f3⟩ := failing (E := E) clock (ids := ids) h (by omega)
  have hi' := (hist_backups f1 (by omega)).inv backups_ok
  refine ⟨_, rfl, rfl, rfl, fun id b p hb hp => ?_, fun id b hb hp => ?_⟩
  · have hlv := live_get hi hb
    have hid : b.id = id := (Inv.live_id hi hlv).1
    have hmem : id ∈ ids := by
      rw [← hids, ← hid]
      exact List.mem_map_of_mem (f := fun b : Backup => b.id) (List.mem_filter.mpr ⟨(hm b).mpr (by rw [hid]; exact hlv), by rw [hp]⟩)
    obtain ⟨b', e1, e2⟩ := f3 id hmem b hlv
    exact ⟨b', get_live hi' e1, by rw [e2]; unfold kRestarted; rfl⟩
  · have hlv := live_get hi hb
    have hmem : id ∉ ids := by
      rw [← hids]
      intro hc
      obtain ⟨c, hc1, hc2⟩ := List.mem_map.mp hc
      obtain ⟨hc3, hc4⟩ := List.mem_filter.mp hc1
      have hcl := (hm c).mp hc3
      rw [show c.id = id from hc2, hlv] at hcl
      cases hcl
      split at hc4
      · next q hq => exact hp q hq
      · cases hc4
    exact get_live hi' ((f2 id hmem).trans hlv)

/-! ## What does not hold -/

def exHourly : Settings := { sampleSettings with backupEnabled := true, provider := .localDir, interval := .hourly, startHour := 0 }

/-- Ten backups, completed long ago. -/
def exTenReqs : List (Req Unit) :=
  .settings exHourly :: (List.range 10).flatMap fun i => [.backupCreate ⟨BitVec.ofNat 64 (60 * i), 0⟩ exBackup, .backupStatus (i + 1) ⟨BitVec.ofNat 64 (60 * i + 1), 0⟩ .completed]

def exTen : Server := ⟨runReqs exEnv exTenReqs [], fun _ => none, true⟩

theorem asked_ok {rs : List (Req Unit)} {s : Settings} (h : ∀ r ∈ rs, r = .settings s ∨ ∃ now b id st, (∀ n, b.status ≠ .inProgress n) ∧ (∀ n, st ≠ .inProgress n) ∧
    (r = .backupCreate now b ∨ r = .backupStatus id now st)) : Hist exEnv rs.length (runReqs exEnv rs []) := by
  have := runReqs_append' (E := exEnv) rs .start (fun r hr => by
    rcases h r hr with rfl | ⟨now, b, id, st, h1, h2, rfl | rfl⟩
    · trivial
    · intro n e; exact absurd e (h1 n)
    · intro n e; exact absurd e (h2 n))
  rwa [Nat.zero_add] at this

def exGood : Outcome := ⟨[50], .ok, .ok⟩
def exTurn1 : Turn := ⟨⟨7200, 0⟩, fun _ => ⟨7201, 0⟩, exGood⟩
def exTurn2 : Turn := ⟨⟨7210, 0⟩, fun _ => ⟨7211, 0⟩, exGood⟩

theorem exTen_hist : Hist exEnv exTenReqs.length exTen.kv := by
  refine asked_ok (s := exHourly) (fun r hr => ?_)
  unfold exTenReqs at hr
  rcases List.mem_cons.mp hr with rfl | hr
  · exact .inl rfl
  · obtain ⟨i, -, hi⟩ := List.mem_flatMap.mp hr
    rcases List.mem_cons.mp hi with rfl | hi
    · exact .inr ⟨_, exBackup, 0, .idle, (nofun), (nofun), .inl rfl⟩
    · rw [List.mem_singleton.mp hi]; exact .inr ⟨_, exBackup, _, .completed, (nofun), (nofun), .inr rfl⟩

theorem exTen_length : exTenReqs.length = 21 := by decide +kernel

theorem turns_one {E : Env Q} {t : Turn} {w : Server} : turns E [t] w = turn E t w := rfl

theorem exGood_fits : Fits exGood := by
  intro p hp
  rw [List.mem_singleton.mp hp]
  decide

theorem appeared_of {E : Env Q} {n : Nat} {kv kv' : Kv} (h : Hist E n kv) (hn : n < 2 ^ 62) {id : Nat}
    (hc : ((backupsC.getById id kv).toOption.isNone && (backupsC.getById id kv').toOption.isSome) = true) : ∃ b, Appeared kv kv' id b := by
  rw [Bool.and_eq_true] at hc
  have hi := (hist_backups h hn).inv backups_ok
  cases e : backupsC.getById id kv' with
  | error x => rw [e] at hc; cases hc.2
  | ok b =>
    refine ⟨b, ?_, e⟩
    rw [get_none hi]
    cases hl : backupsC.live kv id with
    | none => rfl
    | some r => rw [get_live hi hl] at hc; cases hc.1

/-- From the tenth backup on: two turns of one minute make a backup each; both are completed and the archive of the first is lost. -/
theorem C148_once_violated : ∃ (n : Nat) (w : Server) (t1 t2 : Turn) (id1 id2 : Nat) (b1 b2 b1' : Backup), Hist exEnv n w.kv ∧ n + t1.cost + t2.cost < 2 ^ 62 ∧
    t1.now.sec.toInt / 60 = t2.now.sec.toInt / 60 ∧ Appeared w.kv (turn exEnv t1 w).kv id1 b1 ∧
    Appeared (turn exEnv t1 w).kv (turns exEnv [t1, t2] w).kv id2 b2 ∧ b2.status = .completed ∧
    backupsC.getById id1 (turns exEnv [t1, t2] w).kv = .ok b1' ∧ b1'.status = .completed ∧ ∀ k x, (turns exEnv [t1, t2] w).files k ≠ some (id1, x) := by
  have hw : turns exEnv [exTurn1, exTurn2] exTen = turn exEnv exTurn2 (turn exEnv exTurn1 exTen) := by simp only [turns, List.foldl_cons, List.foldl_nil]
  have hh := exTen_hist
  rw [exTen_length] at hh
  have hs1 : (loadSettings exTen.kv).toOption.map (·.provider) = some .localDir := by decide +kernel
  have hs2 : (loadSettings (turn exEnv exTurn1 exTen).kv).toOption.map (·.provider) = some .localDir := by decide +kernel
  have c1 : exTurn1.cost = 5 := rfl
  have c2 : exTurn2.cost = 5 := rfl
  obtain ⟨m, hm1, hm2⟩ := turns_hist (ts := [exTurn1]) hh (by intro t ht; rw [List.mem_singleton.mp ht]; exact exGood_fits) (by simp [c1])
  simp only [List.map_cons, List.map_nil, List.sum_cons, List.sum_nil, c1] at hm2
  rw [turns_one] at hm1
  obtain ⟨b1, a1⟩ := appeared_of (kv' := (turn exEnv exTurn1 exTen).kv) hh (by decide) (id := 11) (by decide +kernel)
  obtain ⟨b2, a2⟩ := appeared_of (kv' := (turn exEnv exTurn2 (turn exEnv exTurn1 exTen)).kv) hm1 (by omega) (id := 12) (by decide +kernel)
  obtain ⟨s, x1, l1, p1, q1, -, -, r1⟩ := C148_scheduled hh exGood_fits (by simp [c1]) a1
  obtain ⟨s', x2, l2, p2, q2, -, -, r2⟩ := C148_scheduled hm1 exGood_fits (by omega) a2
  rw [l1] at hs1
  rw [l2] at hs2
  have hs1 : s.provider = .localDir := Option.some.inj hs1
  have hs2 : s'.provider = .localDir := Option.some.inj hs2
  rw [hs1] at p1
  rw [hs2] at p2
  have done1 : b1.status = .completed := r1.ended.completed.mpr ⟨by decide, .inl rfl⟩
  have done2 : b2.status = .completed := r2.ended.completed.mpr ⟨by decide, .inl rfl⟩
  refine ⟨21, exTen, exTurn1, exTurn2, 11, 12, b1, b2, b1, hh, by simp [c1, c2], by decide, a1, by rw [hw]; exact a2, done2,
    by rw [hw]; exact (r2.others 11 (by decide)).trans a1.2, done1, fun k x hk => ?_⟩
  rw [hw] at hk
  rcases r2.file k with ⟨f, -⟩ | ⟨f, nf⟩
  · rw [f] at hk; cases hk
  · rw [f] at hk
    rcases r1.file k with ⟨-, g, -⟩ | ⟨g, -⟩
    · refine nf ⟨?_, by decide, rfl⟩
      cases g with
      | data hp =>
        have := FileOf.data (s := s') p2
        rw [q2] at this
        rw [q1]
        exact this
      | bucket hp => rw [p1] at hp; cases hp
    · rw [g] at hk; cases hk

/-- Settings for S3. -/
def exS3 : Server := ⟨runReqs exEnv [.settings { exHourly with provider := .s3 }] [], fun _ => none, true⟩

theorem exS3_hist : Hist exEnv 1 exS3.kv := asked_ok (rs := [_]) (fun _ hr => .inl (List.mem_singleton.mp hr))

/-- The loop that has ended does nothing, whatever happens to the store. -/
theorem C148_ended {E : Env Q} {w : Server} (h : w.alive = false) (ts : List Turn) : turns E ts w = w := by
  induction ts with
  | nil => rfl
  | cons t ts ih =>
    show turns E ts (turn E t w) = w
    rw [show turn E t w = w by unfold turn; simp [h]]
    exact ih

/-- With archives on S3 the first minute of the schedule ends the loop: no backup is made then or at any later time, even when the settings are corrected
and backups asked for. -/
theorem C148_s3_violated : ∃ (n : Nat) (w : Server) (s : Settings) (t : Turn), Hist exEnv n w.kv ∧ n < 2 ^ 62 ∧ w.alive = true ∧ loadSettings w.kv = .ok s ∧
    s.backupEnabled = true ∧ s.provider = .s3 ∧ Scheduled s.interval s.startHour t.now.sec.toInt ∧
    ∀ kv ts, turns exEnv ts { turn exEnv t w with kv := kv } = { turn exEnv t w with kv := kv } := by
  have h1 : (match loadSettings exS3.kv with | .ok s => s.backupEnabled && decide (s.provider = .s3) && dueAt s.interval s.startHour (7200 / 60) | .error _ => false) = true := by
    decide +kernel
  have h2 : (turn exEnv exTurn1 exS3).alive = false := by decide +kernel
  cases hs : loadSettings exS3.kv with
  | error e => rw [hs] at h1; cases h1
  | ok s =>
    rw [hs] at h1
    simp only [Bool.and_eq_true, decide_eq_true_eq] at h1
    exact ⟨1, exS3, s, exTurn1, exS3_hist, by decide, rfl, hs, h1.1.1, h1.1.2, due_iff.mp h1.2, fun kv ts => C148_ended (w := { turn exEnv exTurn1 exS3 with kv := kv }) h2 ts⟩

/-- A backup to S3 asked for through the API. -/
def exS3Reqs : List (Req Unit) := [.settings { exHourly with provider := .s3 }, .backupCreate ⟨0, 0⟩ { exBackup with provider := .s3 [] [] [] }]
def exS3Asked : Server := ⟨runReqs exEnv exS3Reqs [], fun _ => none, true⟩

theorem exS3Asked_hist : Hist exEnv 2 exS3Asked.kv := asked_ok (rs := exS3Reqs) (s := { exHourly with provider := .s3 }) (fun r hr => by
  rcases List.mem_cons.mp hr with hr | hr
  · exact .inl hr
  · exact .inr ⟨⟨0, 0⟩, { exBackup with provider := .s3 [] [] [] }, 0, .idle, (nofun), (nofun), .inl (List.mem_singleton.mp hr)⟩)

/-- A backup to S3 is completed without any archive. -/
theorem C148_delivered_violated : ∃ (n : Nat) (w : Server) (t : Turn) (id : Nat) (b b' : Backup), Hist exEnv n w.kv ∧ n + t.cost < 2 ^ 62 ∧
    backupsC.getById id w.kv = .ok b ∧ b.status = .idle ∧ backupsC.getById id (turn exEnv t w).kv = .ok b' ∧ b'.status = .completed ∧
    ∀ k, (turn exEnv t w).files k = none := by
  have h1 : (match loadSettings exS3Asked.kv with | .ok s => s.backupEnabled | .error _ => false) = true := by decide +kernel
  have h2 : (match backupsC.list exS3Asked.kv with | .ok l => l.all fun b => decide (b.provider = .s3 [] [] []) | .error _ => false) = true := by decide +kernel
  have h3 : (backupsC.getById 1 exS3Asked.kv).toOption.map (·.status) = some .idle := by decide +kernel
  cases hs : loadSettings exS3Asked.kv with
  | error e => rw [hs] at h1; cases h1
  | ok s =>
    rw [hs] at h1
    cases hb : backupsC.getById 1 exS3Asked.kv with
    | error e => rw [hb] at h3; cases h3
    | ok b =>
      rw [hb] at h3
      have c1 : exTurn1.cost = 5 := rfl
      obtain ⟨id, b, b', g1, g2, r⟩ := C148_waiting exS3Asked_hist rfl hs h1 hb (Option.some.inj h3) (t := exTurn1) exGood_fits (by simp [c1])
      have hp : b.provider = .s3 [] [] [] := by
        obtain ⟨l, hl, hm⟩ := list_live exS3Asked_hist (by decide)
        rw [hl] at h2
        have hi := (hist_backups exS3Asked_hist (by decide)).inv backups_ok
        have hlv := live_get hi g1
        exact of_decide_eq_true (List.all_eq_true.mp h2 b ((hm b).mpr (by rw [show b.id = id from (Inv.live_id hi hlv).1]; exact hlv)))
      refine ⟨2, exS3Asked, exTurn1, id, b, b', exS3Asked_hist, by simp [c1], g1, g2, r.shown, r.ended.completed.mpr ⟨by decide, .inl rfl⟩, fun k => ?_⟩
      rcases r.file k with ⟨-, f, -⟩ | ⟨f, -⟩
      · cases f <;> simp_all
      · exact f

/-- Settings for a bucket, and a backup asked for. -/
def exGcpReqs : List (Req Unit) :=
  [.settings { exHourly with provider := .gcp, gcpBucket := ['b'], gcpKey := ['k'] }, .backupCreate ⟨0, 0⟩ { exBackup with provider := .gcp ['b'] [] }]
def exGcp : Server := ⟨runReqs exEnv exGcpReqs [], fun _ => none, true⟩

theorem exGcp_hist : Hist exEnv 2 exGcp.kv := asked_ok (rs := exGcpReqs) (s := { exHourly with provider := .gcp, gcpBucket := ['b'], gcpKey := ['k'] }) (fun r hr => by
  rcases List.mem_cons.mp hr with hr | hr
  · exact .inl hr
  · exact .inr ⟨⟨0, 0⟩, { exBackup with provider := .gcp ['b'] [] }, 0, .idle, (nofun), (nofun), .inl (List.mem_singleton.mp hr)⟩)

/-- The upload fails at its end. -/
def exBadTurn : Turn := ⟨⟨10, 0⟩, fun _ => ⟨11, 0⟩, ⟨[50], .ok, .panic⟩⟩

/-- A backup whose upload failed at its end is uploading for good: starting the server leaves it so, and so do all turns afterwards. -/
theorem C148_uploading_violated : ∃ (n : Nat) (w w' : Server) (id : Nat) (b : Backup), Hist exEnv n w.kv ∧ n < 2 ^ 61 ∧
    restart exEnv (fun _ => ⟨20, 0⟩) (turn exEnv exBadTurn w) = some w' ∧ b.status = .uploading ∧
    ∀ ts, (∀ t ∈ ts, Fits t.out) → (ts.map Turn.cost).sum < 2 ^ 61 → backupsC.getById id (turns exEnv ts w').kv = .ok b := by
  have hf : Fits exBadTurn.out := by intro p hp; rw [List.mem_singleton.mp hp]; decide
  have c1 : exBadTurn.cost = 5 := rfl
  obtain ⟨m, hm1, hm2⟩ := turns_hist (ts := [exBadTurn]) exGcp_hist (by intro t ht; rw [List.mem_singleton.mp ht]; exact hf) (by simp [c1])
  simp only [List.map_cons, List.map_nil, List.sum_cons, List.sum_nil, c1] at hm2
  rw [turns_one] at hm1
  have hb : (backupsC.getById 1 (turn exEnv exBadTurn exGcp).kv).toOption.map (·.status) = some .uploading := by decide +kernel
  have hl : (match backupsC.list (turn exEnv exBadTurn exGcp).kv with | .ok l => l.length | .error _ => 0) = 1 := by decide +kernel
  cases he : backupsC.getById 1 (turn exEnv exBadTurn exGcp).kv with
  | error e => rw [he] at hb; cases hb
  | ok b =>
    rw [he] at hb
    have hb : b.status = .uploading := Option.some.inj hb
    obtain ⟨w', e1, -, -, -, e5⟩ := C148_restart hm1 (by omega) (fun l h => by rw [h] at hl; dsimp only at hl; omega) (fun _ => ⟨20, 0⟩)
    have g := e5 1 b he (fun p hp => by rw [hb] at hp; cases hp)
    have hw : ∃ k, k ≤ 100 ∧ Hist exEnv k w'.kv := by
      unfold restart at e1
      cases hll : backupsC.list (turn exEnv exBadTurn exGcp).kv with
      | error e => rw [hll] at e1; cases e1
      | ok l =>
        rw [hll] at e1 hl
        dsimp only at e1 hl
        cases e1
        generalize hids : (l.filter fun b => match b.status with | .inProgress _ => true | _ => false).map (·.id) = ids
        have hlen : ids.length ≤ l.length := by rw [← hids, List.length_map]; exact List.length_filter_le ..
        exact ⟨m + ids.length, by omega, (failing _ hm1 (by omega)).1⟩
    obtain ⟨k, hk1, hk2⟩ := hw
    exact ⟨2, exGcp, w', 1, b, exGcp_hist, by decide, e1, hb, fun ts hts hsum => C148_untouched hk2 hts (by omega) g (by rw [hb]; decide)⟩

/-! ## Examples -/

/-- Hypotheses of the theorems above: a store with a history and the loop running, a turn of the schedule, numbers that lead and one that does not. -/
example : Hist exEnv 21 exTen.kv ∧ exTen.alive = true ∧ Fits exTurn1.out ∧ 21 + exTurn1.cost < 2 ^ 62 ∧ Leads 9 ∧ ¬ Leads 10 ∧
    Scheduled .hourly 0 7200 ∧ ¬ Scheduled .hourly 0 7260 ∧ Scheduled .weekly 3 270000 ∧ ¬ Scheduled .weekly 3 10800 := by
  refine ⟨exTen_length ▸ exTen_hist, rfl, exGood_fits, by decide, C148_leads (by decide), fun h => ?_, due_iff.mp (by decide), fun h => ?_, due_iff.mp (by decide +kernel), fun h => ?_⟩
  · have := h 9 (by decide) (by decide)
    revert this
    decide +kernel
  · have := due_iff.mpr h
    revert this
    decide
  · have := due_iff.mpr h
    revert this
    decide +kernel

/-- A turn that makes a backup and a turn that runs a waiting one. -/
example : (∃ b, Appeared exTen.kv (turn exEnv exTurn1 exTen).kv 11 b) ∧
    (backupsC.getById 1 exGcp.kv).toOption.map (·.status) = some .idle ∧
    (backupsC.getById 1 (turn exEnv exTurn1 exGcp).kv).toOption.map (·.status) = some .completed := by
  exact ⟨appeared_of (exTen_length ▸ exTen_hist) (n := 21) (by decide) (by decide +kernel), by decide +kernel, by decide +kernel⟩

end OptiPrism.Platform
