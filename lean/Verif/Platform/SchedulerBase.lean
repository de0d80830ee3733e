import Verif.Platform.Scheduler
import Verif.Platform.SchemaApiProps
import Verif.Meta.BackupsProps

/-!
# Lemmas on the scheduler of backups
-/

namespace OptiPrism.Platform
open OptiPrism.Meta

variable {Q : Type}

/-! ## The order of the keys -/

theorem keyLast_none {l : List Backup} (h : keyLast l = none) : l = [] := by
  cases l with
  | nil => rfl
  | cons b l =>
    rw [keyLast] at h
    split at h
    · cases h
    · split at h <;> cases h

theorem keyLast_some {l : List Backup} : ∀ {b : Backup}, keyLast l = some b → b ∈ l ∧ ∀ c ∈ l, decimal c.id ≤ decimal b.id := by
  induction l with
  | nil => intro b h; cases h
  | cons a l ih =>
    intro b h
    rw [keyLast] at h
    split at h
    · next hn =>
      cases h
      rw [keyLast_none hn]
      refine ⟨List.mem_cons_self .., fun c hc => ?_⟩
      cases List.mem_singleton.mp hc
      exact List.le_refl _
    · next c hc =>
      obtain ⟨h1, h2⟩ := ih hc
      split at h
      · next hle =>
        cases h
        refine ⟨List.mem_cons_of_mem _ h1, fun x hx => ?_⟩
        rcases List.mem_cons.mp hx with rfl | hx
        · exact of_decide_eq_true hle
        · exact h2 x hx
      · next hle =>
        cases h
        refine ⟨List.mem_cons_self .., fun x hx => ?_⟩
        rcases List.mem_cons.mp hx with rfl | hx
        · exact List.le_refl _
        · rcases List.le_total (decimal a.id) (decimal c.id) with hl | hl
          · exact absurd (decide_eq_true hl) hle
          · exact List.le_trans (h2 x hx) hl

theorem firstIdle_none {l : List Backup} (h : firstIdle l = none) : ∀ b ∈ l, b.status ≠ .idle := by
  induction l with
  | nil => intro b hb; cases hb
  | cons a l ih =>
    rw [firstIdle] at h
    split at h
    · next hn =>
      split at h
      · cases h
      · next ha =>
        intro b hb
        rcases List.mem_cons.mp hb with rfl | hb
        · exact ha
        · exact ih hn b hb
    · split at h <;> cases h

theorem firstIdle_some {l : List Backup} : ∀ {b : Backup}, firstIdle l = some b → b ∈ l ∧ b.status = .idle := by
  induction l with
  | nil => intro b h; cases h
  | cons a l ih =>
    intro b h
    rw [firstIdle] at h
    split at h
    · split at h
      · next ha => cases h; exact ⟨List.mem_cons_self .., ha⟩
      · cases h
    · next c hc =>
      split at h
      · next ha => cases h; exact ⟨List.mem_cons_self .., ha.1⟩
      · cases h; exact ⟨List.mem_cons_of_mem _ (ih hc).1, (ih hc).2⟩

/-! ## The job -/

/-- The percentages fit in 64 bits. -/
def Fits (o : Outcome) : Prop := ∀ p ∈ o.progress, p < 2 ^ 64

/-- A bound on the requests of a turn. -/
def Turn.cost (t : Turn) : Nat := t.out.progress.length + 4

theorem jobStatuses_length (p : Provider) (o : Outcome) : (jobStatuses p o).length ≤ o.progress.length + 3 := by
  unfold jobStatuses
  rcases o with ⟨pr, a, d⟩
  cases a <;> cases p <;> cases d <;> simp

theorem jobStatuses_fit {p : Provider} {o : Outcome} (h : Fits o) : ∀ s ∈ jobStatuses p o, ∀ x, s = .inProgress x → x < 2 ^ 64 := by
  intro s hs x hx
  subst hx
  unfold jobStatuses at hs
  rcases o with ⟨pr, a, d⟩
  cases a <;> cases p <;> cases d <;> simp at hs <;> exact h x hs

theorem job_steps {E : Env Q} (id : Nat) (now : Nat → Time) (l : List (BackupStatus × Nat)) :
    ∀ {n : Nat} {kv : Kv}, Hist E n kv → n + l.length < 2 ^ 62 → (∀ s ∈ l, ∀ p, s.1 = .inProgress p → p < 2 ^ 64) →
    Hist E (n + l.length) (runReqs E (l.map fun s => .backupStatus id (now s.2) s.1) kv) ∧
    Meta.lastId (runReqs E (l.map fun s => .backupStatus id (now s.2) s.1) kv) backupsC.ns = Meta.lastId kv backupsC.ns ∧
    (∀ j, j ≠ id → backupsC.live (runReqs E (l.map fun s => .backupStatus id (now s.2) s.1) kv) j = backupsC.live kv j) ∧
    (backupsC.live kv id = none → backupsC.live (runReqs E (l.map fun s => .backupStatus id (now s.2) s.1) kv) id = none) ∧
    ∀ {b : Backup}, backupsC.live kv id = some b →
    ∃ b', backupsC.live (runReqs E (l.map fun s => .backupStatus id (now s.2) s.1) kv) id = some b' ∧
      b'.status = ((l.map (·.1)).getLast?.getD b.status) ∧ b'.provider = b.provider ∧ b'.createdAt.sec = b.createdAt.sec ∧
      b'.isEncrypted = b.isEncrypted ∧ b'.password = b.password := by
  induction l with
  | nil => intro n kv h _ _; exact ⟨h, rfl, fun _ _ => rfl, fun x => x, fun hb => ⟨_, hb, rfl, rfl, rfl, rfl, rfl⟩⟩
  | cons s l ih =>
    intro n kv h hn hp
    have hs := hp s (List.mem_cons_self ..)
    rw [List.length_cons] at hn
    have hx := fun j => status_exec h (by omega) (now s.2) hs j (id := id)
    have h1 := h.step (.backupStatus id (now s.2) s.1) hs
    obtain ⟨i1, i2, i3, i4, i5⟩ := ih h1 (by omega) (fun s hm => hp s (List.mem_cons_of_mem _ hm))
    refine ⟨by rw [List.length_cons, show n + (l.length + 1) = n + 1 + l.length by omega]; exact i1, i2.trans ?_, fun j hj => (i3 j hj).trans ?_, fun hl => i4 ?_, fun {b} hb => ?_⟩
    · have hi := (hist_backups h (by omega)).inv backups_ok
      show Meta.lastId (runCall (backupUpdateStatus id (now s.2) s.1) kv).2 backupsC.ns = _
      obtain ⟨ho1, ho2, ho3, sel, hs', hsn, hp, hrest⟩ := backupStatus_ok (id := id) (now := now s.2) hs
      rcases update_spec backups_ok hi hs' hsn ho1 hp hrest ho2 ho3 (id := id) with ⟨hl, e⟩ | ⟨r, hl, ⟨ht, -⟩ | ⟨-, ⟨x, ex, -⟩ | ⟨-, kv', e, -, hk, -⟩⟩⟩
      · rw [show (runCall (backupUpdateStatus id (now s.2) s.1) kv).2 = kv by unfold runCall backupUpdateStatus; rw [e]]
      · obtain ⟨i, hm, -⟩ := ht; simp [backupsC] at hm
      · cases ex
      · rw [show (runCall (backupUpdateStatus id (now s.2) s.1) kv).2 = kv' by unfold runCall backupUpdateStatus; rw [e]]; exact hk
    · rw [hx, if_neg hj]
    · rw [hx, if_pos rfl, hl]; rfl
    · have h2 := hx id
      rw [if_pos rfl, hb] at h2
      obtain ⟨b', e1, e2, e3, e4, e5, e6⟩ := i5 h2
      refine ⟨b', e1, ?_, e3, e4, e5, e6⟩
      rw [e2, List.map_cons]
      cases hl : l.map (·.1) with
      | nil => rfl
      | cons x xs => rw [List.getLast?_cons_cons, List.getLast?_eq_some_getLast (List.cons_ne_nil _ _)]; rfl

/-- What a run leaves in the store. -/
theorem runJob_spec {E : Env Q} {n : Nat} {w : Server} (h : Hist E n w.kv) (s : Settings) (b : Backup) (clock : Nat → Time) {o : Outcome} (ho : Fits o)
    (hn : n + o.progress.length + 3 < 2 ^ 62) :
    (∃ m, m ≤ o.progress.length + 3 ∧ Hist E (n + m) (runJob E s b clock o w).kv) ∧
    Meta.lastId (runJob E s b clock o w).kv backupsC.ns = Meta.lastId w.kv backupsC.ns ∧
    (∀ j, j ≠ b.id → backupsC.live (runJob E s b clock o w).kv j = backupsC.live w.kv j) ∧
    ∀ {c : Backup}, backupsC.live w.kv b.id = some c →
      ∃ c', backupsC.live (runJob E s b clock o w).kv b.id = some c' ∧ c'.status = (jobStatuses b.provider o).getLast?.getD c.status ∧
        c'.provider = c.provider ∧ c'.createdAt.sec = c.createdAt.sec ∧ c'.isEncrypted = c.isEncrypted ∧ c'.password = c.password := by
  have hl := jobStatuses_length b.provider o
  have hz : ((jobStatuses b.provider o).zipIdx).length = (jobStatuses b.provider o).length := List.length_zipIdx ..
  obtain ⟨i1, i2, i3, -, i5⟩ := job_steps b.id clock (jobStatuses b.provider o).zipIdx h (by omega)
    (fun s hs => jobStatuses_fit ho s.1 (by
      have := List.mem_map_of_mem (f := (·.1)) hs
      rwa [zipIdx_fst] at this))
  refine ⟨⟨_, by omega, i1⟩, i2, i3, fun hc => ?_⟩
  obtain ⟨c', e1, e2, e3⟩ := i5 hc
  rw [zipIdx_fst] at e2
  exact ⟨c', e1, e2, e3⟩

/-! ## The turn -/

/-- The backup made by the schedule. -/
def madeBy (now : Time) (s : Settings) (id : Nat) : Backup := { fromSettings now s with id := id, createdAt := now, updatedAt := none }

theorem list_live {E : Env Q} {n : Nat} {kv : Kv} (h : Hist E n kv) (hn : n < 2 ^ 62) :
    ∃ l, backupsC.list kv = .ok l ∧ ∀ b, b ∈ l ↔ backupsC.live kv b.id = some b := by
  have hi := (hist_backups h hn).inv backups_ok
  obtain ⟨l, h1, h2, -⟩ := list_spec h.clean hi
  refine ⟨l, h1, fun b => (h2 b).trans ⟨fun ⟨id, e⟩ => ?_, fun e => ⟨_, e⟩⟩⟩
  have : b.id = id := (Inv.live_id hi e).1
  rw [this]; exact e

/-- What a turn does: nothing to the store and the files, or one run of a waiting backup, or the making and the run of one. -/
theorem turn_cases {E : Env Q} {n : Nat} {w : Server} (h : Hist E n w.kv) (hn : n < 2 ^ 62) (t : Turn) :
    ((turn E t w).kv = w.kv ∧ (turn E t w).files = w.files) ∨
    (∃ s b, w.alive = true ∧ loadSettings w.kv = .ok s ∧ s.backupEnabled = true ∧ backupsC.live w.kv b.id = some b ∧ b.status = .idle ∧
      turn E t w = runJob E s b t.clock t.out w) ∨
    (∃ s kv1, w.alive = true ∧ loadSettings w.kv = .ok s ∧ s.backupEnabled = true ∧ (∀ id b, backupsC.live w.kv id = some b → b.status ≠ .idle) ∧
      cronOk s = true ∧ dueAt s.interval s.startHour (minuteOf t.now) = true ∧
      (∀ b, backupsC.live w.kv b.id = some b → (∀ id c, backupsC.live w.kv id = some c → decimal id ≤ decimal b.id) → minuteOf b.createdAt ≠ minuteOf t.now) ∧
      s.provider ≠ .s3 ∧ Hist E (n + 1) kv1 ∧ backupsC.live w.kv (Meta.lastId w.kv backupsC.ns + 1) = none ∧
      (∀ j, backupsC.live kv1 j = if j = Meta.lastId w.kv backupsC.ns + 1 then some (madeBy t.now s j).norm else backupsC.live w.kv j) ∧
      turn E t w = runJob E s (madeBy t.now s (Meta.lastId w.kv backupsC.ns + 1)) t.clock t.out { w with kv := kv1 }) := by
  unfold turn
  split
  · exact .inl ⟨rfl, rfl⟩
  · next hal =>
    have hal : w.alive = true := by simpa using hal
    split
    · exact .inl ⟨rfl, rfl⟩
    · next s hs =>
      split
      · exact .inl ⟨rfl, rfl⟩
      · next hen =>
        have hen : s.backupEnabled = true := by simpa using hen
        obtain ⟨l, hl, hm⟩ := list_live h hn
        rw [hl]
        dsimp only
        split
        · next b hb =>
          obtain ⟨h1, h2⟩ := firstIdle_some hb
          exact .inr (.inl ⟨s, b, hal, hs, hen, (hm b).mp h1, h2, rfl⟩)
        · next hb =>
          have hi := (hist_backups h hn).inv backups_ok
          have hno : ∀ id b, backupsC.live w.kv id = some b → b.status ≠ .idle := fun id b hlv =>
            firstIdle_none hb b ((hm b).mpr (by rw [show b.id = id from (Inv.live_id hi hlv).1]; exact hlv))
          split
          · exact .inl ⟨rfl, rfl⟩
          · next hcr =>
            split
            · exact .inl ⟨rfl, rfl⟩
            · next hdue =>
              unfold schedule
              split
              · exact .inl ⟨rfl, rfl⟩
              · next hmin =>
                split
                · exact .inl ⟨rfl, rfl⟩
                · next hs3 =>
                  have hok : (Req.backupCreate t.now (fromSettings t.now s) : Req Q).Ok := fun _ h => by cases h
                  have re := hist_backups h hn
                  have h1 := h.step _ hok
                  cases e : runCall (backupCreate t.now (fromSettings t.now s)) w.kv with
                  | mk r kv1 =>
                    rw [show Req.exec E (.backupCreate t.now (fromSettings t.now s)) w.kv = kv1 from congrArg Prod.snd e] at h1
                    cases r with
                    | error x =>
                      have h2 := (C38_create h hn (now := t.now) (req := fromSettings t.now s) rfl)
                      rw [e] at h2
                      rcases Classical.em ((Except.error x : Except Err Backup) = .error .alreadyExists) with hx | hx
                      · obtain ⟨id, b, g1, g2⟩ := h2.1.mp hx
                        exact absurd g2 (hno id b (live_get hi g1))
                      · obtain ⟨b, g, -⟩ := h2.2 hx
                        cases g
                    | ok r =>
                      have e0 := apiCall_ok e
                      have e' : backupsC.create [] (fun id => madeBy t.now s id) w.kv = .ok (r, kv1) := by
                        unfold backupCreate at e0
                        dsimp only at e0
                        split at e0
                        · split at e0
                          · cases e0
                          · split at e0
                            · cases e0
                            · exact e0
                        · exact e0
                      obtain ⟨rfl, hnone, -, hl1⟩ := create_done backups_ok hi (re.room backups_ok) (mk := fun id => madeBy t.now s id)
                        ⟨fun _ => rfl, fun _ => rfl, fun id hid => ⟨hid, fun _ h => by cases h⟩⟩ e'
                      refine .inr (.inr ⟨s, kv1, hal, hs, hen, hno, by simpa using hcr, by simpa using hdue, ?_, hs3, h1, hnone, hl1, rfl⟩)
                      intro b hb hmax he
                      apply hmin
                      unfold madeThisMinute
                      have hbl := (hm b).mpr hb
                      cases hk : keyLast l with
                      | none => rw [keyLast_none hk] at hbl; cases hbl
                      | some c =>
                        obtain ⟨g1, g2⟩ := keyLast_some hk
                        have : c.id = b.id := decimal_inj (List.le_antisymm (hmax _ _ ((hm c).mp g1)) (g2 b hbl))
                        have hc := (hm c).mp g1
                        rw [this, hb] at hc
                        cases hc
                        exact decide_eq_true he

end OptiPrism.Platform
