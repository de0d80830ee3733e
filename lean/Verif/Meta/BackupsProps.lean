import Verif.Meta.Backups
import Verif.Meta.ListingProps

/-!
# C38 and C39: pending backups, and what a finished job records
-/

namespace OptiPrism.Meta

variable {Q : Type}

/-- Not finished. -/
def BackupStatus.pending : BackupStatus → Bool
  | .idle | .inProgress _ | .uploading => true
  | .failed _ | .completed => false

/-- Histories in which no status change sets a backup back to idle: no caller of `update_status` does. -/
inductive BHist (E : Env Q) : Nat → Kv → Prop
  | start : BHist E 0 []
  | step {n : Nat} {kv : Kv} (r : Req Q) : BHist E n kv → r.Ok → (∀ id now, r ≠ .backupStatus id now .idle) → BHist E (n + 1) (r.exec E kv)

theorem BHist.hist {E : Env Q} {n : Nat} {kv : Kv} (h : BHist E n kv) : Hist E n kv := by
  induction h with
  | start => exact .start
  | step r _ hr _ ih => exact ih.step r hr

/-- C38, what holds of it: at any time at most one backup is idle, that is waiting to be run. Missing: backups
that are already running do not count (`C38_violated`). -/
theorem C38_partial {E : Env Q} {n : Nat} {kv : Kv} (h : BHist E n kv) (hn : n < 2 ^ 62) {id id' : Nat} {b b' : Backup}
    (h1 : backupsC.getById id kv = .ok b) (h2 : backupsC.getById id' kv = .ok b') (e1 : b.status = .idle) (e2 : b'.status = .idle) : id = id' := by
  have key : ∀ {n : Nat} {kv : Kv}, BHist E n kv → n < 2 ^ 62 → ∀ id id' b b', backupsC.live kv id = some b → backupsC.live kv id' = some b' →
      b.status = .idle → b'.status = .idle → id = id' := by
    intro n kv h
    induction h with
    | start => intro _ id id' b b' h1; simp [Coll.live, getK, Kv.get] at h1
    | @step n kv r hh hr hs ih =>
      intro hn
      have ih := ih (by omega)
      have hn' : n < 2 ^ 62 := by omega
      by_cases hm : Mod.coll .backups ∈ r.mods
      · cases r <;> simp only [Req.mods, List.mem_cons, List.not_mem_nil, or_false, Mod.coll.injEq, reduceCtorEq] at hm
        case backupCreate now req =>
          show ∀ id id' b b', backupsC.live (runCall (Meta.backupCreate now req) kv).2 id = _ → backupsC.live (runCall (Meta.backupCreate now req) kv).2 id' = _ → _
          rcases create_exec hh.hist hn' (now := now) hr with ⟨e, -⟩ | ⟨hno, b0, kv', e, hst, hfree, hl⟩
          · rw [runCall, e]; exact ih
          · rw [runCall, e]
            dsimp only
            intro id id' b b' h1 h2 e1 e2
            rw [hl] at h1 h2
            by_cases hi : id = b0.id <;> by_cases hi' : id' = b0.id
            · rw [hi, hi']
            · rw [if_pos hi] at h1; rw [if_neg hi'] at h2
              injection h1 with h1
              subst h1
              exact absurd e2 (hno (hst ▸ e1) _ _ h2)
            · rw [if_neg hi] at h1; rw [if_pos hi'] at h2
              injection h2 with h2
              subst h2
              exact absurd e1 (hno (hst ▸ e2) _ _ h1)
            · rw [if_neg hi] at h1; rw [if_neg hi'] at h2
              exact ih _ _ _ _ h1 h2 e1 e2
        case backupStatus id0 now st =>
          intro id id' b b' h1 h2 e1 e2
          rw [status_exec hh.hist hn' now hr] at h1 h2
          have hne : st ≠ .idle := fun e => hs id0 now (by rw [e])
          have aux : ∀ {i : Nat} {b : Backup}, (if i = id0 then (backupsC.live kv id0).map (fun b => Backup.norm { b with status := st, updatedAt := some now }) else backupsC.live kv i) = some b →
              b.status = .idle → backupsC.live kv i = some b := by
            intro i b h e
            split at h
            · obtain ⟨x, -, rfl⟩ := Option.map_eq_some_iff.mp h
              exact absurd e hne
            · exact h
          exact ih _ _ _ _ (aux h1 e1) (aux h2 e2) e1 e2
        case backupDelete id0 =>
          have hi := (hist_backups hh.hist hn').inv backups_ok
          show ∀ id id' b b', backupsC.live (runCall (backupsC.delete id0) kv).2 id = _ → backupsC.live (runCall (backupsC.delete id0) kv).2 id' = _ → _
          rcases delete_spec backups_ok hi id0 with ⟨-, e⟩ | ⟨r, kv', -, e, -, -, hl⟩
          · rw [runCall, e]; exact ih
          · rw [runCall, e]
            dsimp only
            intro id id' b b' h1 h2 e1 e2
            rw [hl] at h1 h2
            split at h1
            · cases h1
            · split at h2
              · cases h2
              · exact ih _ _ _ _ h1 h2 e1 e2
      · have ha := exec_agree E hr hm kv
        intro id id' b b' h1 h2
        rw [AgreeOn.live (c := backupsC) ha] at h1 h2
        exact ih _ _ _ _ h1 h2
  have hi := (hist_backups h.hist hn).inv backups_ok
  have live : ∀ {id : Nat} {b : Backup}, backupsC.getById id kv = .ok b → backupsC.live kv id = some b := by
    intro id b h
    rw [getById_eq hi] at h
    cases hl : backupsC.live kv id with
    | none => rw [hl] at h; cases h
    | some x => rw [hl] at h; injection h with h; rw [h]
  exact key h hn _ _ _ _ (live h1) (live h2) e1 e2

/-- C38: a request for an idle backup, as both callers make, is refused exactly while one is idle; otherwise it
is accepted. -/
theorem C38_create {E : Env Q} {n : Nat} {kv : Kv} (h : Hist E n kv) (hn : n < 2 ^ 62) {now : Time} {req : Backup} (hr : req.status = .idle) :
    ((runCall (backupCreate now req) kv).1 = .error .alreadyExists ↔ ∃ id b, backupsC.getById id kv = .ok b ∧ b.status = .idle) ∧
    ((runCall (backupCreate now req) kv).1 ≠ .error .alreadyExists → ∃ b, (runCall (backupCreate now req) kv).1 = .ok b ∧ b.status = .idle) := by
  have hi := (hist_backups h hn).inv backups_ok
  have hg : ∀ id b, backupsC.getById id kv = .ok b ↔ backupsC.live kv id = some b := by
    intro id b
    rw [getById_eq hi]
    cases backupsC.live kv id <;> simp
  simp only [hg]
  rcases create_exec h hn (now := now) (req := req) (fun n e => by rw [hr] at e; cases e) with ⟨e, -, hex⟩ | ⟨hno, b, kv', e, hst, -⟩
  · unfold runCall
    rw [e]
    exact ⟨⟨fun _ => hex, fun _ => rfl⟩, fun h => absurd rfl h⟩
  · unfold runCall
    rw [e]
    exact ⟨⟨fun h => by simp at h, fun ⟨id, b, h1, h2⟩ => absurd h2 (hno hr _ _ h1)⟩, fun _ => ⟨b, rfl, by rw [hst, hr]⟩⟩

/-- An idle backup, then running, then a second request. -/
def exBackup : Backup := ⟨0, ⟨0, 0⟩, none, .localDir [], .idle, false, none⟩
def exBackups : List (Req Unit) := [.backupCreate ⟨0, 0⟩ exBackup, .backupStatus 1 ⟨1, 0⟩ (.inProgress 50), .backupCreate ⟨2, 0⟩ exBackup]

theorem exBackups_hist : BHist exEnv 3 (runReqs exEnv exBackups []) := by
  refine .step (kv := runReqs exEnv (exBackups.take 2) []) (.backupCreate ⟨2, 0⟩ exBackup)
    (.step (kv := runReqs exEnv (exBackups.take 1) []) (.backupStatus 1 ⟨1, 0⟩ (.inProgress 50))
      (.step (kv := []) (.backupCreate ⟨0, 0⟩ exBackup) .start ?_ ?_) ?_ ?_) ?_ ?_
  · intro n e; cases e
  · intro _ _ e; cases e
  · intro n e; injection e with e; subst e; decide
  · intro _ _ e; cases e
  · intro n e; cases e
  · intro _ _ e; cases e

/-- C38 fails: while the first backup is running a second one is accepted, and both are pending. -/
theorem C38_violated : ∃ n kv id id' b b', BHist exEnv n kv ∧ n < 2 ^ 62 ∧ id ≠ id' ∧ backupsC.getById id kv = .ok b ∧
    backupsC.getById id' kv = .ok b' ∧ b.status = .inProgress 50 ∧ b'.status = .idle ∧ b.status.pending ∧ b'.status.pending := by
  have e1 : (backupsC.getById 1 (runReqs exEnv exBackups [])).toOption.map (·.status) = some (.inProgress 50) := by decide +kernel
  have e2 : (backupsC.getById 2 (runReqs exEnv exBackups [])).toOption.map (·.status) = some .idle := by decide +kernel
  cases g1 : backupsC.getById 1 (runReqs exEnv exBackups []) with
  | error x => rw [g1] at e1; cases e1
  | ok b1 => cases g2 : backupsC.getById 2 (runReqs exEnv exBackups []) with
    | error x => rw [g2] at e2; cases e2
    | ok b2 =>
      rw [g1] at e1; rw [g2] at e2
      simp only [Except.toOption, Option.map_some, Option.some.injEq] at e1 e2
      exact ⟨3, _, 1, 2, b1, b2, exBackups_hist, by decide, by decide, g1, g2, e1, e2, by rw [e1]; rfl, by rw [e2]; rfl⟩

/-! ## C39 -/

/-- The status the job leaves in the store. -/
def FinalStatus (E : Env Q) (kv : Kv) (id : Nat) (now : Nat → Time) (o : Outcome) (st : BackupStatus) : Prop :=
  ∃ b b', backupsC.getById id kv = .ok b ∧
    backupsC.getById id (runReqs E (jobReqs id now (jobStatuses b.provider o)) kv) = .ok b' ∧ b'.status = st

theorem runReqs_append' {E : Env Q} (l : List (Req Q)) {n : Nat} {kv : Kv} (h : Hist E n kv) (ho : ∀ r ∈ l, r.Ok) : Hist E (n + l.length) (runReqs E l kv) := by
  induction l generalizing n kv with
  | nil => exact h
  | cons r l ih =>
    have := ih (h.step r (ho r (List.mem_cons_self ..))) (fun r hr => ho r (List.mem_cons_of_mem _ hr))
    rw [show n + (r :: l).length = n + 1 + l.length by simp; omega]
    exact this

/-- What a run of status changes on a live backup leaves: the last of them. -/
theorem job_run {E : Env Q} {n : Nat} {kv : Kv} (h : Hist E n kv) {id : Nat} {b : Backup} (hb : backupsC.getById id kv = .ok b) (now : Nat → Time)
    (l : List BackupStatus) (hn : n + l.length < 2 ^ 62) (hok : ∀ s ∈ l, ∀ p, s = .inProgress p → p < 2 ^ 64) :
    ∃ b', backupsC.getById id (runReqs E (jobReqs id now l) kv) = .ok b' ∧ b'.status = l.getLast?.getD b.status := by
  have hi := (hist_backups h (by omega)).inv backups_ok
  have hl : backupsC.live kv id = some b := by
    rw [getById_eq hi] at hb
    cases hl : backupsC.live kv id with
    | none => rw [hl] at hb; cases hb
    | some x => rw [hl] at hb; injection hb with hb; rw [hb]
  obtain ⟨b', e1, e2, -⟩ := job_last (E := E) id now l.zipIdx h (by rw [List.length_zipIdx]; omega)
    (fun s hs => hok s.1 (by rw [← zipIdx_fst l 0]; exact List.mem_map.mpr ⟨s, hs, rfl⟩)) hl
  rw [zipIdx_fst] at e2
  refine ⟨b', ?_, e2⟩
  have hh := runReqs_append' (jobReqs id now l) h (by
    intro r hr
    obtain ⟨s, hs, rfl⟩ := List.mem_map.mp hr
    exact hok s.1 (by rw [← zipIdx_fst l 0]; exact List.mem_map.mpr ⟨s, hs, rfl⟩))
  have hi' := (hist_backups hh (by unfold jobReqs; rw [List.length_map, List.length_zipIdx]; omega)).inv backups_ok
  have e1' : backupsC.live (runReqs E (jobReqs id now l) kv) id = some b' := e1
  rw [getById_eq hi', e1']

/-- What a job run on a live backup records, outcome by outcome. -/
theorem job_final {E : Env Q} {n : Nat} {kv : Kv} (h : Hist E n kv) {id : Nat} {b : Backup} (hb : backupsC.getById id kv = .ok b) (now : Nat → Time) {o : Outcome}
    (hn : n + o.progress.length < 2 ^ 61) (ho : ∀ p ∈ o.progress, p < 2 ^ 64) :
    ∃ b', backupsC.getById id (runReqs E (jobReqs id now (jobStatuses b.provider o)) kv) = .ok b' ∧
      b'.status = (jobStatuses b.provider o).getLast?.getD b.status := by
  have hlen : (jobStatuses b.provider o).length ≤ o.progress.length + 3 := by
    unfold jobStatuses
    rw [List.length_append, List.length_map]
    cases o.archive <;> cases b.provider <;> cases o.deliver <;> simp
  refine job_run h hb now _ (by omega) ?_
  intro s hs p e
  subst e
  unfold jobStatuses at hs
  rw [List.mem_append] at hs
  rcases hs with hs | hs
  · obtain ⟨q, hq, e⟩ := List.mem_map.mp hs
    injection e with e
    exact e ▸ ho q hq
  · revert hs; cases o.archive <;> cases b.provider <;> cases o.deliver <;> simp

/-- C39: a failure of the archive is recorded, if only on the way: after the reports of progress the status is
failed, with the error. -/
theorem C39_failure_shown {E : Env Q} {n : Nat} {kv : Kv} (h : Hist E n kv) {id : Nat} {b : Backup} (hb : backupsC.getById id kv = .ok b) (now : Nat → Time)
    {o : Outcome} (hn : n + o.progress.length < 2 ^ 61) (ho : ∀ p ∈ o.progress, p < 2 ^ 64) {a : Str} (ha : o.archive = .err a) :
    ∃ b', backupsC.getById id (runReqs E ((jobReqs id now (jobStatuses b.provider o)).take (o.progress.length + 1)) kv) = .ok b' ∧ b'.status = .failed a := by
  have e : (jobReqs (Q := Q) id now (jobStatuses b.provider o)).take (o.progress.length + 1) = jobReqs id now (o.progress.map .inProgress ++ [.failed a]) := by
    have : ∃ r, jobStatuses b.provider o = (o.progress.map .inProgress ++ [.failed a]) ++ r := by
      unfold jobStatuses
      rw [ha]
      exact ⟨_, by rw [List.append_assoc]⟩
    obtain ⟨r, hr⟩ := this
    rw [hr]
    unfold jobReqs
    rw [List.zipIdx_append, List.map_append, List.take_append_of_le_length (by simp), List.take_of_length_le (by simp)]
  rw [e]
  obtain ⟨b', e1, e2⟩ := job_run (E := E) h hb now (o.progress.map .inProgress ++ [.failed a]) (by simp; omega) (by
    intro s hs p e
    subst e
    simp only [List.mem_append, List.mem_map, List.mem_singleton, reduceCtorEq, or_false] at hs
    obtain ⟨q, hq, e⟩ := hs
    injection e with e
    exact e ▸ ho q hq)
  exact ⟨b', e1, by rw [e2]; simp⟩

/-- C39, what holds of it: if the archive could not be produced and delivering it fails too — as when the
temporary file could not even be created — the final status is failed. Missing: a failed archive whose
delivery succeeds, and the panics. -/
theorem C39_partial {E : Env Q} {n : Nat} {kv : Kv} (h : Hist E n kv) {id : Nat} {b : Backup} (hb : backupsC.getById id kv = .ok b) (now : Nat → Time) {o : Outcome}
    (hn : n + o.progress.length < 2 ^ 61) (ho : ∀ p ∈ o.progress, p < 2 ^ 64) (hp : ∀ x y z, b.provider ≠ .s3 x y z) {a d : Str} (ha : o.archive = .err a)
    (hd : o.deliver = .err d) : FinalStatus E kv id now o (.failed d) := by
  obtain ⟨b', e1, e2⟩ := job_final h hb now hn ho
  refine ⟨b, b', hb, e1, ?_⟩
  rw [e2]
  unfold jobStatuses
  rw [ha, hd]
  cases hpr : b.provider with
  | localDir x => simp
  | gcp x y => simp
  | s3 x y z => exact absurd hpr (hp x y z)

/-- C39, the full picture: the job ends with status completed exactly if nothing panicked and the delivery
succeeded (for S3, where nothing is delivered, always): whether the archive was produced does not matter. -/
theorem C39_completed_iff {E : Env Q} {n : Nat} {kv : Kv} (h : Hist E n kv) {id : Nat} {b : Backup} (hb : backupsC.getById id kv = .ok b) (now : Nat → Time)
    {o : Outcome} (hn : n + o.progress.length < 2 ^ 61) (ho : ∀ p ∈ o.progress, p < 2 ^ 64) (hnew : b.status = .idle) :
    FinalStatus E kv id now o .completed ↔ o.archive ≠ .panic ∧ (o.deliver = .ok ∨ ∃ x y z, b.provider = .s3 x y z) := by
  obtain ⟨b', e1, e2⟩ := job_final h hb now hn ho
  have key : FinalStatus E kv id now o .completed ↔ (jobStatuses b.provider o).getLast?.getD b.status = .completed := by
    constructor
    · rintro ⟨b0, b1, h0, h1, h2⟩
      rw [hb] at h0
      injection h0 with h0
      subst h0
      rw [e1] at h1
      injection h1 with h1
      subst h1
      rw [← e2, h2]
    · intro he
      exact ⟨b, b', hb, e1, by rw [e2, he]⟩
  rw [key, hnew]
  have hprog : ∀ l : List Nat, (l.getLast?.map BackupStatus.inProgress).getD .idle ≠ .completed := by
    intro l e
    cases hl : l.getLast? <;> rw [hl] at e <;> cases e
  unfold jobStatuses
  cases ha : o.archive <;> cases hp : b.provider <;> cases hd : o.deliver <;>
    simp [List.getLast?_append, hprog]

/-- C39 fails: the archive breaks off after half of the data, the broken file is moved into place, and the
backup is recorded as completed. -/
theorem C39_violated : ∃ n kv id now o, Hist exEnv n kv ∧ n < 2 ^ 61 ∧ (∃ e, o.archive = .err e) ∧ FinalStatus exEnv kv id now o .completed := by
  have hh : Hist exEnv 1 (runReqs exEnv (exBackups.take 1) []) := .step (.backupCreate ⟨0, 0⟩ exBackup) .start (by intro n e; cases e)
  have e1 : (backupsC.getById 1 (runReqs exEnv (exBackups.take 1) [])).toOption.map (fun b => (b.status, b.provider)) = some (.idle, .localDir []) := by decide +kernel
  cases g1 : backupsC.getById 1 (runReqs exEnv (exBackups.take 1) []) with
  | error x => rw [g1] at e1; cases e1
  | ok b1 =>
    rw [g1] at e1
    simp only [Except.toOption, Option.map_some, Option.some.injEq, Prod.mk.injEq] at e1
    refine ⟨1, _, 1, fun _ => ⟨9, 0⟩, ⟨[50], .err ['d', 'i', 's', 'k'], .ok⟩, hh, by decide, ⟨_, rfl⟩, ?_⟩
    exact (C39_completed_iff hh g1 _ (by show (1 : Nat) + 1 < 2 ^ 61; decide) (by simp) e1.1).mpr ⟨by simp, .inl rfl⟩

/-- A case of `C39_partial`: the temporary file cannot be created, so there is nothing to move. -/
example : ∃ n kv id, Hist exEnv n kv ∧ FinalStatus exEnv kv id (fun _ => ⟨9, 0⟩) ⟨[], .err ['x'], .err ['y']⟩ (.failed ['y']) := by
  have hh : Hist exEnv 1 (runReqs exEnv (exBackups.take 1) []) := .step (.backupCreate ⟨0, 0⟩ exBackup) .start (by intro n e; cases e)
  have e1 : (backupsC.getById 1 (runReqs exEnv (exBackups.take 1) [])).toOption.map (fun b => (b.status, b.provider)) = some (.idle, .localDir []) := by decide +kernel
  cases g1 : backupsC.getById 1 (runReqs exEnv (exBackups.take 1) []) with
  | error x => rw [g1] at e1; cases e1
  | ok b1 =>
    rw [g1] at e1
    simp only [Except.toOption, Option.map_some, Option.some.injEq, Prod.mk.injEq] at e1
    exact ⟨1, _, 1, hh, C39_partial hh g1 _ (by show (1 : Nat) + 0 < 2 ^ 61; decide) (by simp) (by intro _ _ _ e; rw [e1.2] at e; cases e) rfl rfl⟩

end OptiPrism.Meta
