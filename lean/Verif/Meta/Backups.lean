import Verif.Meta.Listing
import Verif.Meta.Members

/-!
# Backups: creation, status changes, and the job that runs them
-/

namespace OptiPrism.Meta

open OptiPrism.Storage (Bytes)

variable {Q : Type}

theorem backupStatus_ok {id : Nat} {now : Time} {st : BackupStatus} (h : ∀ n, st = .inProgress n → n < 2 ^ 64) :
    (Op.update id (fun _ => []) (fun b => .ok { b with status := st, updatedAt := some now })
      (fun b => { b with status := st, updatedAt := some now })).Ok backupsC Backup.Valid :=
  noix_ok _ (fun r r' e => by injection e with e; exact e.symm) (fun _ => rfl) (fun r hv => ⟨hv.id, h⟩) (by simp [backupsC])

/-- A status change sets the status of the backup and touches no other. -/
theorem status_exec {E : Env Q} {n : Nat} {kv : Kv} (h : Hist E n kv) (hn : n < 2 ^ 62) {id : Nat} (now : Time) {st : BackupStatus}
    (hs : ∀ n, st = .inProgress n → n < 2 ^ 64) (j : Nat) :
    backupsC.live ((Req.backupStatus id now st).exec E kv) j =
      if j = id then (backupsC.live kv id).map (fun b => Backup.norm { b with status := st, updatedAt := some now }) else backupsC.live kv j := by
  have hi := (hist_backups h hn).inv backups_ok
  show backupsC.live (runCall (backupUpdateStatus id now st) kv).2 j = _
  obtain ⟨ho1, ho2, ho3, sel, hs', hsn, hp, hrest⟩ := backupStatus_ok (id := id) (now := now) hs
  rcases update_spec backups_ok hi hs' hsn ho1 hp hrest ho2 ho3 (id := id) with ⟨hl, e⟩ | ⟨r, hl, ⟨ht, -⟩ | ⟨-, ⟨x, ex, -⟩ | ⟨-, kv', e, -, -, hk⟩⟩⟩
  · rw [show (runCall (backupUpdateStatus id now st) kv).2 = kv by unfold runCall backupUpdateStatus; rw [e]]
    split
    · rename_i hj; rw [hj, hl]; rfl
    · rfl
  · obtain ⟨i, hm, -⟩ := ht; simp [backupsC] at hm
  · cases ex
  · rw [show (runCall (backupUpdateStatus id now st) kv).2 = kv' by unfold runCall backupUpdateStatus; rw [e], hk j, hl]
    rfl

/-- A creation adds a backup or does nothing. -/
theorem create_exec {E : Env Q} {n : Nat} {kv : Kv} (h : Hist E n kv) (hn : n < 2 ^ 62) {now : Time} {req : Backup}
    (hr : ∀ n, req.status = .inProgress n → n < 2 ^ 64) :
    (backupCreate now req kv = .error .alreadyExists ∧ req.status = .idle ∧ ∃ id b, backupsC.live kv id = some b ∧ b.status = .idle) ∨
    ((req.status = .idle → ∀ id b, backupsC.live kv id = some b → b.status ≠ .idle) ∧
      ∃ b kv', backupCreate now req kv = .ok (b, kv') ∧ b.status = req.status ∧ backupsC.live kv b.id = none ∧
      ∀ j, backupsC.live kv' j = if j = b.id then some b.norm else backupsC.live kv j) := by
  have hreach := hist_backups h hn
  have hi := hreach.inv backups_ok
  have hroom := hreach.room backups_ok
  have ho : (Op.create [] (fun id => { req with id := id, createdAt := now, updatedAt := none })).Ok backupsC Backup.Valid :=
    ⟨fun _ => rfl, fun _ => rfl, fun id hid => ⟨hid, hr⟩⟩
  have hcr : ∃ b kv', backupsC.create [] (fun id => { req with id := id, createdAt := now, updatedAt := none }) kv = .ok (b, kv') ∧
      b.status = req.status ∧ backupsC.live kv b.id = none ∧ ∀ j, backupsC.live kv' j = if j = b.id then some b.norm else backupsC.live kv j := by
    obtain ⟨hk, hid, hv⟩ := ho
    rcases create_spec backups_ok hi hroom hk hid hv with ⟨ht, -⟩ | ⟨-, kv1, e', h1, -, h3⟩
    · obtain ⟨i, hm, -⟩ := ht; simp [backupsC] at hm
    · obtain ⟨e1, e2, -, e4⟩ := create_done backups_ok hi hroom ⟨hk, hid, hv⟩ e'
      refine ⟨_, kv1, e', rfl, e2, fun j => ?_⟩
      rw [e4 j]
      by_cases hj : j = lastId kv backupsC.ns + 1
      · rw [if_pos hj, if_pos hj, hj]
      · rw [if_neg hj, if_neg hj]
  unfold backupCreate
  dsimp only
  by_cases hs : req.status = .idle
  · rw [if_pos hs]
    obtain ⟨l, hl, hl2, -⟩ := list_spec h.clean hi
    rw [hl]
    dsimp only
    by_cases ha : l.any fun b => b.status = .idle
    · rw [if_pos ha]
      obtain ⟨b, hb, hbs⟩ := List.any_eq_true.mp ha
      obtain ⟨id, hid⟩ := (hl2 b).mp hb
      exact .inl ⟨rfl, hs, id, b, hid, of_decide_eq_true hbs⟩
    · rw [if_neg ha]
      refine .inr ⟨fun _ id b hb he => ha (List.any_eq_true.mpr ⟨b, (hl2 b).mpr ⟨id, hb⟩, decide_eq_true he⟩), hcr⟩
  · rw [if_neg hs]
    exact .inr ⟨fun e => absurd e hs, hcr⟩

/-! ## The job -/

/-- How a step that can fail ends. -/
inductive Step where
  | ok
  | err (e : Str)
  | panic
  deriving DecidableEq, Repr

/-- What happens to one run, as seen by `run_backup`: the percentages reported by `full_backup`, how the
production of the archive in the temporary file ended (`backup_to_tmp`, cmd/backup.rs 244-275), how its delivery
ended (`backup_local` 277-296 or `backup_gcp` 298-321). -/
structure Outcome where
  progress : List Nat
  archive : Step
  deliver : Step
  deriving DecidableEq, Repr

/-- The statuses written by `run_backup` and the loop that calls it, in order, cmd/backup.rs 85-108, 183-229.
`hnd.await.unwrap()` (line 213) and `w.finish().await.unwrap()` (line 317) are where panics end the loop. -/
def jobStatuses (p : Provider) (o : Outcome) : List BackupStatus :=
  o.progress.map .inProgress ++
  match o.archive with
  | .panic => []
  | a =>
    (match a with | .err e => [.failed e] | _ => []) ++
    match p with
    | .localDir _ => (match o.deliver with | .ok => [.completed] | .err e => [.failed e] | .panic => [])
    | .gcp _ _ => .uploading :: (match o.deliver with | .ok => [.completed] | .err e => [.failed e] | .panic => [])
    | .s3 _ _ _ => [.completed]

/-- The job as requests to the metadata store; `now` is the clock at each of them. -/
def jobReqs (id : Nat) (now : Nat → Time) (l : List BackupStatus) : List (Req Q) :=
  l.zipIdx.map fun s => .backupStatus id (now s.2) s.1

theorem job_last {E : Env Q} (id : Nat) (now : Nat → Time) (l : List (BackupStatus × Nat)) :
    ∀ {n : Nat} {kv : Kv}, Hist E n kv → n + l.length < 2 ^ 62 → (∀ s ∈ l, ∀ p, s.1 = .inProgress p → p < 2 ^ 64) →
    ∀ {b : Backup}, backupsC.live kv id = some b →
    ∃ b', backupsC.live (runReqs E (l.map fun s => .backupStatus id (now s.2) s.1) kv) id = some b' ∧
      b'.status = ((l.map (·.1)).getLast?.getD b.status) ∧ b'.provider = b.provider := by
  induction l with
  | nil => intro n kv _ _ _ b hb; exact ⟨b, hb, rfl, rfl⟩
  | cons s l ih =>
    intro n kv h hn hp b hb
    have hs := hp s (List.mem_cons_self ..)
    rw [List.length_cons] at hn
    have h1 := status_exec h (by omega) (now s.2) hs id (id := id)
    rw [if_pos rfl, hb] at h1
    obtain ⟨b', e1, e2, e3⟩ := ih (h.step (.backupStatus id (now s.2) s.1) hs) (by omega) (fun s hm => hp s (List.mem_cons_of_mem _ hm)) h1
    refine ⟨b', e1, ?_, e3⟩
    rw [e2, List.map_cons]
    cases hl : l.map (·.1) with
    | nil => rfl
    | cons x xs => rw [List.getLast?_cons_cons, List.getLast?_eq_some_getLast (List.cons_ne_nil _ _)]; rfl

theorem zipIdx_fst {α : Type} (l : List α) (i : Nat) : (l.zipIdx i).map (·.1) = l := by
  induction l generalizing i with
  | nil => rfl
  | cons a l ih => simp [List.zipIdx_cons, ih]

end OptiPrism.Meta
