import Verif.Platform.Scheduler
import Verif.Meta.BackupsProps

/-!
# What the schedule of backups means
-/

namespace OptiPrism.Platform
open OptiPrism.Meta

/-- A second, counted from 1970, lies in a minute of the schedule: the first minute of an hour of a day of the calendar, of every hour, or of the hour of the
settings on every day, on Sundays, on the first of the month or on the first of January. Days are numbered from 0001-01-01, a Monday; 1970-01-01 is 719162. -/
def Scheduled (iv : Interval) (hour : Nat) (t : Int) : Prop :=
  ∃ (y : Int) (m : Nat) (d h s : Int), 1 ≤ m ∧ m ≤ 12 ∧ 1 ≤ d ∧ d ≤ Query.monthLen y m ∧ 0 ≤ h ∧ h < 24 ∧ 0 ≤ s ∧ s < 60 ∧
    t = ((Query.dayNum y m d - 719162) * 24 + h) * 3600 + s ∧
    match iv with
    | .hourly => True
    | .daily => h = hour
    | .weekly => h = hour ∧ Query.dayNum y m d % 7 = 6
    | .monthly => h = hour ∧ d = 1
    | .yearly => h = hour ∧ d = 1 ∧ m = 1

/-- A backup was made between two states of the store. -/
def Appeared (kv kv' : Kv) (id : Nat) (b : Backup) : Prop := backupsC.getById id kv = .error .notFound ∧ backupsC.getById id kv' = .ok b

/-- The backup whose number, as a string, is the greatest. -/
def Topmost (kv : Kv) (id : Nat) (b : Backup) : Prop :=
  backupsC.getById id kv = .ok b ∧ ∀ i c, backupsC.getById i kv = .ok c → decimal i ≤ decimal id

/-- How a run must end: completed if and only if the archiving did not panic and, but for S3, the delivery succeeded; with the error of the
delivery if that failed. -/
structure Ended (p : Provider) (o : Outcome) (st : BackupStatus) : Prop where
  completed : st = .completed ↔ o.archive ≠ .panic ∧ (o.deliver = .ok ∨ ∃ x y z, p = .s3 x y z)
  failed : ∀ e, o.archive ≠ .panic → o.deliver = .err e → (∀ x y z, p ≠ .s3 x y z) → st = .failed e
  uploading : ∀ x y, o.archive ≠ .panic → o.deliver = .panic → p = .gcp x y → st = .uploading

/-- The file of a backup: its hour, in the server's own directory or in the bucket of the settings at the path of the backup. -/
inductive FileOf (s : Settings) (b : Backup) : Sink → Prop
  | data {dir : Str} : b.provider = .localDir dir → FileOf s b (.data (b.createdAt.sec.toInt / 3600))
  | bucket {name path : Str} : b.provider = .gcp name path → FileOf s b (.bucket s.gcpBucket path (b.createdAt.sec.toInt / 3600))

/-- A run of the backup `id`: it ends as it must, keeps its place, time and password, leaves its file if there is one to leave, and nothing else changes. -/
structure RunOf (s : Settings) (o : Outcome) (id : Nat) (w w' : Server) (b b' : Backup) : Prop where
  shown : backupsC.getById id w'.kv = .ok b'
  ended : Ended b.provider o b'.status
  kept : b'.provider = b.provider ∧ b'.createdAt.sec = b.createdAt.sec ∧ b'.isEncrypted = b.isEncrypted ∧ b'.password = b.password
  others : ∀ j, j ≠ id → backupsC.getById j w'.kv = backupsC.getById j w.kv
  file : ∀ k, w'.files k = some (id, decide (o.archive = .ok)) ∧ FileOf s b k ∧ o.archive ≠ .panic ∧ o.deliver = .ok ∨
    w'.files k = w.files k ∧ ¬ (FileOf s b k ∧ o.archive ≠ .panic ∧ o.deliver = .ok)
  ends : w'.alive = false ↔ o.archive = .panic ∨ (o.deliver = .panic ∧ ∀ x y z, b.provider ≠ .s3 x y z)

/-- The turns of the loop, one after the other. -/
def turns {Q : Type} (E : Env Q) (ts : List Turn) (w : Server) : Server := ts.foldl (fun w t => turn E t w) w

end OptiPrism.Platform
