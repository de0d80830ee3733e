import Verif.Platform.AdminApi
import Verif.Meta.Backups
import Verif.Meta.ListingProps
import Verif.Query.Calendar

/-!
# The scheduler of backups

cmd/src/backup.rs: the loop that runs the backups asked for and makes those of the schedule (67-181), the files it leaves (183-229, 278-320),
and what is done about backups when the server starts (47-65).

Simplified:
* one turn of the loop is one step, nothing else happens to the store between its reads and writes (the turn sleeps for ten seconds first; requests
  run between turns here, and a turn during which a backup is deleted, which ends the loop at `expect("update status error")`, is left out);
* what the archive contains, and the steps of the delivery, are an `Outcome` given from outside; a file counts as written when the delivery succeeded;
* `Cron` (the crate `croner`) is trusted to find, for the five patterns used, the minutes named by them in UTC, and to refuse hours from 24 on;
* the temporary files are left out.
-/

namespace OptiPrism.Platform
open OptiPrism.Meta

variable {Q : Type}

/-- Where an archive ends up: in the directory `backups` of the server's data, or in a bucket of GCP. The name of the file is the hour of the backup. -/
inductive Sink where
  | data (hour : Int)
  | bucket (name path : Str) (hour : Int)
  deriving DecidableEq, Repr

/-- `backup_local` 278-295 takes the directory of the server, not that of the backup; `backup_gcp` 297-302 takes the bucket of the settings and the path of
the backup (metadata/src/backups.rs 83-89); `run_backup` 220-226 does nothing for S3. -/
def sinkOf (s : Settings) (b : Backup) : Option Sink :=
  match b.provider with
  | .localDir _ => some (.data (hourOf b.createdAt))
  | .gcp _ path => some (.bucket s.gcpBucket path (hourOf b.createdAt))
  | .s3 _ _ _ => none

/-- The server as the scheduler sees it: the store, the archives (with the number of the backup that wrote them and whether it archived everything), and
whether the task of the loop still runs. -/
structure Server where
  kv : Kv
  files : Sink → Option (Nat × Bool)
  alive : Bool

/-- Where a panic of `run_backup` ends the loop: 219 and 316. -/
def Outcome.halts (p : Provider) (o : Outcome) : Bool :=
  o.archive = .panic || (match p with | .s3 _ _ _ => false | _ => o.deliver = .panic)

/-- The file left by a run, 206-226: what the archive holds is delivered even when archiving failed. -/
def Outcome.write (s : Settings) (b : Backup) (o : Outcome) (f : Sink → Option (Nat × Bool)) : Sink → Option (Nat × Bool) :=
  match sinkOf s b with
  | none => f
  | some k => if o.archive ≠ .panic ∧ o.deliver = .ok then fun k' => if k' = k then some (b.id, decide (o.archive = .ok)) else f k' else f

/-- A run of a backup within the loop, 84-109, 155-177; `clock` is the clock at each status written. -/
def runJob (E : Env Q) (s : Settings) (b : Backup) (clock : Nat → Time) (o : Outcome) (w : Server) : Server :=
  { kv := runReqs E (jobReqs b.id clock (jobStatuses b.provider o)) w.kv
    files := Outcome.write s b o w.files
    alive := !Outcome.halts b.provider o }

/-- `truncate_to_minute`, 39-45. -/
def minuteOf (t : Time) : Int := t.sec.toInt / 60

/-- The pattern of the schedule at a minute, 113-143. Days are numbered from 0001-01-01, a Monday. -/
def dueAt (iv : Interval) (startHour : Nat) (minute : Int) : Bool :=
  let day := minute / 1440 + 719162
  let hour := minute / 60 % 24
  minute % 60 = 0 &&
  match iv with
  | .hourly => true
  | .daily => hour = startHour
  | .weekly => hour = startHour && day % 7 = 6
  | .monthly => hour = startHour && Query.dayOf day = 1
  | .yearly => hour = startHour && Query.dayOf day = 1 && Query.monthOf day = 1

/-- `Cron::new(..).parse()` accepts the pattern, 130. -/
def cronOk (s : Settings) : Bool := s.interval = .hourly || s.startHour < 24

/-- The order of the keys of backups: their numbers as decimal strings (metadata/src/lib.rs 108-110). -/
def keyLe (a b : Backup) : Bool := decide (decimal a.id ≤ decimal b.id)

/-- `find(|b| b.status == Idle)` on the list in the order of the keys, 80-82. -/
def firstIdle : List Backup → Option Backup
  | [] => none
  | b :: l =>
    match firstIdle l with
    | none => if b.status = .idle then some b else none
    | some c => if b.status = .idle ∧ keyLe b c then some b else some c

/-- `backups.data.last()` on the list in the order of the keys, 146. -/
def keyLast : List Backup → Option Backup
  | [] => none
  | b :: l =>
    match keyLast l with
    | none => some b
    | some c => if keyLe b c then some c else some b

/-- What a turn of the loop gets from outside. -/
structure Turn where
  now : Time
  clock : Nat → Time
  out : Outcome

/-- The last backup in the order of the keys is of this minute, 145-152. -/
def madeThisMinute (now : Time) (l : List Backup) : Bool :=
  match keyLast l with
  | none => false
  | some b => minuteOf b.createdAt = minuteOf now

/-- 145-177: a backup is made and run, unless the last one is of this minute. `create_backup`, 231-241, panics for S3. -/
def schedule (E : Env Q) (s : Settings) (l : List Backup) (t : Turn) (w : Server) : Server :=
  if madeThisMinute t.now l then w
  else if s.provider = .s3 then { w with alive := false }
  else
    match runCall (backupCreate t.now (fromSettings t.now s)) w.kv with
    | (.error _, kv) => { w with kv := kv, alive := false }
    | (.ok b, kv) => runJob E s b t.clock t.out { w with kv := kv }

/-- One turn of the loop, 71-178. -/
def turn (E : Env Q) (t : Turn) (w : Server) : Server :=
  if !w.alive then w
  else
    match loadSettings w.kv with
    | .error _ => { w with alive := false }
    | .ok s =>
      if !s.backupEnabled then w
      else
        match backupsC.list w.kv with
        | .error _ => { w with alive := false }
        | .ok l =>
          match firstIdle l with
          | some b => runJob E s b t.clock t.out w
          | none =>
            if !cronOk s then { w with alive := false }
            else if !dueAt s.interval s.startHour (minuteOf t.now) then w
            else schedule E s l t w

@[irreducible] def kRestarted : Str := "server restarted".toList

/-- `init`, 47-65: the backups in progress are marked as failed. -/
def restart (E : Env Q) (clock : Nat → Time) (w : Server) : Option Server :=
  match backupsC.list w.kv with
  | .error _ => none
  | .ok l =>
    let ids := (l.filter fun b => match b.status with | .inProgress _ => true | _ => false).map (·.id)
    some { w with kv := runReqs E (ids.map fun id => .backupStatus id (clock id) (.failed kRestarted)) w.kv, alive := true }

end OptiPrism.Platform
