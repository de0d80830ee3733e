import Verif.Ingest.Setup

/-!
# Model: the rows that end sessions (cmd/src/lib.rs 357-432, metadata/src/sessions.rs 104-135)

What the cleaner of sessions writes into the table of events when it closes sessions. Which sessions it closes is C36; here each has the clock at which it is
looked at. A failure anywhere is a panic in the code (`unwrap`), which ends the thread; what has been written by then stays.
-/

namespace OptiPrism.Ingest

open OptiPrism.Meta OptiPrism.Storage

/-- `(now - created_at).num_seconds()`, lib.rs 368-369: whole seconds, rounded towards zero. -/
def idleFor (now last : Time) : Int :=
  ((now.sec.toInt * 1000000000 + now.nano) - (last.sec.toInt * 1000000000 + last.nano)).tdiv 1000000000

/-- The row that ends a session, lib.rs 385-419; the time is in seconds (399). -/
def endRow (p user rec ev : Nat) (now : Time) (col : Str) (len : Int) : List NamedValue :=
  keyCells p user ++ groupCells none ++ [nv kCreatedAt (.timestamp (some (secs now))), nv kEventId (i64 rec), nv kEvent (i64 ev),
    nv col (.timestamp (some (BitVec.ofInt 64 len)))]

/-- The callback, lib.rs 366-424: whether the session is closed. -/
def endSession (sys : Str → Str) (p dur : Nat) (now : Time) (s : Session) : M Bool :=
  if idleFor now s.createdAt < (BitVec.ofNat 64 dur).toInt then M.pure false
  else
    (call (nextSeq (.recSeq p))).bind fun rec =>
    (read ((eventsC p).getBy .name kSessionEnd)).bind fun ev =>
    (read ((propsC p .event).getBy .name kSessionLength)).bind fun r =>
    (insertRow kEvents (endRow p s.userId rec ev.id now (r.columnName sys) (idleFor now s.createdAt))).bind fun _ =>
    M.pure true

/-- The loop over the sessions, sessions.rs 126-130: the users whose sessions are closed. `now u` is the clock when the session of `u` is looked at. -/
def endSessions (sys : Str → Str) (p dur : Nat) (now : Nat → Time) : List Session → M (List Nat)
  | [] => M.pure []
  | s :: l => (endSession sys p dur (now s.userId) s).bind fun closed =>
    (endSessions sys p dur now l).bind fun us => M.pure (if closed then s.userId :: us else us)

/-- `check_for_deletion` with the callback, sessions.rs 104-135: the sessions are read, then looked at one after the other, and those closed are deleted at the
end, in one transaction. -/
def cleanSessions (sys : Str → Str) (p dur : Nat) (now : Nat → Time) : M Unit :=
  (read fun kv => readAll Session.dec (entries (sessionPrefix p) kv)).bind fun l =>
  (endSessions sys p dur now l).bind fun us =>
  call fun kv => .ok ((), deleteSessions p us kv)

end OptiPrism.Ingest
