import Verif.Platform.Request
import Verif.Meta.System

/-!
# The report calls of the API (platform/src/reports.rs 21-112)

The permission checks in front of them are the subject of `Platform/Access.lean` and left out here. An answer is `none` when
the call panics; the store keeps what was written before the panic.
-/

namespace OptiPrism.Platform

open OptiPrism.Meta (Str Time Kv Err Report ReportType ReportUpd Bincode runCall reportsC reportCreate reportUpdate)

variable {N : Type}

/-- platform/src/reports.rs 184-197. (`Type`, 116-137, has the two values of `metadata::reports::Type`.) -/
structure JReport (N : Type) where
  id : Nat
  createdAt : Time
  updatedAt : Option Time
  createdBy : Nat
  updatedBy : Option Nat
  projectId : Nat
  tags : Option (List Str)
  name : Str
  description : Option Str
  typ : ReportType
  query : JReportQuery N

/-- platform/src/reports.rs 201-208. -/
structure JReportNew (N : Type) where
  tags : Option (List Str)
  name : Str
  description : Option Str
  typ : ReportType
  query : JReportQuery N

/-- platform/src/reports.rs 212-227. -/
structure JReportUpd (N : Type) where
  tags : Option (Option (List Str)) := none
  name : Option Str := none
  description : Option (Option Str) := none
  typ : Option ReportType := none
  query : Option (JReportQuery N) := none

/-- platform/src/reports.rs 164-180. -/
def reportOut (R : ReqEnv N) (r : Report CReportQuery) : Option (JReport N) := do
  let q ← reportQueryOut R r.query
  return { id := r.id, createdAt := r.createdAt, updatedAt := r.updatedAt, createdBy := r.createdBy, updatedBy := r.updatedBy,
           projectId := r.projectId, tags := r.tags, name := r.name, description := r.description, typ := r.typ, query := q }

/-- What the client sees of a metadata call that answers with a report. -/
def reportAnswer (R : ReqEnv N) : Except Err (Report CReportQuery) → Option (Except Err (JReport N))
  | .error e => some (.error e)
  | .ok r => (reportOut R r).map .ok

/-- platform/src/reports.rs 25-49. -/
def apiReportCreate (R : ReqEnv N) (bc : Bincode CReportQuery) (p account : Nat) (now : Time) (req : JReportNew N) (kv : Kv) :
    Option (Except Err (JReport N)) × Kv :=
  match reportQueryIn R req.query with
  | none => (none, kv)
  | some q =>
    let out := runCall (reportCreate bc p now
      { id := 0, createdAt := now, createdBy := account, updatedAt := none, updatedBy := none, projectId := 0, tags := req.tags,
        name := req.name, description := req.description, typ := req.typ, query := q }) kv
    (reportAnswer R out.1, out.2)

/-- platform/src/reports.rs 51-59. -/
def apiReportGet (R : ReqEnv N) (bc : Bincode CReportQuery) (p id : Nat) (kv : Kv) : Option (Except Err (JReport N)) :=
  reportAnswer R ((reportsC bc p).getById id kv)

/-- platform/src/reports.rs 74-100. -/
def apiReportUpdate (R : ReqEnv N) (bc : Bincode CReportQuery) (p account id : Nat) (now : Time) (req : JReportUpd N) (kv : Kv) :
    Option (Except Err (JReport N)) × Kv :=
  match optConv (reportQueryIn R) req.query with
  | none => (none, kv)
  | some q =>
    let out := runCall (reportUpdate bc p id now
      { updatedBy := account, tags := req.tags, name := req.name, description := req.description, query := q, typ := req.typ }) kv
    (reportAnswer R out.1, out.2)

end OptiPrism.Platform
