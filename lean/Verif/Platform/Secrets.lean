import Verif.Platform.AdminApi
import Verif.Platform.ReportApi
import Verif.Meta.TwinCalls

/-!
# The whole API in front of the metadata

Calls come with a token; `authorize` makes the caller of it, and the calls of `Auth.lean`, `SchemaApi.lean`, `ReportApi.lean`, `AdminApi.lean`
and `SettingsApi.lean` follow. A conversation is a list of calls, with requests of other parts of the system in between.
-/

namespace OptiPrism.Platform

open OptiPrism.Meta

variable {N Q : Type}

/-- The calls of platform/src/reports.rs 21-112. -/
inductive ReportCall (N : Type) where
  | create (q : JReportNew N)
  | get (id : Nat)
  | list
  | update (id : Nat) (q : JReportUpd N)
  | delete (id : Nat)

def ReportCall.op : ReportCall N → ProjOp
  | .create _ => .reportCreate | .get _ => .reportGet | .list => .reportList | .update .. => .reportUpdate | .delete _ => .reportDelete

inductive ReportShown (N : Type) where
  | report (j : JReport N) | reports (l : List (JReport N))

/-- A reply with the report in it. -/
def oneReport (r : Option (Except Err (JReport N))) : Option (Except Refusal (ReportShown N)) :=
  r.map fun
    | .error e => .error (.failed e)
    | .ok j => .ok (.report j)

/-- platform/src/reports.rs 61-72. -/
def reportListAnswer (R : ReqEnv N) : Except Err (List (Report CReportQuery)) → Option (Except Refusal (ReportShown N))
  | .error e => some (.error (.failed e))
  | .ok l => (l.mapM (reportOut R)).map fun js => .ok (.reports js)

/-- platform/src/reports.rs 25-112. -/
def ReportCall.run (A : AdminEnv N) (ctx : Ctx) (p : Nat) (now : Time) (c : ReportCall N) (kv : Kv) :
    Option (Except Refusal (ReportShown N)) × Kv :=
  if !c.op.allowed ctx p then (some (.error .forbidden), kv)
  else match c with
    | .create q => ((fun r => (oneReport r.1, r.2)) (apiReportCreate A.R A.bc p ctx.accountId now q kv))
    | .get id => (oneReport (apiReportGet A.R A.bc p id kv), kv)
    | .list => (reportListAnswer A.R ((reportsC A.bc p).list kv), kv)
    | .update id q => ((fun r => (oneReport r.1, r.2)) (apiReportUpdate A.R A.bc p ctx.accountId id now q kv))
    | .delete id => ((fun r => (oneReport (reportAnswer A.R r.1), r.2)) (runCall ((reportsC A.bc p).delete id) kv))

inductive ApiCall (N : Type) where
  | auth (c : AuthCall)
  | schema (t : Tok) (p : Nat) (c : SchemaCall N)
  | report (t : Tok) (p : Nat) (c : ReportCall N)
  | admin (t : Tok) (c : AdminCall N)
  | settingsGet (t : Tok)
  | settingsSet (t : Tok) (q : SettingsBody)

inductive ApiReply (N : Type) where
  | refused (e : AErr)
  | auth (a : Answer)
  | schema (r : Option (Except Refusal (Shown N)))
  | report (r : Option (Except Refusal (ReportShown N)))
  | admin (r : AdminReply N)
  | settings (r : Except AErr SettingsBody)

/-- A call of the caller the token names. -/
def asCaller (now : Int) (t : Tok) (kv : Kv) (f : Ctx → ApiReply N × Kv) : ApiReply N × Kv :=
  match authorize now t kv with
  | .error e => (.refused e, kv)
  | .ok ctx => f ctx

def ApiCall.run (C : AuthEnv) (A : AdminEnv N) (now : Int) (stamp : Time) (salt : Nat) (c : ApiCall N) (kv : Kv) : ApiReply N × Kv :=
  match c with
  | .auth c => (fun r => (.auth r.1, r.2)) (c.run C now stamp salt kv)
  | .schema t p c => asCaller now t kv fun ctx => (fun r => (.schema r.1, r.2)) (c.run A.R ctx p stamp kv)
  | .report t p c => asCaller now t kv fun ctx => (fun r => (.report r.1, r.2)) (c.run A ctx p stamp kv)
  | .admin t c => asCaller now t kv fun ctx => (fun r => (.admin r.1, r.2)) (c.run A ctx stamp kv)
  | .settingsGet t => asCaller now t kv fun ctx => (.settings (getSettings ctx kv), kv)
  | .settingsSet t q => asCaller now t kv fun ctx => (fun r => (.settings r.1, r.2)) (setSettings ctx q kv)

/-- The integers of the request have 64 bits. -/
def AdminCall.Ok : AdminCall N → Prop
  | .accountCreate _ q => (∀ m ∈ q.organizations.getD [], m.1 < 2 ^ 64) ∧ (∀ m ∈ q.projects.getD [], m.1 < 2 ^ 64) ∧
      ∀ m ∈ q.teams.getD [], m.1 < 2 ^ 64
  | .accountUpdate _ _ q => (∀ l, q.organizations = some (some l) → ∀ m ∈ l, m.1 < 2 ^ 64) ∧
      (∀ l, q.projects = some (some l) → ∀ m ∈ l, m.1 < 2 ^ 64) ∧ ∀ l, q.teams = some (some l) → ∀ m ∈ l, m.1 < 2 ^ 64
  | _ => True

def ApiCall.Ok : ApiCall N → Prop
  | .auth c => c.Ok
  | .admin _ c => c.Ok
  | _ => True

inductive ApiStep (N Q : Type) where
  /-- A call at some time, with what is drawn for it. -/
  | call (c : ApiCall N) (now : Int) (stamp : Time) (salt : Nat)
  /-- A request to the metadata of another part of the system. -/
  | other (r : Req Q)

def ApiStep.Ok : ApiStep N Q → Prop
  | .call c .. => c.Ok
  | .other r => r.Ok

/-- The replies to the calls, in order, and the store in the end. -/
def converse (C : AuthEnv) (A : AdminEnv N) (E : Env Q) : List (ApiStep N Q) → Kv → List (ApiReply N) × Kv
  | [], kv => ([], kv)
  | .call c now stamp salt :: l, kv =>
    let r := c.run C A now stamp salt kv
    let rest := converse C A E l r.2
    (r.1 :: rest.1, rest.2)
  | .other r :: l, kv => converse C A E l (r.exec E kv)

/-! ## Passwords presented -/

/-- The password a call asks to compare with that of an account. -/
def ApiCall.guess : ApiCall N → Option Str
  | .auth (.logIn _ pw _) | .auth (.updateEmail _ _ pw) | .auth (.updatePassword _ pw _) => some pw
  | _ => none

/-- A password gives the same answer for every account of the two stores. -/
def SameCheck (C : AuthEnv) (pw : Str) (kv kv' : Kv) : Prop :=
  ∀ id a a', accountsC.getById id kv = .ok a → accountsC.getById id kv' = .ok a' → C.check pw a.passwordHash = C.check pw a'.passwordHash

/-- Along the two runs of a conversation, each password presented gives the same answers. -/
def SameChecks (C : AuthEnv) (A : AdminEnv N) (E : Env Q) : List (ApiStep N Q) → Kv → Kv → Prop
  | [], _, _ => True
  | .call c now stamp salt :: l, kv, kv' =>
    (∀ pw, c.guess = some pw → SameCheck C pw kv kv') ∧ SameChecks C A E l (c.run C A now stamp salt kv).2 (c.run C A now stamp salt kv').2
  | .other r :: l, kv, kv' => SameChecks C A E l (r.exec E kv) (r.exec E kv')

end OptiPrism.Platform
