import Verif.Platform.Access
import Verif.Meta.Listing

/-!
# Signing up, logging in and tokens

platform/src/auth/provider.rs, platform/src/auth/token.rs, platform/src/auth/password.rs, the handlers of
platform/src/http/auth.rs, platform/src/accounts.rs and the extraction of the caller in
platform/src/context.rs 153-195.

Cryptography is symbolic: a token is the record of its claims and the key it was signed with, it verifies
under exactly that key, and callers present only tokens they were given. Password hashing is a function of
password and salt; what verifying answers is a parameter.
-/

namespace OptiPrism.Platform

open OptiPrism.Meta

/-- What the model leaves open: password.rs 7-21 (Argon2), `validate_email`, password.rs 23-36 (zxcvbn with the
inputs it must not resemble), and the durations of the configuration (common/src/config.rs 21-25), in seconds. -/
structure AuthEnv where
  hash : Str → Nat → Str
  check : Str → Str → Bool
  email : Str → Bool
  strong : Str → List Str → Bool
  accessTtl : Int
  refreshTtl : Int

/-- A hash verifies for its own password only. -/
def AuthEnv.Ok (C : AuthEnv) : Prop := ∀ p q s, C.check p (C.hash q s) = decide (p = q)

/-- A signed token: `AccessClaims` (token.rs 15-22) has an organization, `RefreshClaims` (token.rs 24-30) has none. -/
structure Tok where
  key : Str
  exp : Int
  account : Nat
  org : Option Nat
  deriving DecidableEq, Repr

/-- `Validation::new` of jsonwebtoken allows for this many seconds of clock skew. -/
def leeway : Int := 60

/-- The checks of `decode`: signature, expiry. -/
def Tok.valid (t : Tok) (key : Str) (now : Int) : Bool := decide (t.key = key) && !decide (t.exp < now - leeway)

/-- `parse_access_token`, token.rs 74-82: the organization is a required claim. -/
def parseAccess (key : Str) (now : Int) (t : Tok) : Option (Nat × Nat) :=
  if t.valid key now then t.org.map fun o => (t.account, o) else none

/-- `parse_refresh_token`, token.rs 84-92: other claims are ignored, so that an access token would do if both kinds
were signed with the same key. -/
def parseRefresh (key : Str) (now : Int) (t : Tok) : Option Nat := if t.valid key now then some t.account else none

/-- Refusals. -/
inductive AErr where
  | badToken | credentials | field | forbidden | store (e : Err)
  deriving DecidableEq, Repr

deriving instance DecidableEq for Except
deriving instance DecidableEq for Ctx

abbrev Answer := Except AErr (List Tok)

/-- `make_tokens`, provider.rs 39-56: access token and refresh token. -/
def makeTokens (C : AuthEnv) (now : Int) (account org : Nat) (kv : Kv) : Answer :=
  match loadSettings kv with
  | .error e => .error (.store e)
  | .ok s => .ok [⟨s.accessToken, now + C.accessTtl, account, some org⟩, ⟨s.refreshToken, now + C.refreshTtl, account, none⟩]

/-- `Context::from_request_parts`, context.rs 153-195. -/
def authorize (now : Int) (t : Tok) (kv : Kv) : Except AErr Ctx :=
  match loadSettings kv with
  | .error e => .error (.store e)
  | .ok s => match parseAccess s.accessToken now t with
    | none => .error .badToken
    | some (a, o) => match contextOf a o kv with
      | .error e => .error (.store e)
      | .ok c => .ok c

/-- `ADMIN_ID`, common/src/lib.rs 19. -/
def adminId : Nat := 1

/-- The account made by `sign_up`, provider.rs 68-79. -/
def signUpAccount (email hash : Str) (name : Option Str) : Account :=
  { id := 0, createdAt := ⟨0, 0⟩, createdBy := adminId, updatedAt := none, updatedBy := none, passwordHash := hash, email := email,
    name := name, role := none, forceUpdatePassword := false, forceUpdateEmail := false, organizations := none, projects := none,
    teams := none }

/-- Pass the outcome of a change of the metadata on: an error as it is (`?`), otherwise the answer made of the result. -/
def reply {α : Type} (r : Except Err α × Kv) (f : α → Kv → Answer) : Answer × Kv :=
  (match r.1 with | .error e => .error (.store e) | .ok a => f a r.2, r.2)

/-- `sign_up`, provider.rs 58-94. The repeated password of the request is not read. -/
def signUp (C : AuthEnv) (now : Int) (stamp : Time) (salt : Nat) (email pw : Str) (name : Option Str) (kv : Kv) : Answer × Kv :=
  if !C.email email then (.error .field, kv)
  else if !C.strong pw [email] then (.error .field, kv)
  else reply (runCall (accountCreate stamp (signUpAccount email (C.hash pw salt) name)) kv) fun acc kv' => makeTokens C now acc.id 0 kv'

/-- The organization of a new log-in, provider.rs 113-126 (`is_member`, metadata/src/organizations.rs 243-245). -/
def loginOrg (account : Nat) (org : Option Nat) (kv : Kv) : Except Err Nat :=
  match org with
  | some o => (orgsC.getById o kv).map fun r => if inOrg account r.members then r.id else 0
  | none => (orgsC.list kv).map fun l => match l.find? fun r => inOrg account r.members with
    | some r => r.id
    | none => 0

/-- `log_in`, provider.rs 96-131; `org` is the cookie, http/auth.rs 92-101. -/
def logIn (C : AuthEnv) (now : Int) (email pw : Str) (org : Option Nat) (kv : Kv) : Answer :=
  if !C.email email then .error .field
  else match accountsC.getBy .email email kv with
    | .error _ => .error .credentials
    | .ok acc =>
      if !C.check pw acc.passwordHash then .error .credentials
      else match loginOrg acc.id org kv with
        | .error e => .error (.store e)
        | .ok o => makeTokens C now acc.id o kv

/-- `refresh_token`, provider.rs 133-140, http/auth.rs 113-139: the handler asks for a caller, that is for a valid access
token, as well. -/
def refresh (C : AuthEnv) (now : Int) (access ref : Tok) (kv : Kv) : Answer :=
  match authorize now access kv with
  | .error e => .error e
  | .ok ctx => match loadSettings kv with
    | .error e => .error (.store e)
    | .ok s => match parseRefresh s.refreshToken now ref with
      | none => .error .badToken
      | some a => makeTokens C now a ctx.organizationId kv

/-- The end common to the changes of one's own account: update, then new tokens (provider.rs 205-218, 255-259, 290-294,
315-319). -/
def changeSelf (C : AuthEnv) (now : Int) (stamp : Time) (ctx : Ctx) (acc : Account) (q : AccountUpd) (kv : Kv) : Answer × Kv :=
  reply (runCall (accountUpdate ctx.accountId stamp q) kv) fun _ kv' => makeTokens C now acc.id ctx.organizationId kv'

/-- `update_name`, provider.rs 152-172. -/
def updateName (now : Int) (stamp : Time) (t : Tok) (name : Str) (kv : Kv) : Answer × Kv :=
  match authorize now t kv with
  | .error e => (.error e, kv)
  | .ok ctx =>
    if name.isEmpty then (.error .field, kv)
    else reply (runCall (accountUpdate ctx.accountId stamp { updatedBy := ctx.accountId, name := some (some name) }) kv) fun _ _ => .ok []

/-- `update_email`, provider.rs 174-219. -/
def updateEmail (C : AuthEnv) (now : Int) (stamp : Time) (t : Tok) (email pw : Str) (kv : Kv) : Answer × Kv :=
  match authorize now t kv with
  | .error e => (.error e, kv)
  | .ok ctx =>
    if !C.email email then (.error .field, kv)
    else match accountsC.getById ctx.accountId kv with
      | .error e => (.error (.store e), kv)
      | .ok acc =>
        if !C.check pw acc.passwordHash then (.error .field, kv)
        else changeSelf C now stamp ctx acc { updatedBy := ctx.accountId, email := some email } kv

/-- `update_password`, provider.rs 221-260. -/
def updatePassword (C : AuthEnv) (now : Int) (stamp : Time) (salt : Nat) (t : Tok) (pw new : Str) (kv : Kv) : Answer × Kv :=
  match authorize now t kv with
  | .error e => (.error e, kv)
  | .ok ctx => match accountsC.getById ctx.accountId kv with
    | .error e => (.error (.store e), kv)
    | .ok acc =>
      if !C.check pw acc.passwordHash then (.error .field, kv)
      else if !C.strong new [] then (.error .field, kv)
      else changeSelf C now stamp ctx acc { updatedBy := ctx.accountId, passwordHash := some (C.hash new salt) } kv

/-- `set_password`, provider.rs 262-295. -/
def setPassword (C : AuthEnv) (now : Int) (stamp : Time) (salt : Nat) (t : Tok) (new : Str) (kv : Kv) : Answer × Kv :=
  match authorize now t kv with
  | .error e => (.error e, kv)
  | .ok ctx => match accountsC.getById ctx.accountId kv with
    | .error e => (.error (.store e), kv)
    | .ok acc =>
      if !acc.forceUpdatePassword then (.error .forbidden, kv)
      else if !C.strong new [] then (.error .field, kv)
      else changeSelf C now stamp ctx acc
        { updatedBy := ctx.accountId, passwordHash := some (C.hash new salt), forceUpdatePassword := some false } kv

/-- `set_email`, provider.rs 297-320. -/
def setEmail (C : AuthEnv) (now : Int) (stamp : Time) (t : Tok) (email : Str) (kv : Kv) : Answer × Kv :=
  match authorize now t kv with
  | .error e => (.error e, kv)
  | .ok ctx => match accountsC.getById ctx.accountId kv with
    | .error e => (.error (.store e), kv)
    | .ok acc =>
      if !acc.forceUpdateEmail then (.error .forbidden, kv)
      else changeSelf C now stamp ctx acc { updatedBy := ctx.accountId, email := some email, forceUpdateEmail := some false } kv

/-- `switch_organization`, provider.rs 322-327. -/
def switchOrganization (C : AuthEnv) (now : Int) (t : Tok) (org : Nat) (kv : Kv) : Answer :=
  match authorize now t kv with
  | .error e => .error e
  | .ok ctx =>
    if !OrgOp.switchOrganization.allowed ctx org then .error .forbidden
    else match orgsC.getById org kv with
      | .error e => .error (.store e)
      | .ok _ => makeTokens C now ctx.accountId org kv

/-- `Accounts::create`, accounts.rs 29-48; `req` carries everything but the password. -/
def adminCreate (C : AuthEnv) (now : Int) (stamp : Time) (salt : Nat) (t : Tok) (pw : Str) (req : Account) (kv : Kv) : Answer × Kv :=
  match authorize now t kv with
  | .error e => (.error e, kv)
  | .ok ctx =>
    if !RootOp.accountCreate.allowed ctx then (.error .forbidden, kv)
    else reply (runCall (accountCreate stamp { req with createdBy := ctx.accountId, passwordHash := C.hash pw salt }) kv) fun _ _ => .ok []

/-- `Accounts::update`, accounts.rs 62-89: `force_update_password` of the request is not passed on. -/
def adminUpdate (C : AuthEnv) (now : Int) (stamp : Time) (salt : Nat) (t : Tok) (id : Nat) (pw : Option Str) (req : AccountUpd)
    (kv : Kv) : Answer × Kv :=
  match authorize now t kv with
  | .error e => (.error e, kv)
  | .ok ctx =>
    if !RootOp.accountUpdate.allowed ctx then (.error .forbidden, kv)
    else reply (runCall (accountUpdate id stamp
        { updatedBy := ctx.accountId, email := req.email, name := req.name, organizations := req.organizations,
          projects := req.projects, teams := req.teams, role := req.role, passwordHash := pw.map fun p => C.hash p salt }) kv) fun _ _ => .ok []

/-- `Accounts::delete`, accounts.rs 91-95. -/
def adminDelete (now : Int) (t : Tok) (id : Nat) (kv : Kv) : Answer × Kv :=
  match authorize now t kv with
  | .error e => (.error e, kv)
  | .ok ctx =>
    if !RootOp.accountDelete.allowed ctx then (.error .forbidden, kv)
    else reply (runCall (accountsC.delete id) kv) fun _ _ => .ok []

/-! ## Histories -/

/-- The calls that hand out tokens or change accounts. -/
inductive AuthCall where
  | signUp (email pw : Str) (name : Option Str)
  | logIn (email pw : Str) (org : Option Nat)
  | refresh (access ref : Tok)
  | updateName (t : Tok) (name : Str)
  | updateEmail (t : Tok) (email pw : Str)
  | updatePassword (t : Tok) (pw new : Str)
  | setPassword (t : Tok) (new : Str)
  | setEmail (t : Tok) (email : Str)
  | switchOrganization (t : Tok) (org : Nat)
  | adminCreate (t : Tok) (pw : Str) (req : Account)
  | adminUpdate (t : Tok) (id : Nat) (pw : Option Str) (req : AccountUpd)
  | adminDelete (t : Tok) (id : Nat)

/-- The tokens the caller presents. -/
def AuthCall.toks : AuthCall → List Tok
  | .signUp .. | .logIn .. => []
  | .refresh a r => [a, r]
  | .updateName t _ | .updateEmail t _ _ | .updatePassword t _ _ | .setPassword t _ | .setEmail t _ | .switchOrganization t _
  | .adminCreate t _ _ | .adminUpdate t _ _ _ | .adminDelete t _ => [t]

/-- Answer and store after the call. -/
def AuthCall.run (C : AuthEnv) (now : Int) (stamp : Time) (salt : Nat) (c : AuthCall) (kv : Kv) : Answer × Kv :=
  match c with
  | .signUp e p n => Platform.signUp C now stamp salt e p n kv
  | .logIn e p o => (Platform.logIn C now e p o kv, kv)
  | .refresh a r => (Platform.refresh C now a r kv, kv)
  | .updateName t n => Platform.updateName now stamp t n kv
  | .updateEmail t e p => Platform.updateEmail C now stamp t e p kv
  | .updatePassword t p n => Platform.updatePassword C now stamp salt t p n kv
  | .setPassword t n => Platform.setPassword C now stamp salt t n kv
  | .setEmail t e => Platform.setEmail C now stamp t e kv
  | .switchOrganization t o => (Platform.switchOrganization C now t o kv, kv)
  | .adminCreate t p r => Platform.adminCreate C now stamp salt t p r kv
  | .adminUpdate t id p r => Platform.adminUpdate C now stamp salt t id p r kv
  | .adminDelete t id => Platform.adminDelete now t id kv

/-- The integers of the request have 64 bits. -/
def AuthCall.Ok : AuthCall → Prop
  | .adminCreate _ _ r => (∀ m ∈ r.organizations.getD [], m.1 < 2 ^ 64) ∧
      (∀ m ∈ r.projects.getD [], m.1 < 2 ^ 64) ∧ ∀ m ∈ r.teams.getD [], m.1 < 2 ^ 64
  | .adminUpdate _ _ _ q => (∀ l, q.organizations = some (some l) → ∀ m ∈ l, m.1 < 2 ^ 64) ∧
      (∀ l, q.projects = some (some l) → ∀ m ∈ l, m.1 < 2 ^ 64) ∧ ∀ l, q.teams = some (some l) → ∀ m ∈ l, m.1 < 2 ^ 64
  | _ => True

/-- The store, the clock, and the tokens each person was given. -/
structure World where
  kv : Kv
  now : Int
  held : Nat → List Tok

inductive AStep (Q : Type) where
  /-- Somebody makes a call. -/
  | call (who : Nat) (c : AuthCall) (stamp : Time) (salt : Nat)
  /-- Any other request to the metadata. -/
  | other (r : Req Q)
  | tick (d : Nat)

/-- Requests that reach accounts other than through the calls above are not `other`. -/
def notAccount {Q : Type} : Req Q → Prop
  | .accountCreate .. | .accountUpdate .. | .accountDelete .. => False
  | _ => True

def AStep.Ok {Q : Type} (w : World) : AStep Q → Prop
  | .call who c _ _ => c.Ok ∧ ∀ t ∈ c.toks, t ∈ w.held who
  | .other r => r.Ok ∧ notAccount r
  | .tick _ => True

def World.step {Q : Type} (C : AuthEnv) (E : Env Q) (w : World) : AStep Q → World
  | .call who c stamp salt =>
    let (a, kv) := c.run C w.now stamp salt w.kv
    { w with kv := kv, held := fun x => if x = who then (match a with | .ok ts => ts | .error _ => []) ++ w.held x else w.held x }
  | .other r => { w with kv := r.exec E w.kv }
  | .tick d => { w with now := w.now + d }

/-- Reached by the steps from a store with any history, in which nobody has a token. -/
inductive Reached {Q : Type} (C : AuthEnv) (E : Env Q) : Nat → List (AStep Q) → World → Prop
  | start {n : Nat} {kv : Kv} {now : Int} : Hist E n kv → Reached C E n [] ⟨kv, now, fun _ => []⟩
  | step {n : Nat} {l : List (AStep Q)} {w : World} (s : AStep Q) : Reached C E n l w → s.Ok w →
      Reached C E (n + 1) (l ++ [s]) (w.step C E s)

end OptiPrism.Platform
