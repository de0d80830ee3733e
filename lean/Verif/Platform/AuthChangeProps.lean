import Verif.Platform.AuthProps

/-!
# C114: acknowledged changes of an account are in force
-/

namespace OptiPrism.Platform

open OptiPrism.Meta

variable {Q : Type} {C : AuthEnv} {E : Env Q}

/-! ## Specification -/

/-- What an account is known by. -/
structure Creds where
  hash : Str
  email : Str
  name : Option Str
  role : Option Role
  mustPassword : Bool
  mustEmail : Bool
  deriving DecidableEq

def credsOf (x : Account) : Creds := ⟨x.passwordHash, x.email, x.name, x.role, x.forceUpdatePassword, x.forceUpdateEmail⟩

/-- What the caller asks the own account to become; `none` = the call does not change the own account. -/
def AuthCall.asks (C : AuthEnv) (salt : Nat) (x : Creds) : AuthCall → Option (Tok × Creds)
  | .updateName t n => some (t, { x with name := some n })
  | .updateEmail t e _ => some (t, { x with email := e })
  | .updatePassword t _ new => some (t, { x with hash := C.hash new salt })
  | .setPassword t new => some (t, { x with hash := C.hash new salt, mustPassword := false })
  | .setEmail t e => some (t, { x with email := e, mustEmail := false })
  | _ => none

/-! ## Lemmas -/

theorem update_acked {id : Nat} {stamp : Time} {q : AccountUpd} {kv : Kv} (hi : accountsC.Inv Account.Valid kv)
    (hr : (Req.accountUpdate (Q := Q) id stamp q).Ok) {a : Account} (h : (runCall (accountUpdate id stamp q) kv).1 = .ok a) :
    ∃ x, accountsC.live kv id = some x ∧
      ∀ j, accountsC.live (runCall (accountUpdate id stamp q) kv).2 j = if j = id then some (q.apply stamp x).norm else accountsC.live kv j := by
  obtain ⟨kv', e⟩ := runCall_ok h
  obtain ⟨x, h1, -, -, h2⟩ := update_done accounts_ok hi (accountUpdate_ok hr) e
  refine ⟨x, h1, fun j => ?_⟩
  rw [show (runCall (accountUpdate id stamp q) kv).2 = kv' by rw [runCall, e]]
  exact h2 j

/-- An update of the own account that was acknowledged. -/
theorem self_acked {now : Int} {t : Tok} {kv : Kv} (hi : accountsC.Inv Account.Valid kv) {ctx : Ctx} (ha : authorize now t kv = .ok ctx) {stamp : Time}
    {q : AccountUpd} (hb : q.updatedBy = ctx.accountId) (ho : q.organizations = none) (hp : q.projects = none) (ht : q.teams = none) {b : Account}
    (h : (runCall (accountUpdate ctx.accountId stamp q) kv).1 = .ok b) :
    ∃ x, accountsC.live kv t.account = some x ∧ ∀ j, accountsC.live (runCall (accountUpdate ctx.accountId stamp q) kv).2 j =
      if j = t.account then some (q.apply stamp x).norm else accountsC.live kv j := by
  obtain ⟨acc, g1, g2, -⟩ := authorize_ok hi ha
  have hlt := live_lt hi g1
  have := update_acked (Q := Unit) hi (id := ctx.accountId) (stamp := stamp) (q := q)
    ⟨by rw [hb, g2]; exact hlt, by simp [ho], by simp [hp], by simp [ht]⟩ h
  rw [g2] at this ⊢
  exact this

/-! ## C114 -/

/-- C114: an acknowledged change of the caller's own account is stored: the account is then what the caller asked for, and no other
account has changed. -/
theorem C114_self {n : Nat} {l : List (AStep Q)} {w : World} (h : Reached C E n l w) (hn : n < 2 ^ 62) {c : AuthCall} {stamp : Time} {salt : Nat} {ts : List Tok}
    (hr : (c.run C w.now stamp salt w.kv).1 = .ok ts) (hself : ∀ x, (c.asks C salt x).isSome) :
    ∃ x y t d, accountsC.live w.kv t.account = some x ∧ c.asks C salt (credsOf x) = some (t, d) ∧
      accountsC.live (c.run C w.now stamp salt w.kv).2 t.account = some y ∧ credsOf y = d ∧
      ∀ j, j ≠ t.account → accountsC.live (c.run C w.now stamp salt w.kv).2 j = accountsC.live w.kv j := by
  have hi := h.inv hn
  have fin : ∀ {t : Tok} {ctx : Ctx} {q : AccountUpd} {b : Account}, authorize w.now t w.kv = .ok ctx → q.updatedBy = ctx.accountId →
      q.organizations = none → q.projects = none → q.teams = none → (runCall (accountUpdate ctx.accountId stamp q) w.kv).1 = .ok b →
      (∀ x : Account, c.asks C salt (credsOf x) = some (t, credsOf (q.apply stamp x))) →
      (c.run C w.now stamp salt w.kv).2 = (runCall (accountUpdate ctx.accountId stamp q) w.kv).2 →
      ∃ x y t d, accountsC.live w.kv t.account = some x ∧ c.asks C salt (credsOf x) = some (t, d) ∧
        accountsC.live (c.run C w.now stamp salt w.kv).2 t.account = some y ∧ credsOf y = d ∧
        ∀ j, j ≠ t.account → accountsC.live (c.run C w.now stamp salt w.kv).2 j = accountsC.live w.kv j := by
    intro t ctx q b ha hb ho hp ht hok hask hkv
    obtain ⟨x, h1, h2⟩ := self_acked hi ha hb ho hp ht hok
    refine ⟨x, (q.apply stamp x).norm, t, _, h1, hask x, by rw [hkv, h2, if_pos rfl], rfl, fun j hj => by rw [hkv, h2, if_neg hj]⟩
  cases c with
  | updateName t nm =>
    simp only [AuthCall.run, updateName] at hr fin ⊢
    cases ha : authorize w.now t w.kv with
    | error e => rw [ha] at hr; cases hr
    | ok ctx =>
      simp only [ha] at hr fin ⊢
      by_cases h0 : nm.isEmpty = true
      · rw [if_pos h0] at hr; cases hr
      · simp only [if_neg h0] at hr fin ⊢
        obtain ⟨b, hb, -⟩ := reply_ok hr
        exact fin ha rfl rfl rfl rfl hb (fun x => rfl) rfl
  | updateEmail t e pw =>
    simp only [AuthCall.run, updateEmail] at hr fin ⊢
    cases ha : authorize w.now t w.kv with
    | error e => rw [ha] at hr; cases hr
    | ok ctx =>
      simp only [ha] at hr fin ⊢
      by_cases h0 : (!C.email e) = true
      · rw [if_pos h0] at hr; cases hr
      · simp only [if_neg h0] at hr fin ⊢
        cases hg : accountsC.getById ctx.accountId w.kv with
        | error e => rw [hg] at hr; cases hr
        | ok acc =>
          simp only [hg] at hr fin ⊢
          by_cases h1 : (!C.check pw acc.passwordHash) = true
          · rw [if_pos h1] at hr; cases hr
          · simp only [if_neg h1] at hr fin ⊢
            obtain ⟨b, hb, -⟩ := reply_ok hr
            exact fin ha rfl rfl rfl rfl hb (fun x => rfl) rfl
  | updatePassword t pw new =>
    simp only [AuthCall.run, updatePassword] at hr fin ⊢
    cases ha : authorize w.now t w.kv with
    | error e => rw [ha] at hr; cases hr
    | ok ctx =>
      simp only [ha] at hr fin ⊢
      cases hg : accountsC.getById ctx.accountId w.kv with
      | error e => rw [hg] at hr; cases hr
      | ok acc =>
        simp only [hg] at hr fin ⊢
        by_cases h0 : (!C.check pw acc.passwordHash) = true
        · rw [if_pos h0] at hr; cases hr
        · simp only [if_neg h0] at hr fin ⊢
          by_cases h1 : (!C.strong new []) = true
          · rw [if_pos h1] at hr; cases hr
          · simp only [if_neg h1] at hr fin ⊢
            obtain ⟨b, hb, -⟩ := reply_ok hr
            exact fin ha rfl rfl rfl rfl hb (fun x => rfl) rfl
  | setPassword t new =>
    simp only [AuthCall.run, setPassword] at hr fin ⊢
    cases ha : authorize w.now t w.kv with
    | error e => rw [ha] at hr; cases hr
    | ok ctx =>
      simp only [ha] at hr fin ⊢
      cases hg : accountsC.getById ctx.accountId w.kv with
      | error e => rw [hg] at hr; cases hr
      | ok acc =>
        simp only [hg] at hr fin ⊢
        by_cases h0 : (!acc.forceUpdatePassword) = true
        · rw [if_pos h0] at hr; cases hr
        · simp only [if_neg h0] at hr fin ⊢
          by_cases h1 : (!C.strong new []) = true
          · rw [if_pos h1] at hr; cases hr
          · simp only [if_neg h1] at hr fin ⊢
            obtain ⟨b, hb, -⟩ := reply_ok hr
            exact fin ha rfl rfl rfl rfl hb (fun x => rfl) rfl
  | setEmail t e =>
    simp only [AuthCall.run, setEmail] at hr fin ⊢
    cases ha : authorize w.now t w.kv with
    | error e => rw [ha] at hr; cases hr
    | ok ctx =>
      simp only [ha] at hr fin ⊢
      cases hg : accountsC.getById ctx.accountId w.kv with
      | error e => rw [hg] at hr; cases hr
      | ok acc =>
        simp only [hg] at hr fin ⊢
        by_cases h0 : (!acc.forceUpdateEmail) = true
        · rw [if_pos h0] at hr; cases hr
        · simp only [if_neg h0] at hr fin ⊢
          obtain ⟨b, hb, -⟩ := reply_ok hr
          exact fin ha rfl rfl rfl rfl hb (fun x => rfl) rfl
  | _ => exact absurd (hself ⟨[], [], none, none, false, false⟩) (by simp [AuthCall.asks])

/-- C114 for administrators (partial: a role and the duty to set a new password are not passed on, `C114_admin_violated`): an
acknowledged update of an account has stored the password, address and name asked for and left the rest of what it is known by. -/
theorem C114_admin_partial {n : Nat} {l : List (AStep Q)} {w : World} (h : Reached C E n l w) (hn : n < 2 ^ 62) {t : Tok} {id : Nat} {pw : Option Str}
    {q : AccountUpd} (hq : (AuthCall.adminUpdate t id pw q).Ok) {stamp : Time} {salt : Nat} {ts : List Tok}
    (hr : (adminUpdate C w.now stamp salt t id pw q w.kv).1 = .ok ts) :
    ∃ x y, accountsC.live w.kv id = some x ∧ accountsC.live (adminUpdate C w.now stamp salt t id pw q w.kv).2 id = some y ∧
      (∀ p, pw = some p → y.passwordHash = C.hash p salt) ∧ (pw = none → y.passwordHash = x.passwordHash) ∧
      (∀ e, q.email = some e → y.email = e) ∧ (q.email = none → y.email = x.email) ∧
      (∀ m, q.name = some m → y.name = m) ∧ (q.name = none → y.name = x.name) ∧
      y.role = x.role ∧ y.forceUpdatePassword = x.forceUpdatePassword ∧ y.forceUpdateEmail = x.forceUpdateEmail ∧
      ∀ j, j ≠ id → accountsC.live (adminUpdate C w.now stamp salt t id pw q w.kv).2 j = accountsC.live w.kv j := by
  have hi := h.inv hn
  unfold adminUpdate at hr ⊢
  cases ha : authorize w.now t w.kv with
  | error e => rw [ha] at hr; cases hr
  | ok ctx =>
    simp only [ha] at hr ⊢
    by_cases h0 : (!RootOp.accountUpdate.allowed ctx) = true
    · rw [if_pos h0] at hr; cases hr
    · simp only [if_neg h0] at hr ⊢
      obtain ⟨b, hb, -⟩ := reply_ok hr
      obtain ⟨acc, g1, g2, -⟩ := authorize_ok hi ha
      have hlt : ctx.accountId < 2 ^ 64 := by rw [g2]; exact live_lt hi g1
      have hreq : (Req.accountUpdate (Q := Unit) id stamp { updatedBy := ctx.accountId, passwordHash := pw.map fun p => C.hash p salt, email := q.email, name := q.name, organizations := q.organizations, projects := q.projects, teams := q.teams, role := q.role }).Ok :=
        ⟨hlt, hq.1, hq.2.1, hq.2.2⟩
      obtain ⟨x, h1, h2⟩ := update_acked hi hreq hb
      refine ⟨x, _, h1, (h2 id).trans (if_pos rfl), ?_, ?_, ?_, ?_, ?_, ?_, rfl, rfl, rfl, fun j hj => (h2 j).trans (if_neg hj)⟩
      · intro p hp; subst hp; rfl
      · intro hp; subst hp; rfl
      · intro e he; show q.email.getD _ = _; rw [he]; rfl
      · intro he; show q.email.getD _ = _; rw [he]; rfl
      · intro e he; show q.name.getD _ = _; rw [he]; rfl
      · intro he; show q.name.getD _ = _; rw [he]; rfl

/-- C114: after an acknowledged change of the own password the account logs in with the new password and no other. -/
theorem C114_login (hC : C.Ok) {n : Nat} {l : List (AStep Q)} {w : World} (h : Reached C E n l w) (hn : n + 1 < 2 ^ 62) {who : Nat} {t : Tok} {pw new : Str}
    {stamp : Time} {salt : Nat} {c : AuthCall} (hc : c = .updatePassword t pw new ∨ c = .setPassword t new) (hs : (AStep.call who c stamp salt : AStep Q).Ok w)
    {ts : List Tok} (hr : (c.run C w.now stamp salt w.kv).1 = .ok ts) {x : Account} (hx : accountsC.live w.kv t.account = some x)
    (he : C.email x.email = true) (try_ : Str) (o : Option Nat) (now : Int) :
    logIn C now x.email try_ o (w.step C E (.call who c stamp salt)).kv = .error .credentials ↔ try_ ≠ new := by
  obtain ⟨x', y, t', d, h1, h2, h3, h4, -⟩ := C114_self h (by omega) hr (by rcases hc with rfl | rfl <;> exact fun _ => rfl)
  have hd : t' = t ∧ d.hash = C.hash new salt ∧ d.email = x'.email := by
    rcases hc with rfl | rfl <;>
      · simp only [AuthCall.asks, Option.some.injEq, Prod.mk.injEq] at h2
        obtain ⟨rfl, rfl⟩ := h2
        exact ⟨rfl, rfl, rfl⟩
  obtain ⟨rfl, hd1, hd2⟩ := hd
  rw [hx] at h1
  cases h1
  have hye : y.email = x.email := (congrArg Creds.email h4).trans hd2
  have := C99_login hC (Reached.step _ h hs) (by omega) h3 (p := new) (salt := salt) ((congrArg Creds.hash h4).trans hd1) (by rw [hye]; exact he) try_ o now
  rw [hye] at this
  exact this

/-- The administrator asks for another role, and for a new password to be set, for account 2. -/
def exPromote : AuthCall := .adminUpdate ⟨"aaaa".toList, 3600, 1, some 1⟩ 2 none { updatedBy := 0, role := some (some .admin), forceUpdatePassword := some true }

/-- An administrator's request for another role is acknowledged and ignored, by the metadata (accounts.rs 121-167); so is the request to
have a new password set, by the platform. -/
theorem C114_admin_violated : ∃ w, Reached exAuth exEnv 6 [.call 7 (.logIn "root".toList "rootpw".toList none) ⟨0, 0⟩ 0] w ∧
    (AStep.call 7 exPromote ⟨0, 0⟩ 0 : AStep Unit).Ok w ∧ (exPromote.run exAuth w.now ⟨0, 0⟩ 0 w.kv).1 = .ok [] ∧
    (accountsC.live (exPromote.run exAuth w.now ⟨0, 0⟩ 0 w.kv).2 2).map (fun y => (y.role, y.forceUpdatePassword)) = some (none, false) :=
  ⟨exWorld.after exAuth exEnv [.call 7 (.logIn "root".toList "rootpw".toList none) ⟨0, 0⟩ 0],
    exWorld_reached.run [.call 7 (.logIn "root".toList "rootpw".toList none) ⟨0, 0⟩ 0] ⟨⟨trivial, by decide +kernel⟩, trivial⟩,
    ⟨⟨by simp, by simp, by simp⟩, by decide +kernel⟩, by decide +kernel, by decide +kernel⟩

/-- Hypotheses of `C114_self` and `C114_login`: the change of `exChange` is acknowledged, the old password then refused. -/
example : ((AuthCall.updatePassword exAcc2 "bbb".toList "better".toList).run exAuth 0 ⟨1, 0⟩ 0 (exWorld.after exAuth exEnv [exIn 8]).kv).1.toOption.isSome = true ∧
    logIn exAuth 0 "b".toList "bbb".toList none (exWorld.after exAuth exEnv exChange).kv = .error .credentials ∧
    (logIn exAuth 0 "b".toList "better".toList none (exWorld.after exAuth exEnv exChange).kv).toOption.isSome = true := by decide +kernel

/-- Hypotheses of `C114_admin_partial`. -/
example : ((AuthCall.adminUpdate ⟨"aaaa".toList, 3600, 1, some 1⟩ 2 (some "new".toList) { updatedBy := 0, email := some "d".toList }).run exAuth 0 ⟨1, 0⟩ 0
    (exWorld.after exAuth exEnv [.call 7 (.logIn "root".toList "rootpw".toList none) ⟨0, 0⟩ 0]).kv).1 = .ok [] := by decide +kernel

end OptiPrism.Platform
