import Verif.Platform.Auth
import Verif.Platform.AccessProps
import Verif.Meta.SystemReach
import Verif.Meta.Members

/-!
# What the calls of `Auth.lean` do to accounts and which tokens they hand out
-/

namespace OptiPrism.Platform

open OptiPrism.Meta

variable {Q : Type} {C : AuthEnv} {E : Env Q}

/-- All that matters for logging in is the same. -/
structure SameCreds (x y : Account) : Prop where
  hash : y.passwordHash = x.passwordHash
  email : y.email = x.email
  role : y.role = x.role
  forcePassword : y.forceUpdatePassword = x.forceUpdatePassword
  forceEmail : y.forceUpdateEmail = x.forceUpdateEmail

/-- The same accounts before and after, with the same credentials. -/
structure Keeps (kv kv' : Kv) : Prop where
  last : lastId kv' (.top .accounts) = lastId kv (.top .accounts)
  none : ∀ a, accountsC.live kv a = none → accountsC.live kv' a = none
  some : ∀ a x, accountsC.live kv a = some x → ∃ y, accountsC.live kv' a = some y ∧ SameCreds x y

theorem Keeps.of_agree {kv kv' : Kv} (h : AgreeOn (.top .accounts) kv kv') : Keeps kv kv' :=
  ⟨h.last, fun a ha => by rw [AgreeOn.live (c := accountsC) h, ha],
    fun a x ha => ⟨x, by rw [AgreeOn.live (c := accountsC) h, ha], rfl, rfl, rfl, rfl, rfl⟩⟩

/-- A change of the organizations of one account. -/
theorem Keeps.of_update {kv kv1 kv2 : Kv} (hi : accountsC.Inv Account.Valid kv) (hag : AgreeOn (.top .accounts) kv kv1) {m : Nat}
    {f : Account → Except Err Account} {g : List (Nat × OrgRole) → List (Nat × OrgRole)}
    (ho : (Op.update m (fun _ => []) f fun a => { a with organizations := Option.some (g (a.organizations.getD [])) }).Ok accountsC Account.Valid)
    {y : Account} (e : accountsC.update m (fun _ => []) f kv1 = .ok (y, kv2)) : Keeps kv kv2 := by
  have hi1 : accountsC.Inv Account.Valid kv1 := AgreeOn.inv (c := accountsC) hag hi
  have hl := AgreeOn.live (c := accountsC) hag
  obtain ⟨ho1, ho2, ho3, sel, hs, hsn, hp, hrest⟩ := ho
  rcases update_spec accounts_ok hi1 hs hsn ho1 hp hrest ho2 ho3 (id := m) with ⟨-, e'⟩ | ⟨r, hr, ⟨-, e'⟩ | ⟨-, ⟨x, -, e'⟩ | ⟨hf, kv', e', h1, h2, h3⟩⟩⟩
  · rw [e'] at e; cases e
  · rw [e'] at e; cases e
  · rw [e'] at e; cases e
  · rw [e'] at e
    injection e with e
    injection e with _ e
    subst e
    refine ⟨h2.trans hag.last, ?_, ?_⟩
    · intro a ha
      rw [h3 a, hl a, ha, if_neg]
      rintro rfl
      rw [hl, ha] at hr; cases hr
    · intro a x ha
      rw [h3 a, hl a, ha]
      by_cases hm : a = m
      · subst hm
        rw [hl, ha] at hr
        cases hr
        exact ⟨_, if_pos rfl, rfl, rfl, rfl, rfl, rfl⟩
      · exact ⟨x, if_neg hm, rfl, rfl, rfl, rfl, rfl⟩

theorem Keeps.refl (kv : Kv) : Keeps kv kv := .of_agree (.refl _ _)

/-- Requests other than those to accounts leave who can log in alone. -/
theorem exec_keeps (E : Env Q) {r : Req Q} (hr : r.Ok) (hna : notAccount r) {kv : Kv} (ha : accountsC.Inv Account.Valid kv) :
    Keeps kv (r.exec E kv) := by
  by_cases hm : Mod.coll (.top .accounts) ∈ r.mods
  case neg => exact .of_agree (exec_agree E hr hm kv)
  case pos =>
    have same : ∀ {kv'}, kv' = kv → Keeps kv kv' := fun e => by subst e; exact .refl _
    cases r <;> simp only [Req.mods, List.mem_cons, List.not_mem_nil, or_false, Mod.coll.injEq, reduceCtorEq, Ns.top.injEq, or_self, and_true, and_false] at hm
    case accountCreate => exact absurd hna id
    case accountUpdate => exact absurd hna id
    case accountDelete => exact absurd hna id
    case orgCreate now b name =>
      rcases then_run (orgsC.create [some (.idx (.top .organizations) .name name)] fun id =>
        ({ id := id, createdAt := now, createdBy := b, updatedAt := none, updatedBy := none, name := name,
           members := [(b, .owner)] } : Org)) (fun org => addOrganization b org.id .owner) kv with e | ⟨x, kv1, y, kv2, h1, h2, e⟩
      · exact same e
      · have hid := create_id_lt (fun _ => rfl) h1
        have := Keeps.of_update ha (orgs_only (create_touches (c := orgsC) fun k hk => keys_one hk) h1)
          (g := fun l => l ++ [(x.id, .owner)]) (addOrg_ok (m := b) (role := .owner) hid) h2
        rw [show Req.exec E (.orgCreate now b name) kv = kv2 from e]; exact this
    case addMember o m role =>
      rcases then_run (orgsC.update o (fun _ => []) fun r =>
        if inOrg m r.members then .error .alreadyExists else .ok { r with members := r.members ++ [(m, role)] })
        (fun _ => addOrganization m o role) kv with e | ⟨x, kv1, y, kv2, h1, h2, e⟩
      · exact same e
      · have := Keeps.of_update ha (orgs_only (update_touches (c := orgsC) fun _ => pairs_nil _) h1)
          (g := fun l => l ++ [(o, role)]) (addOrg_ok (m := m) (role := role) hr.1) h2
        rw [show Req.exec E (.addMember o m role) kv = kv2 from e]; exact this
    case removeMember o m =>
      rcases then_run (orgsC.update o (fun _ => []) fun r =>
        if inOrg m r.members then .ok { r with members := r.members.filter fun x => x.1 ≠ m } else .error .notFound)
        (fun _ => removeOrganization m o) kv with e | ⟨x, kv1, y, kv2, h1, h2, e⟩
      · exact same e
      · have := Keeps.of_update ha (orgs_only (update_touches (c := orgsC) fun _ => pairs_nil _) h1)
          (g := fun l => l.filter fun m => m.1 ≠ o) (removeOrg_ok (m := m) (o := o)) h2
        rw [show Req.exec E (.removeMember o m) kv = kv2 from e]; exact this
    case changeMemberRole o m role =>
      rcases then_run (orgsC.update o (fun _ => []) fun r =>
        if inOrg m r.members then .ok { r with members := setRole m role r.members } else .error .notFound)
        (fun _ => changeOrganizationRole m o role) kv with e | ⟨x, kv1, y, kv2, h1, h2, e⟩
      · exact same e
      · have := Keeps.of_update ha (orgs_only (update_touches (c := orgsC) fun _ => pairs_nil _) h1)
          (g := setRole o role) (changeOrg_ok (m := m) (o := o) (role := role)) h2
        rw [show Req.exec E (.changeMemberRole o m role) kv = kv2 from e]; exact this

/-! ## Requests to accounts -/

theorem create_exec {stamp : Time} {req : Account} {kv : Kv} (hi : accountsC.Inv Account.Valid kv)
    (hl : lastId kv (.top .accounts) + 1 < 2 ^ 64) (hr : (Req.accountCreate (Q := Q) stamp req).Ok) :
    ((∃ e, accountCreate stamp req kv = .error e) ∧ (Req.accountCreate stamp req).exec E kv = kv) ∨
    ∃ kv', accountCreate stamp req kv = .ok (accountMk stamp req (lastId kv (.top .accounts) + 1), kv') ∧
      (Req.accountCreate stamp req).exec E kv = kv' ∧ accountsC.live kv (lastId kv (.top .accounts) + 1) = none ∧
      lastId kv' (.top .accounts) = lastId kv (.top .accounts) + 1 ∧
      ∀ j, accountsC.live kv' j = if j = lastId kv (.top .accounts) + 1 then some (accountMk stamp req j).norm else accountsC.live kv j := by
  obtain ⟨hk, hid, hv⟩ := accountCreate_ok hr
  rcases create_spec accounts_ok hi hl hk hid hv with ⟨-, e⟩ | ⟨-, kv', e, h1, h2, h3⟩
  · exact .inl ⟨⟨_, e⟩, by show (runCall (accountCreate stamp req) kv).2 = kv; rw [runCall, show accountCreate stamp req kv = _ from e]⟩
  · refine .inr ⟨kv', e, ?_, ?_, h2, h3⟩
    · show (runCall (accountCreate stamp req) kv).2 = kv'
      rw [runCall, show accountCreate stamp req kv = _ from e]
    · cases hn : accountsC.live kv (lastId kv (.top .accounts) + 1) with
      | none => rfl
      | some r =>
        have h : lastId kv (.top .accounts) + 1 ≤ lastId kv (.top .accounts) := (Inv.live_id hi hn).2.2.1
        omega

theorem update_exec {id : Nat} {stamp : Time} {q : AccountUpd} {kv : Kv} (hi : accountsC.Inv Account.Valid kv)
    (hr : (Req.accountUpdate (Q := Q) id stamp q).Ok) :
    (Req.accountUpdate id stamp q).exec E kv = kv ∨
    ∃ x, accountsC.live kv id = some x ∧
      lastId ((Req.accountUpdate id stamp q).exec E kv) (.top .accounts) = lastId kv (.top .accounts) ∧
      ∀ j, accountsC.live ((Req.accountUpdate id stamp q).exec E kv) j = if j = id then some (q.apply stamp x).norm else accountsC.live kv j := by
  obtain ⟨ho1, ho2, ho3, sel, hs, hsn, hp, hrest⟩ := accountUpdate_ok hr
  show (runCall (accountUpdate id stamp q) kv).2 = kv ∨ ∃ x, _ ∧ lastId (runCall (accountUpdate id stamp q) kv).2 _ = _ ∧
    ∀ j, accountsC.live (runCall (accountUpdate id stamp q) kv).2 j = _
  have hr : ∀ {v : Except Err (Account × Kv)}, accountUpdate id stamp q kv = v →
      (runCall (accountUpdate id stamp q) kv).2 = match v with | .ok (_, kv') => kv' | .error _ => kv := by
    intro v e; rw [runCall, e]; cases v <;> rfl
  rcases update_spec accounts_ok hi hs hsn ho1 hp hrest ho2 ho3 (id := id) with ⟨-, e'⟩ | ⟨r, hr', ⟨-, e'⟩ | ⟨-, ⟨x, -, e'⟩ | ⟨hf, kv', e', h1, h2, h3⟩⟩⟩
  · exact .inl (hr e')
  · exact .inl (hr e')
  · exact .inl (hr e')
  · rw [hr e']
    exact .inr ⟨r, hr', h2, h3⟩

theorem delete_exec {id : Nat} {kv : Kv} (hi : accountsC.Inv Account.Valid kv) :
    lastId ((Req.accountDelete id).exec E kv) (.top .accounts) = lastId kv (.top .accounts) ∧
      ∀ j, accountsC.live ((Req.accountDelete id).exec E kv) j = if j = id then none else accountsC.live kv j := by
  show lastId (runCall (accountsC.delete id) kv).2 _ = _ ∧ ∀ j, accountsC.live (runCall (accountsC.delete id) kv).2 j = _
  rcases delete_spec accounts_ok hi id with ⟨hn, e⟩ | ⟨r, kv', hl, e, -, h3, h4⟩
  · rw [runCall, e]
    refine ⟨rfl, fun j => ?_⟩
    by_cases hj : j = id
    · rw [if_pos hj, hj]; exact hn
    · rw [if_neg hj]
  · rw [runCall, e]
    exact ⟨h3, h4⟩

/-! ## What a call does -/

theorem authorize_ok {now : Int} {t : Tok} {kv : Kv} {ctx : Ctx} (hi : accountsC.Inv Account.Valid kv)
    (h : authorize now t kv = .ok ctx) :
    ∃ acc, accountsC.live kv t.account = some acc ∧ ctx.accountId = t.account ∧ t.org = some ctx.organizationId ∧ ctx.role = acc.role ∧
      ctx.organizations = acc.organizations ∧ ctx.projects = acc.projects ∧
      ∃ s, loadSettings kv = .ok s ∧ t.valid s.accessToken now = true := by
  unfold authorize at h
  split at h
  · cases h
  · rename_i s hs
    unfold parseAccess at h
    by_cases hv : t.valid s.accessToken now = true
    · rw [if_pos hv] at h
      cases ho : t.org with
      | none => rw [ho] at h; cases h
      | some o =>
        rw [ho] at h
        dsimp only [Option.map] at h
        unfold contextOf at h
        rw [getById_eq hi] at h
        cases hl : accountsC.live kv t.account with
        | none => rw [hl] at h; cases h
        | some acc =>
          rw [hl] at h
          dsimp only at h
          injection h with h
          subst h
          exact ⟨acc, rfl, (Inv.live_id hi hl).1, rfl, rfl, rfl, rfl, s, hs, hv⟩
    · rw [if_neg hv] at h; cases h

theorem makeTokens_account {now : Int} {a o : Nat} {kv : Kv} {ts : List Tok} (h : makeTokens C now a o kv = .ok ts) :
    ∀ t ∈ ts, t.account = a := by
  unfold makeTokens at h
  split at h
  · cases h
  · injection h with h
    subst h
    intro t ht
    simp only [List.mem_cons, List.not_mem_nil, or_false] at ht
    rcases ht with rfl | rfl <;> rfl

theorem reply_kv {α : Type} (r : Except Err α × Kv) (f : α → Kv → Answer) : (reply r f).2 = r.2 := rfl

theorem reply_ok {α : Type} {r : Except Err α × Kv} {f : α → Kv → Answer} {ts : List Tok} (h : (reply r f).1 = .ok ts) :
    ∃ a, r.1 = .ok a ∧ f a r.2 = .ok ts := by
  unfold reply at h
  dsimp only at h
  split at h
  · cases h
  · exact ⟨_, by assumption, h⟩

theorem runCall_ok {α : Type} {c : Call α} {kv : Kv} {a : α} (h : (runCall c kv).1 = .ok a) : ∃ kv', c kv = .ok (a, kv') := by
  unfold runCall at h
  split at h
  · rename_i x kv' e
    cases h
    exact ⟨kv', e⟩
  · cases h

theorem checkPermission_admin {c : Ctx} {p : Perm} (h : c.checkPermission p = true) : c.role = some .admin := by
  unfold Ctx.checkPermission at h
  cases hr : c.role with
  | none => rw [hr] at h; cases h
  | some r => cases r; rfl

/-- The changes of one's own account, with what they ask for. -/
inductive SelfUpd (C : AuthEnv) (salt : Nat) (acc : Account) : AuthCall → AccountUpd → Prop
  | name {t : Tok} {n : Str} {by_ : Nat} : n ≠ [] → SelfUpd C salt acc (.updateName t n) { updatedBy := by_, name := some (some n) }
  | email {t : Tok} {e pw : Str} {by_ : Nat} : C.email e = true → C.check pw acc.passwordHash = true →
      SelfUpd C salt acc (.updateEmail t e pw) { updatedBy := by_, email := some e }
  | password {t : Tok} {pw new : Str} {by_ : Nat} : C.check pw acc.passwordHash = true → C.strong new [] = true →
      SelfUpd C salt acc (.updatePassword t pw new) { updatedBy := by_, passwordHash := some (C.hash new salt) }
  | setPassword {t : Tok} {new : Str} {by_ : Nat} : acc.forceUpdatePassword = true → C.strong new [] = true →
      SelfUpd C salt acc (.setPassword t new)
        { updatedBy := by_, passwordHash := some (C.hash new salt), forceUpdatePassword := some false }
  | setEmail {t : Tok} {e : Str} {by_ : Nat} : acc.forceUpdateEmail = true →
      SelfUpd C salt acc (.setEmail t e) { updatedBy := by_, email := some e, forceUpdateEmail := some false }

/-- The update an administrator asks for. -/
def adminUpd (C : AuthEnv) (salt by_ : Nat) (pw : Option Str) (req : AccountUpd) : AccountUpd :=
  { updatedBy := by_, email := req.email, name := req.name, organizations := req.organizations,
    projects := req.projects, teams := req.teams, role := req.role, passwordHash := pw.map fun p => C.hash p salt }

/-- Answers and changes possible for each call. -/
inductive Effect (C : AuthEnv) (E : Env Q) (stamp : Time) (salt : Nat) (kv : Kv) : AuthCall → Answer → Kv → Prop
  | refused {c : AuthCall} {e : AErr} : Effect C E stamp salt kv c (.error e) kv
  | logIn {e pw : Str} {o : Option Nat} {a : Nat} {acc : Account} {ts : List Tok} : accountsC.live kv a = some acc → acc.email = e →
      C.check pw acc.passwordHash = true → (∀ t ∈ ts, t.account = a) → Effect C E stamp salt kv (.logIn e pw o) (.ok ts) kv
  | issue {c : AuthCall} {t : Tok} {ts : List Tok} : t ∈ c.toks → (∀ t' ∈ ts, t'.account = t.account) → Effect C E stamp salt kv c (.ok ts) kv
  | signUp {e pw : Str} {n : Option Str} {ans : Answer} : C.email e = true → C.strong pw [e] = true →
      (∀ ts, ans = .ok ts → ∃ acc kv', accountCreate stamp (signUpAccount e (C.hash pw salt) n) kv = .ok (acc, kv') ∧
        ∀ t ∈ ts, t.account = acc.id) →
      Effect C E stamp salt kv (.signUp e pw n) ans ((Req.accountCreate stamp (signUpAccount e (C.hash pw salt) n)).exec E kv)
  | self {c : AuthCall} {t : Tok} {acc : Account} {q : AccountUpd} {ans : Answer} : t ∈ c.toks → accountsC.live kv t.account = some acc →
      q.updatedBy = t.account → SelfUpd C salt acc c q → (∀ ts, ans = .ok ts → ∀ t' ∈ ts, t'.account = t.account) →
      Effect C E stamp salt kv c ans ((Req.accountUpdate t.account stamp q).exec E kv)
  | adminCreate {t : Tok} {pw : Str} {r : Account} {adm : Account} {ans : Answer} : accountsC.live kv t.account = some adm →
      adm.role = some .admin → (∀ ts, ans = .ok ts → ts = []) →
      Effect C E stamp salt kv (.adminCreate t pw r) ans
        ((Req.accountCreate stamp { r with createdBy := t.account, passwordHash := C.hash pw salt }).exec E kv)
  | adminUpdate {t : Tok} {id : Nat} {pw : Option Str} {q : AccountUpd} {adm : Account} {ans : Answer} :
      accountsC.live kv t.account = some adm → adm.role = some .admin → (∀ ts, ans = .ok ts → ts = []) →
      Effect C E stamp salt kv (.adminUpdate t id pw q) ans ((Req.accountUpdate id stamp (adminUpd C salt t.account pw q)).exec E kv)
  | adminDelete {t : Tok} {id : Nat} {adm : Account} {ans : Answer} : accountsC.live kv t.account = some adm →
      adm.role = some .admin → (∀ ts, ans = .ok ts → ts = []) →
      Effect C E stamp salt kv (.adminDelete t id) ans ((Req.accountDelete id).exec E kv)

theorem changeSelf_ok {now : Int} {stamp : Time} {ctx : Ctx} {acc : Account} {q : AccountUpd} {kv : Kv} {a : Nat} (h1 : ctx.accountId = a)
    (h2 : acc.id = a) : (changeSelf C now stamp ctx acc q kv).2 = (Req.accountUpdate a stamp q).exec E kv ∧
      ∀ ts, (changeSelf C now stamp ctx acc q kv).1 = .ok ts → ∀ t ∈ ts, t.account = a := by
  subst h1
  refine ⟨reply_kv _ _, fun ts e t ht => ?_⟩
  obtain ⟨_, -, e⟩ := reply_ok e
  exact (makeTokens_account e t ht).trans h2

theorem run_effect {now : Int} {stamp : Time} {salt : Nat} {c : AuthCall} {kv : Kv} (hi : accountsC.Inv Account.Valid kv) :
    Effect C E stamp salt kv c (c.run C now stamp salt kv).1 (c.run C now stamp salt kv).2 := by
  cases c with
  | signUp e pw n =>
    show Effect C E stamp salt kv _ (signUp C now stamp salt e pw n kv).1 (signUp C now stamp salt e pw n kv).2
    unfold signUp
    by_cases h1 : C.email e = true
    · by_cases h2 : C.strong pw [e] = true
      · rw [if_neg (by simp [h1]), if_neg (by simp [h2])]
        rw [reply_kv]
        refine .signUp h1 h2 fun ts h => ?_
        obtain ⟨acc, h3, h4⟩ := reply_ok h
        obtain ⟨kv1, h5⟩ := runCall_ok h3
        exact ⟨acc, kv1, h5, makeTokens_account h4⟩
      · rw [if_neg (by simp [h1]), if_pos (by simpa using h2)]; exact .refused
    · rw [if_pos (by simpa using h1)]; exact .refused
  | logIn e pw o =>
    show Effect C E stamp salt kv _ (logIn C now e pw o kv) kv
    unfold logIn
    split
    · exact .refused
    · split
      · exact .refused
      · rename_i acc ha
        split
        · exact .refused
        · rename_i hc
          split
          · exact .refused
          · rename_i o' ho
            cases hm : makeTokens C now acc.id o' kv with
            | error x => exact .refused
            | ok ts =>
              rcases (getBy_eq hi (i := (.email, fun a => some a.email)) (by simp [accountsC]) e _).mp ha with ⟨id, r, hl, hx, hr⟩ | ⟨-, hr⟩
              · injection hr with hr
                subst hr
                injection hx with hx
                have hid := (Inv.live_id hi hl).1
                change acc.id = id at hid
                exact .logIn hl hx (by simpa using hc) (hid ▸ makeTokens_account hm)
              · cases hr
  | refresh a r =>
    show Effect C E stamp salt kv _ (refresh C now a r kv) kv
    unfold refresh
    split
    · exact .refused
    · rename_i ctx hc
      split
      · exact .refused
      · rename_i s hs
        unfold parseRefresh
        split
        · exact .refused
        · rename_i x hx
          split at hx
          · injection hx with hx
            subst hx
            cases hm : makeTokens C now r.account ctx.organizationId kv with
            | error x => exact .refused
            | ok ts => exact .issue (t := r) (by simp [AuthCall.toks]) (makeTokens_account hm)
          · cases hx
  | switchOrganization t o =>
    show Effect C E stamp salt kv _ (switchOrganization C now t o kv) kv
    unfold switchOrganization
    split
    · exact .refused
    · rename_i ctx hc
      obtain ⟨acc, h1, h2, -⟩ := authorize_ok hi hc
      split
      · exact .refused
      · split
        · exact .refused
        · cases hm : makeTokens C now ctx.accountId o kv with
          | error x => exact .refused
          | ok ts => exact .issue (t := t) (by simp [AuthCall.toks]) (h2 ▸ makeTokens_account hm)
  | updateName t n =>
    show Effect C E stamp salt kv _ (updateName now stamp t n kv).1 (updateName now stamp t n kv).2
    unfold updateName
    split
    · exact .refused
    · rename_i ctx hc
      obtain ⟨acc, h1, h2, -⟩ := authorize_ok hi hc
      split
      · exact .refused
      · rename_i hn
        rw [h2]
        rw [reply_kv]
        exact .self (by simp [AuthCall.toks]) h1 rfl (.name (by intro e; subst e; simp at hn)) (fun ts h => by obtain ⟨_, -, e⟩ := reply_ok h; cases e; simp)
  | updateEmail t e pw =>
    show Effect C E stamp salt kv _ (updateEmail C now stamp t e pw kv).1 (updateEmail C now stamp t e pw kv).2
    unfold updateEmail
    split
    · exact .refused
    · rename_i ctx hc
      obtain ⟨acc, h1, h2, -⟩ := authorize_ok hi hc
      split
      · exact .refused
      · rename_i he
        rw [getById_eq hi, h2, h1]
        dsimp only
        split
        · exact .refused
        · rename_i hp
          obtain ⟨k1, k2⟩ := changeSelf_ok (C := C) (E := E) (now := now) (stamp := stamp) (kv := kv)
            (q := { updatedBy := t.account, email := some e }) h2 (Inv.live_id hi h1).1
          rw [k1]
          exact .self (by simp [AuthCall.toks]) h1 rfl (.email (by simpa using he) (by simpa using hp)) k2
  | updatePassword t pw new =>
    show Effect C E stamp salt kv _ (updatePassword C now stamp salt t pw new kv).1 (updatePassword C now stamp salt t pw new kv).2
    unfold updatePassword
    split
    · exact .refused
    · rename_i ctx hc
      obtain ⟨acc, h1, h2, -⟩ := authorize_ok hi hc
      rw [getById_eq hi, h2, h1]
      dsimp only
      split
      · exact .refused
      · rename_i hp
        split
        · exact .refused
        · rename_i hs
          obtain ⟨k1, k2⟩ := changeSelf_ok (C := C) (E := E) (now := now) (stamp := stamp) (kv := kv)
            (q := { updatedBy := t.account, passwordHash := some (C.hash new salt) }) h2 (Inv.live_id hi h1).1
          rw [k1]
          exact .self (by simp [AuthCall.toks]) h1 rfl (.password (by simpa using hp) (by simpa using hs)) k2
  | setPassword t new =>
    show Effect C E stamp salt kv _ (setPassword C now stamp salt t new kv).1 (setPassword C now stamp salt t new kv).2
    unfold setPassword
    split
    · exact .refused
    · rename_i ctx hc
      obtain ⟨acc, h1, h2, -⟩ := authorize_ok hi hc
      rw [getById_eq hi, h2, h1]
      dsimp only
      split
      · exact .refused
      · rename_i hp
        split
        · exact .refused
        · rename_i hs
          obtain ⟨k1, k2⟩ := changeSelf_ok (C := C) (E := E) (now := now) (stamp := stamp) (kv := kv)
            (q := { updatedBy := t.account, passwordHash := some (C.hash new salt), forceUpdatePassword := some false }) h2 (Inv.live_id hi h1).1
          rw [k1]
          exact .self (by simp [AuthCall.toks]) h1 rfl (.setPassword (by simpa using hp) (by simpa using hs)) k2
  | setEmail t e =>
    show Effect C E stamp salt kv _ (setEmail C now stamp t e kv).1 (setEmail C now stamp t e kv).2
    unfold setEmail
    split
    · exact .refused
    · rename_i ctx hc
      obtain ⟨acc, h1, h2, -⟩ := authorize_ok hi hc
      rw [getById_eq hi, h2, h1]
      dsimp only
      split
      · exact .refused
      · rename_i hp
        obtain ⟨k1, k2⟩ := changeSelf_ok (C := C) (E := E) (now := now) (stamp := stamp) (kv := kv)
          (q := { updatedBy := t.account, email := some e, forceUpdateEmail := some false }) h2 (Inv.live_id hi h1).1
        rw [k1]
        exact .self (by simp [AuthCall.toks]) h1 rfl (.setEmail (by simpa using hp)) k2
  | adminCreate t pw r =>
    show Effect C E stamp salt kv _ (adminCreate C now stamp salt t pw r kv).1 (adminCreate C now stamp salt t pw r kv).2
    unfold adminCreate
    split
    · exact .refused
    · rename_i ctx hc
      obtain ⟨acc, h1, h2, -, h4, -⟩ := authorize_ok hi hc
      split
      · exact .refused
      · rename_i hp
        have hp' : ctx.checkPermission RootOp.accountCreate.perm = true := by
          simpa only [RootOp.allowed, Bool.not_eq_true', Bool.not_eq_true, Bool.not_eq_false] using hp
        have hadm : acc.role = some .admin := h4 ▸ checkPermission_admin hp'
        rw [h2]
        rw [reply_kv]
        exact .adminCreate h1 hadm (fun ts h => by obtain ⟨_, -, e⟩ := reply_ok h; cases e; simp)
  | adminUpdate t id pw q =>
    show Effect C E stamp salt kv _ (adminUpdate C now stamp salt t id pw q kv).1 (adminUpdate C now stamp salt t id pw q kv).2
    unfold adminUpdate
    split
    · exact .refused
    · rename_i ctx hc
      obtain ⟨acc, h1, h2, -, h4, -⟩ := authorize_ok hi hc
      split
      · exact .refused
      · rename_i hp
        have hp' : ctx.checkPermission RootOp.accountUpdate.perm = true := by
          simpa only [RootOp.allowed, Bool.not_eq_true', Bool.not_eq_true, Bool.not_eq_false] using hp
        have hadm : acc.role = some .admin := h4 ▸ checkPermission_admin hp'
        rw [h2]
        rw [reply_kv]
        exact .adminUpdate h1 hadm (fun ts h => by obtain ⟨_, -, e⟩ := reply_ok h; cases e; simp)
  | adminDelete t id =>
    show Effect C E stamp salt kv _ (adminDelete now t id kv).1 (adminDelete now t id kv).2
    unfold adminDelete
    split
    · exact .refused
    · rename_i ctx hc
      obtain ⟨acc, h1, h2, -, h4, -⟩ := authorize_ok hi hc
      split
      · exact .refused
      · rename_i hp
        have hp' : ctx.checkPermission RootOp.accountDelete.perm = true := by
          simpa only [RootOp.allowed, Bool.not_eq_true', Bool.not_eq_true, Bool.not_eq_false] using hp
        have hadm : acc.role = some .admin := h4 ▸ checkPermission_admin hp'
        rw [reply_kv]
        exact .adminDelete h1 hadm (fun ts h => by obtain ⟨_, -, e⟩ := reply_ok h; cases e; simp)

/-! ## Histories -/

theorem live_lt {kv : Kv} (hi : accountsC.Inv Account.Valid kv) {a : Nat} {acc : Account} (h : accountsC.live kv a = some acc) : a < 2 ^ 64 := by
  have h1 : a ≤ lastId kv (.top .accounts) := (Inv.live_id hi h).2.2.1
  have h2 : lastId kv (.top .accounts) < 2 ^ 64 := lastId_lt hi
  omega

/-- The request to the metadata a call comes down to, if any. -/
theorem Effect.req {stamp : Time} {salt : Nat} {kv kv' : Kv} {c : AuthCall} {ans : Answer} (hi : accountsC.Inv Account.Valid kv)
    (hc : c.Ok) (h : Effect C E stamp salt kv c ans kv') : kv' = kv ∨ ∃ r : Req Q, r.Ok ∧ kv' = r.exec E kv := by
  cases h with
  | refused => exact .inl rfl
  | logIn => exact .inl rfl
  | issue => exact .inl rfl
  | signUp =>
    refine .inr ⟨_, ?_, rfl⟩
    exact ⟨by show adminId < 2 ^ 64; decide, by simp [signUpAccount], by simp [signUpAccount], by simp [signUpAccount]⟩
  | self h1 h2 h3 h4 h5 =>
    refine .inr ⟨_, ?_, rfl⟩
    cases h4 <;> exact ⟨by rw [h3]; exact live_lt hi h2, by simp, by simp, by simp⟩
  | adminCreate h1 h2 h3 =>
    refine .inr ⟨_, ?_, rfl⟩
    exact ⟨live_lt hi h1, hc⟩
  | adminUpdate h1 h2 h3 =>
    refine .inr ⟨_, ?_, rfl⟩
    exact ⟨live_lt hi h1, hc⟩
  | adminDelete h1 h2 h3 =>
    refine .inr ⟨_, ?_, rfl⟩
    exact trivial

theorem World.step_call (w : World) (who : Nat) (c : AuthCall) (stamp : Time) (salt : Nat) :
    w.step C E (.call who c stamp salt) =
      { w with
        kv := (c.run C w.now stamp salt w.kv).2,
        held := fun x => if x = who then (match (c.run C w.now stamp salt w.kv).1 with | .ok ts => ts | .error _ => []) ++ w.held x else w.held x } := rfl

theorem Reached.hist {n : Nat} {l : List (AStep Q)} {w : World} (h : Reached C E n l w) (hn : n < 2 ^ 62) :
    ∃ m, m ≤ n ∧ Hist E m w.kv := by
  induction h with
  | start h => exact ⟨_, Nat.le_refl _, h⟩
  | @step n l w s h hs ih =>
    obtain ⟨m, hm, hh⟩ := ih (by omega)
    cases s with
    | call who c stamp salt =>
      have hi := (hist_accounts hh (by omega)).inv accounts_ok
      rcases (run_effect (C := C) (E := E) (now := w.now) (stamp := stamp) (salt := salt) (c := c) hi).req hi hs.1 with e | ⟨r, hr, e⟩
      · exact ⟨m, by omega, by rw [World.step_call]; dsimp only; rw [e]; exact hh⟩
      · exact ⟨m + 1, by omega, by rw [World.step_call]; dsimp only; rw [e]; exact hh.step r hr⟩
    | other r => exact ⟨m + 1, by omega, hh.step r hs.1⟩
    | tick d => exact ⟨m, by omega, hh⟩

theorem Reached.inv {n : Nat} {l : List (AStep Q)} {w : World} (h : Reached C E n l w) (hn : n < 2 ^ 62) :
    accountsC.Inv Account.Valid w.kv := by
  obtain ⟨m, hm, hh⟩ := h.hist hn
  exact (hist_accounts hh (by omega)).inv accounts_ok

theorem Reached.room {n : Nat} {l : List (AStep Q)} {w : World} (h : Reached C E n l w) (hn : n < 2 ^ 62) :
    lastId w.kv (.top .accounts) + 1 < 2 ^ 64 := by
  obtain ⟨m, hm, hh⟩ := h.hist hn
  exact (hist_accounts hh (by omega)).room accounts_ok

/-! ## What becomes of one account -/

/-- What can have become of account `a` after a call. -/
inductive Change (C : AuthEnv) (stamp : Time) (salt : Nat) (kv kv' : Kv) (a : Nat) : AuthCall → Prop
  | same {c : AuthCall} : accountsC.live kv' a = accountsC.live kv a → Change C stamp salt kv kv' a c
  | signUp {e pw : Str} {n : Option Str} : C.email e = true → C.strong pw [e] = true → accountsC.live kv a = none →
      accountsC.live kv' a = some (accountMk stamp (signUpAccount e (C.hash pw salt) n) a).norm →
      Change C stamp salt kv kv' a (.signUp e pw n)
  | self {c : AuthCall} {t : Tok} {acc : Account} {q : AccountUpd} : t ∈ c.toks → t.account = a → accountsC.live kv a = some acc →
      SelfUpd C salt acc c q → accountsC.live kv' a = some (q.apply stamp acc).norm → Change C stamp salt kv kv' a c
  | adminCreate {t : Tok} {pw : Str} {r adm : Account} : accountsC.live kv t.account = some adm → adm.role = some .admin →
      accountsC.live kv a = none →
      accountsC.live kv' a = some (accountMk stamp { r with createdBy := t.account, passwordHash := C.hash pw salt } a).norm →
      Change C stamp salt kv kv' a (.adminCreate t pw r)
  | adminUpdate {t : Tok} {pw : Option Str} {q : AccountUpd} {adm acc : Account} : accountsC.live kv t.account = some adm →
      adm.role = some .admin → accountsC.live kv a = some acc →
      accountsC.live kv' a = some ((adminUpd C salt t.account pw q).apply stamp acc).norm →
      Change C stamp salt kv kv' a (.adminUpdate t a pw q)
  | adminDelete {t : Tok} {adm : Account} : accountsC.live kv t.account = some adm → adm.role = some .admin →
      accountsC.live kv' a = none → Change C stamp salt kv kv' a (.adminDelete t a)

theorem Effect.change {stamp : Time} {salt : Nat} {kv kv' : Kv} {c : AuthCall} {ans : Answer} (hi : accountsC.Inv Account.Valid kv)
    (hl : lastId kv (.top .accounts) + 1 < 2 ^ 64) (hc : c.Ok) (h : Effect C E stamp salt kv c ans kv') (a : Nat) :
    Change C stamp salt kv kv' a c ∧ lastId kv (.top .accounts) ≤ lastId kv' (.top .accounts) ∧
      (a ≤ lastId kv (.top .accounts) → accountsC.live kv a = none → accountsC.live kv' a = none) := by
  cases h with
  | refused => exact ⟨.same rfl, Nat.le_refl _, fun _ h => h⟩
  | logIn => exact ⟨.same rfl, Nat.le_refl _, fun _ h => h⟩
  | issue => exact ⟨.same rfl, Nat.le_refl _, fun _ h => h⟩
  | @signUp e pw n _ h1 h2 h3 =>
    have hok : (Req.accountCreate (Q := Q) stamp (signUpAccount e (C.hash pw salt) n)).Ok :=
      ⟨by show adminId < 2 ^ 64; decide, by simp [signUpAccount], by simp [signUpAccount], by simp [signUpAccount]⟩
    rcases create_exec (E := E) hi hl hok with ⟨-, e⟩ | ⟨kv', -, e, g1, g2, g3⟩
    · rw [e]; exact ⟨.same rfl, Nat.le_refl _, fun _ h => h⟩
    · rw [e]
      refine ⟨?_, by omega, fun ha hn => by rw [g3, if_neg (by omega)]; exact hn⟩
      by_cases ha : a = lastId kv (.top .accounts) + 1
      · exact .signUp h1 h2 (ha ▸ g1) (by rw [g3, if_pos ha])
      · exact .same (by rw [g3, if_neg ha])
  | @self c t acc q _ h1 h2 h3 h4 h5 =>
    have hok : (Req.accountUpdate (Q := Q) t.account stamp q).Ok := by
      cases h4 <;> exact ⟨by rw [h3]; exact live_lt hi h2, by simp, by simp, by simp⟩
    rcases update_exec (E := E) hi hok with e | ⟨x, g1, g2, g3⟩
    · rw [e]; exact ⟨.same rfl, Nat.le_refl _, fun _ h => h⟩
    · rw [h2] at g1
      cases g1
      refine ⟨?_, by omega, fun ha hn => ?_⟩
      · by_cases ha : a = t.account
        · exact .self h1 ha.symm (ha ▸ h2) h4 (by rw [g3, if_pos ha])
        · exact .same (by rw [g3, if_neg ha])
      · rw [g3, if_neg (by rintro rfl; rw [h2] at hn; cases hn)]; exact hn
  | @adminCreate t pw r adm _ h1 h2 h3 =>
    have hok : (Req.accountCreate (Q := Q) stamp { r with createdBy := t.account, passwordHash := C.hash pw salt }).Ok :=
      ⟨live_lt hi h1, hc⟩
    rcases create_exec (E := E) hi hl hok with ⟨-, e⟩ | ⟨kv', -, e, g1, g2, g3⟩
    · rw [e]; exact ⟨.same rfl, Nat.le_refl _, fun _ h => h⟩
    · rw [e]
      refine ⟨?_, by omega, fun ha hn => by rw [g3, if_neg (by omega)]; exact hn⟩
      by_cases ha : a = lastId kv (.top .accounts) + 1
      · exact .adminCreate h1 h2 (ha ▸ g1) (by rw [g3, if_pos ha])
      · exact .same (by rw [g3, if_neg ha])
  | @adminUpdate t id pw q adm _ h1 h2 h3 =>
    have hok : (Req.accountUpdate (Q := Q) id stamp (adminUpd C salt t.account pw q)).Ok := ⟨live_lt hi h1, hc⟩
    rcases update_exec (E := E) hi hok with e | ⟨x, g1, g2, g3⟩
    · rw [e]; exact ⟨.same rfl, Nat.le_refl _, fun _ h => h⟩
    · refine ⟨?_, by omega, fun ha hn => ?_⟩
      · by_cases ha : a = id
        · subst ha; exact .adminUpdate h1 h2 g1 (by rw [g3, if_pos rfl])
        · exact .same (by rw [g3, if_neg ha])
      · rw [g3, if_neg (by rintro rfl; rw [g1] at hn; cases hn)]; exact hn
  | @adminDelete t id adm _ h1 h2 h3 =>
    obtain ⟨g2, g3⟩ := delete_exec (E := E) (id := id) hi
    refine ⟨?_, by omega, fun ha hn => by rw [g3]; split <;> trivial⟩
    by_cases ha : a = id
    · subst ha; exact .adminDelete h1 h2 (by rw [g3, if_pos rfl])
    · exact .same (by rw [g3, if_neg ha])

end OptiPrism.Platform
