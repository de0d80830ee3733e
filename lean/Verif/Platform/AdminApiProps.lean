import Verif.Platform.AdminApiSpec
import Verif.Platform.Secrets
import Verif.Meta.BackupsProps
import Verif.Platform.SchemaApiProps
import Verif.Platform.ReportApiProps
import Verif.Meta.StaysTop
import Verif.Meta.ListingProps
import Verif.Meta.BookmarksProps
import Verif.Ingest.Hist
import Verif.Platform.AccessProps
import Verif.Platform.SettingsApiProps

/-!
# C147: What the administration calls show and keep
-/

namespace OptiPrism.Platform

open OptiPrism.Meta

variable {N Q : Type}

/-- A call without the permission is refused and changes nothing. -/
theorem C147_refused (A : AdminEnv N) (ctx : Ctx) (now : Time) (c : AdminCall N) (kv : Kv) (h : c.allowed ctx = false) :
    c.run A ctx now kv = (some (.error .forbidden), kv) := by
  unfold AdminCall.run
  rw [h]
  rfl

/-- A call that reads changes nothing. -/
theorem C147_reads (A : AdminEnv N) (ctx : Ctx) (now : Time) (c : AdminCall N) (kv : Kv) (h : c.writes = false) :
    (c.run A ctx now kv).2 = kv := by
  unfold AdminCall.run
  split
  · cases c <;> first | rfl | cases h
  · rfl

theorem act_of {A : AdminEnv N} {ctx : Ctx} {now : Time} {c : AdminCall N} {kv : Kv} (h : c.allowed ctx = true) :
    c.run A ctx now kv = c.act A ctx now kv := by
  unfold AdminCall.run
  rw [h]
  rfl

theorem ran_act {A : AdminEnv N} {ctx : Ctx} {now : Time} {c : AdminCall N} {kv kv' : Kv} {x : AdminShown N}
    (h : c.run A ctx now kv = (some (.ok x), kv')) : c.allowed ctx = true ∧ c.act A ctx now kv = (some (.ok x), kv') := by
  unfold AdminCall.run at h
  split at h
  · next h1 => exact ⟨h1, h⟩
  · cases h

theorem told_ok {α : Type} {f : α → Option (AdminShown N)} {r : Except Err α} {x : AdminShown N} (h : told f r = some (.ok x)) :
    ∃ a, r = .ok a ∧ f a = some x := by
  cases r with
  | error e => cases h
  | ok a =>
    change (f a).map Except.ok = some (.ok x) at h
    cases hf : f a with
    | none => rw [hf] at h; cases h
    | some y => rw [hf] at h; cases h; exact ⟨a, rfl, hf⟩

theorem telling_ok {α : Type} {f : α → Option (AdminShown N)} {r : Except Err α × Kv} {x : AdminShown N} {kv' : Kv}
    (h : telling f r = (some (.ok x), kv')) : ∃ a, r = (.ok a, kv') ∧ f a = some x := by
  obtain ⟨r1, r2⟩ := r
  unfold telling at h
  injection h with h1 h2
  obtain ⟨a, e, hf⟩ := told_ok h1
  dsimp only at e h2
  exact ⟨a, by rw [e, h2], hf⟩

/-- Who may: accounts, backups and the set of organizations are for the administrators of the installation, an organization and the list of
its projects for its owners as well, and the profile for everybody. -/
theorem C147_permission (ctx : Ctx) (salt id : Nat) (q : JAccountNew) (u : JAccountUpd) (n : Str) (n' : Option Str) :
    (∀ c ∈ ([.accountCreate salt q, .accountGet id, .accountList, .accountUpdate salt id u, .accountDelete id, .orgCreate n, .orgList, .orgDelete id,
        .backup, .backupGet id, .backupList] : List (AdminCall N)), c.allowed ctx = true ↔ ctx.role = some .admin) ∧
    (∀ c ∈ ([.orgGet id, .orgUpdate id n'] : List (AdminCall N)), c.allowed ctx = true ↔ ctx.role = some .admin ∨ HasRole ctx.organizations id .owner) ∧
    ((AdminCall.projectList : AdminCall N).allowed ctx = true ↔ ctx.role = some .admin ∨ HasRole ctx.organizations ctx.organizationId .owner) ∧
    (AdminCall.profile : AdminCall N).allowed ctx = true := by
  refine ⟨fun c hc => ?_, fun c hc => ?_, (C71_organization ctx .projectList _).trans (by simp), rfl⟩
  · simp only [List.mem_cons, List.not_mem_nil, or_false] at hc
    rcases hc with rfl | rfl | rfl | rfl | rfl | rfl | rfl | rfl | rfl | rfl | rfl <;> exact C71_root ctx _
  · simp only [List.mem_cons, List.not_mem_nil, or_false] at hc
    rcases hc with rfl | rfl
    · exact (C71_organization ctx .orgGet id).trans (by simp)
    · exact (C71_organization ctx .orgUpdate id).trans (by simp)

/-- In a project: seeing, changing and deleting it and keeping bookmarks take an administrator of the installation, an owner or administrator of
the organization of the token, or a role in the project that has the permission. -/
theorem C147_permission_project (ctx : Ctx) (p : Nat) (q : JProjectUpd) (n : Str) (r : Option (JReportQuery N)) :
    (AdminCall.projectGet p : AdminCall N).allowed ctx = ctx.checkProject ctx.organizationId p .viewProject ∧
    (AdminCall.projectUpdate p q : AdminCall N).allowed ctx = ctx.checkProject ctx.organizationId p .manageProject ∧
    (AdminCall.projectDelete p : AdminCall N).allowed ctx = ctx.checkProject ctx.organizationId p .deleteProject ∧
    (AdminCall.bookmarkCreate p n r).allowed ctx = ctx.checkProject ctx.organizationId p .exploreReports ∧
    (AdminCall.bookmarkGet p n : AdminCall N).allowed ctx = ctx.checkProject ctx.organizationId p .exploreReports := ⟨rfl, rfl, rfl, rfl, rfl⟩

/-! ## Accounts -/

theorem account_get (A : AdminEnv N) {ctx : Ctx} {now : Time} {kv : Kv} (hg : RootOp.accountGet.allowed ctx = true) {id : Nat} {r : Account}
    (h : accountsC.getById id kv = .ok r) : (AdminCall.accountGet id).run A ctx now kv = (some (.ok (.account (accountOut r))), kv) := by
  rw [act_of (c := .accountGet id) hg]
  show (told _ (accountsC.getById id kv), kv) = _
  rw [h]
  rfl

/-- An account that was made and answered for is shown as it was asked for, whatever has happened since, if nothing has changed it. -/
theorem C147_account (A : AdminEnv N) {E : Env Q} {n m : Nat} {kv kv1 kv2 : Kv} (h : Hist E n kv) {ctx ctx' : Ctx}
    (ha : ctx.accountId < 2 ^ 64) {now now' : Time} {salt : Nat} {q : JAccountNew} (hq : (AdminCall.accountCreate (N := N) salt q).Ok) {j : JAccount}
    (hc : (AdminCall.accountCreate salt q).run A ctx now kv = (some (.ok (.account j)), kv1))
    (hr : Runs E (fun r => ¬ r.RewritesAccount j.id) kv1 m kv2) (hn : n + m + 1 < 2 ^ 62) (hg : RootOp.accountGet.allowed ctx' = true) :
    ∃ a, (AdminCall.accountGet j.id).run A ctx' now' kv2 = (some (.ok (.account a)), kv2) ∧ a.id = j.id ∧ AccountAsked ctx.accountId now q a := by
  obtain ⟨r, e, er⟩ := telling_ok (ran_act hc).2
  cases er
  have hok : (Req.accountCreate now (accountNewIn A.hash ctx.accountId now salt q) : Req Q).Ok := ⟨ha, hq.1, hq.2.1, hq.2.2⟩
  have re := hist_accounts h (by omega)
  have inv := re.inv accounts_ok
  have h1 := h.step _ hok
  rw [show Req.exec E (.accountCreate now (accountNewIn A.hash ctx.accountId now salt q)) kv = kv1 from congrArg Prod.snd e] at h1
  obtain ⟨rfl, -, -, hl⟩ := create_done accounts_ok inv (re.room accounts_ok) (accountCreate_ok hok) (apiCall_ok e)
  have hl := hl (Meta.lastId kv accountsC.ns + 1)
  rw [if_pos rfl] at hl
  have hl2 := account_stays h1 hl hr (by omega)
  have inv2 := (hist_accounts (hr.hist h1) (by omega)).inv accounts_ok
  refine ⟨_, account_get A hg (get_live inv2 hl2), rfl, ?_⟩
  exact ⟨rfl, rfl, ⟨rfl, rfl⟩, rfl, Meta.normList_getD _, Meta.normList_getD _, Meta.normList_getD _, rfl, rfl, rfl, rfl⟩

/-- An account that was changed is shown with what was mentioned as asked for and all else as before, if neither the role nor the duty to
change the password was mentioned; the other accounts are shown as before. Missing: a new role and the duty are acknowledged and dropped. -/
theorem C147_account_update_partial (A : AdminEnv N) {E : Env Q} {n m : Nat} {kv kv1 kv2 : Kv} (h : Hist E n kv) {ctx ctx' : Ctx} {id : Nat}
    (ha : ctx.accountId < 2 ^ 64) {now now' : Time} {salt : Nat} {q : JAccountUpd} (hq : (AdminCall.accountUpdate (N := N) salt id q).Ok)
    (hrole : q.role = none) (hforce : q.forceUpdatePassword = none) {j : JAccount}
    (hc : (AdminCall.accountUpdate salt id q).run A ctx now kv = (some (.ok (.account j)), kv1))
    (hr : Runs E (fun r => ¬ r.RewritesAccount id) kv1 m kv2) (hn : n + m + 1 < 2 ^ 62) (hg : RootOp.accountGet.allowed ctx' = true) :
    (∃ old a, (AdminCall.accountGet id).run A ctx' now' kv = (some (.ok (.account old)), kv) ∧
      (AdminCall.accountGet id).run A ctx' now' kv2 = (some (.ok (.account a)), kv2) ∧ AccountChanged ctx.accountId now q old a) ∧
    ∀ i, i ≠ id → ((AdminCall.accountGet i).run A ctx' now' kv1).1 = ((AdminCall.accountGet i).run A ctx' now' kv).1 := by
  obtain ⟨r, e, er⟩ := telling_ok (ran_act hc).2
  cases er
  have hok : (Req.accountUpdate id now (accountUpdIn A.hash ctx.accountId salt q) : Req Q).Ok := ⟨ha, hq⟩
  have h1 := h.step _ hok
  rw [show Req.exec E (.accountUpdate id now (accountUpdIn A.hash ctx.accountId salt q)) kv = kv1 from congrArg Prod.snd e] at h1
  obtain ⟨old, new, g1, g2, -, c1, c2, c3, c4, c5, c6, c7, c8, c9, c10, c11, c12, c13, g3⟩ := C108_account_partial h (by omega) hok e
  have inv1 := (hist_accounts h1 (by omega)).inv accounts_ok
  have inv0 := (hist_accounts h (by omega)).inv accounts_ok
  have hl2 := account_stays h1 (live_get inv1 g2) hr (by omega)
  have inv2 := (hist_accounts (hr.hist h1) (by omega)).inv accounts_ok
  refine ⟨⟨_, _, account_get A hg g1, account_get A hg (get_live inv2 hl2), ?_⟩, fun i hi => ?_⟩
  · refine ⟨c9.trans (Inv.live_id inv0 (live_get inv0 g1)).1.symm, c1, c2, ?_, c4.2 rfl, ?_, c5, c6, c7, c11, c10, c12, c13⟩
    · exact ⟨fun v hv => (nomatch hforce.symm.trans hv), fun _ => c3.2 rfl⟩
    · exact ⟨fun v hv => (nomatch hrole.symm.trans hv), fun _ => c8⟩
  · rw [act_of (c := .accountGet i) hg, act_of (c := .accountGet i) hg]
    show told _ (accountsC.getById i kv1) = told _ (accountsC.getById i kv)
    rw [g3 i hi]

/-- A new account is stored with the hash of the password asked for, and keeps it until it is rewritten. -/
theorem C147_password (A : AdminEnv N) {E : Env Q} {n m : Nat} {kv kv1 kv2 : Kv} (h : Hist E n kv) {ctx : Ctx}
    (ha : ctx.accountId < 2 ^ 64) {now : Time} {salt : Nat} {q : JAccountNew} (hq : (AdminCall.accountCreate (N := N) salt q).Ok) {j : JAccount}
    (hc : (AdminCall.accountCreate salt q).run A ctx now kv = (some (.ok (.account j)), kv1))
    (hr : Runs E (fun r => ¬ r.RewritesAccount j.id) kv1 m kv2) (hn : n + m + 1 < 2 ^ 62) :
    ∃ r, accountsC.getById j.id kv2 = .ok r ∧ r.email = q.email ∧ r.passwordHash = A.hash q.password salt := by
  obtain ⟨r, e, er⟩ := telling_ok (ran_act hc).2
  cases er
  have hok : (Req.accountCreate now (accountNewIn A.hash ctx.accountId now salt q) : Req Q).Ok := ⟨ha, hq.1, hq.2.1, hq.2.2⟩
  have re := hist_accounts h (by omega)
  have inv := re.inv accounts_ok
  have h1 := h.step _ hok
  rw [show Req.exec E (.accountCreate now (accountNewIn A.hash ctx.accountId now salt q)) kv = kv1 from congrArg Prod.snd e] at h1
  obtain ⟨rfl, -, -, hl⟩ := create_done accounts_ok inv (re.room accounts_ok) (accountCreate_ok hok) (apiCall_ok e)
  have hl := hl (Meta.lastId kv accountsC.ns + 1)
  rw [if_pos rfl] at hl
  have hl2 := account_stays h1 hl hr (by omega)
  have inv2 := (hist_accounts (hr.hist h1) (by omega)).inv accounts_ok
  exact ⟨_, get_live inv2 hl2, rfl, rfl⟩

/-- A new password replaces the old one; if none is given the old one stays. -/
theorem C147_password_update (A : AdminEnv N) {E : Env Q} {n m : Nat} {kv kv1 kv2 : Kv} (h : Hist E n kv) {ctx : Ctx} {id : Nat}
    (ha : ctx.accountId < 2 ^ 64) {now : Time} {salt : Nat} {q : JAccountUpd} (hq : (AdminCall.accountUpdate (N := N) salt id q).Ok) {j : JAccount}
    (hc : (AdminCall.accountUpdate salt id q).run A ctx now kv = (some (.ok (.account j)), kv1))
    (hr : Runs E (fun r => ¬ r.RewritesAccount id) kv1 m kv2) (hn : n + m + 1 < 2 ^ 62) :
    ∃ old r, accountsC.getById id kv = .ok old ∧ accountsC.getById id kv2 = .ok r ∧
      (∀ p, q.password = some p → r.passwordHash = A.hash p salt) ∧ (q.password = none → r.passwordHash = old.passwordHash) := by
  obtain ⟨r, e, er⟩ := telling_ok (ran_act hc).2
  cases er
  have hok : (Req.accountUpdate id now (accountUpdIn A.hash ctx.accountId salt q) : Req Q).Ok := ⟨ha, hq⟩
  have h1 := h.step _ hok
  rw [show Req.exec E (.accountUpdate id now (accountUpdIn A.hash ctx.accountId salt q)) kv = kv1 from congrArg Prod.snd e] at h1
  obtain ⟨old, new, g1, g2, hp, -⟩ := C108_account_partial h (by omega) hok e
  have inv1 := (hist_accounts h1 (by omega)).inv accounts_ok
  have hl2 := account_stays h1 (live_get inv1 g2) hr (by omega)
  have inv2 := (hist_accounts (hr.hist h1) (by omega)).inv accounts_ok
  refine ⟨old, new, g1, get_live inv2 hl2, fun p ep => hp.1 _ ?_, fun ep => hp.2 ?_⟩
  · show q.password.map (fun p => A.hash p salt) = _
    rw [ep]; rfl
  · show q.password.map (fun p => A.hash p salt) = _
    rw [ep]; rfl

/-- The profile is that of the account that asks. -/
theorem C147_profile (A : AdminEnv N) {ctx : Ctx} {now : Time} {kv : Kv} {r : Account} (h : accountsC.getById ctx.accountId kv = .ok r) :
    ∃ p : JProfile, AdminCall.profile.run A ctx now kv = (some (.ok (.profile p)), kv) ∧ p.email = r.email ∧ p.name = r.name ∧
      p.forceUpdatePassword = r.forceUpdatePassword ∧ p.forceUpdateEmail = r.forceUpdateEmail := by
  refine ⟨profileOut (accountOut r), ?_, rfl, rfl, rfl, rfl⟩
  rw [act_of (c := .profile) rfl]
  show (told _ (accountsC.getById ctx.accountId kv), kv) = _
  rw [h]; rfl

/-! ## Organizations -/

theorem org_get (A : AdminEnv N) {ctx : Ctx} {now : Time} {kv : Kv} {id : Nat} (hg : OrgOp.orgGet.allowed ctx id = true) {r : Org}
    (h : orgsC.getById id kv = .ok r) : (AdminCall.orgGet id).run A ctx now kv = (some (.ok (.org (orgOut r))), kv) := by
  rw [act_of (c := .orgGet id) hg]
  show (told _ (orgsC.getById id kv), kv) = _
  rw [h]
  rfl

/-- An organization that was made is shown as it was asked for, and its maker is told to be a member. -/
theorem C147_organization (A : AdminEnv N) {E : Env Q} {n m : Nat} {kv kv1 kv2 : Kv} (h : Hist E n kv) {ctx ctx' : Ctx}
    (ha : ctx.accountId < 2 ^ 64) {now now' : Time} {name : Str} {j : JOrg}
    (hc : (AdminCall.orgCreate name).run A ctx now kv = (some (.ok (.org j)), kv1))
    (hr : Runs E (fun r => ¬ r.RewritesOrg j.id) kv1 m kv2) (hn : n + m + 1 < 2 ^ 62) (hg : OrgOp.orgGet.allowed ctx' j.id = true) :
    ∃ a, (AdminCall.orgGet j.id).run A ctx' now' kv2 = (some (.ok (.org a)), kv2) ∧ a.id = j.id ∧ OrgAsked ctx.accountId now name a := by
  obtain ⟨r, e, er⟩ := telling_ok (ran_act hc).2
  cases er
  have hok : (Req.orgCreate now ctx.accountId name : Req Q).Ok := ha
  have re := hist_orgs h (by omega)
  have inv := re.inv orgs_ok
  have h1 := h.step _ hok
  rw [show Req.exec E (.orgCreate now ctx.accountId name) kv = kv1 from congrArg Prod.snd e] at h1
  have e0 := apiCall_ok e
  unfold Meta.orgCreate Call.then at e0
  dsimp only at e0
  split at e0
  · cases e0
  · next org kva ea =>
    split at e0
    · cases e0
    · next acc kvb eb =>
      cases e0
      obtain ⟨rfl, -, -, hl⟩ := create_done orgs_ok inv (re.room orgs_ok)
        (mk := fun id => { id := id, createdAt := now, createdBy := ctx.accountId, updatedAt := none, updatedBy := none, name := name,
                           members := [(ctx.accountId, .owner)] })
        ⟨fun _ => rfl, fun _ => rfl, fun id hid => ⟨⟨hid, ha, optOk_none⟩, by intro m hm; rw [List.mem_singleton.mp hm]; exact ha⟩⟩ ea
      have hl := hl (Meta.lastId kv orgsC.ns + 1)
      rw [if_pos rfl, ← AgreeOn.live (c := orgsC) (accounts_only (accountSet_touches _ _) eb)] at hl
      obtain ⟨y, hl2, l, rfl⟩ := org_stays h1 hl hr (by omega)
      have inv2 := (hist_orgs (hr.hist h1) (by omega)).inv orgs_ok
      exact ⟨_, org_get A hg (get_live inv2 hl2), rfl, rfl, rfl, rfl, rfl, rfl⟩

/-- An organization that was changed is shown with the name it was given and all else as before; the others are shown as before. -/
theorem C147_organization_update (A : AdminEnv N) {E : Env Q} {n m : Nat} {kv kv1 kv2 : Kv} (h : Hist E n kv) {ctx ctx' : Ctx} {id : Nat}
    (ha : ctx.accountId < 2 ^ 64) {now now' : Time} {name : Option Str} {j : JOrg}
    (hc : (AdminCall.orgUpdate id name).run A ctx now kv = (some (.ok (.org j)), kv1))
    (hr : Runs E (fun r => ¬ r.RewritesOrg id) kv1 m kv2) (hn : n + m + 1 < 2 ^ 62) (hg : OrgOp.orgGet.allowed ctx' id = true) :
    (∃ old a, (AdminCall.orgGet id).run A ctx' now' kv = (some (.ok (.org old)), kv) ∧
      (AdminCall.orgGet id).run A ctx' now' kv2 = (some (.ok (.org a)), kv2) ∧ OrgChanged ctx.accountId now name old a) ∧
    ∀ i, i ≠ id → ((AdminCall.orgGet i).run A ctx' now' kv1).1 = ((AdminCall.orgGet i).run A ctx' now' kv).1 := by
  obtain ⟨r, e, er⟩ := telling_ok (ran_act hc).2
  cases er
  have h1 := h.step (.orgUpdate id now ctx.accountId name) ha
  rw [show Req.exec E (.orgUpdate id now ctx.accountId name) kv = kv1 from congrArg Prod.snd e] at h1
  obtain ⟨old, new, g1, g2, c1, -, c2, c3, c4, -, c5, c6, g3⟩ := C108_organization h (by omega) ha e
  have inv1 := (hist_orgs h1 (by omega)).inv orgs_ok
  have inv0 := (hist_orgs h (by omega)).inv orgs_ok
  obtain ⟨y, hl2, l, rfl⟩ := org_stays h1 (live_get inv1 g2) hr (by omega)
  have inv2 := (hist_orgs (hr.hist h1) (by omega)).inv orgs_ok
  refine ⟨⟨_, _, org_get A hg g1, org_get A hg (get_live inv2 hl2), ?_⟩, fun i hi => ?_⟩
  · exact ⟨c2.trans (Inv.live_id inv0 (live_get inv0 g1)).1.symm, c1, c4, c3, c5, c6⟩
  · by_cases hgi : OrgOp.orgGet.allowed ctx' i = true
    · rw [act_of (c := .orgGet i) hgi, act_of (c := .orgGet i) hgi]
      show told _ (orgsC.getById i kv1) = told _ (orgsC.getById i kv)
      rw [g3 i hi]
    · have hgi : (AdminCall.orgGet (N := N) i).allowed ctx' = false := Bool.eq_false_iff.mpr hgi
      rw [C147_refused _ _ _ _ _ hgi, C147_refused _ _ _ _ _ hgi]

/-! ## Projects -/

theorem project_get (A : AdminEnv N) {ctx : Ctx} {now : Time} {kv : Kv} {id : Nat} (hg : ProjOp.projectGet.allowed ctx id = true) {r : Project}
    (h : projectsC.getById id kv = .ok r) : (AdminCall.projectGet id).run A ctx now kv = (some (.ok (.project (projectOut r))), kv) := by
  rw [act_of (c := .projectGet id) hg]
  show (told _ (projectsC.getById id kv), kv) = _
  rw [h]
  rfl

theorem slash_projectId : '/' ∉ Ingest.kProjectId := by decide +kernel

/-- Writing its name into the dictionaries leaves the projects alone. -/
theorem projectKeys_get (r : Project) (kv : Kv) (id : Nat) : projectsC.getById id (projectKeys r kv) = projectsC.getById id kv := by
  have ht : ∀ t ∈ kEvents :: (List.range 5).map Ingest.groupCol, '/' ∉ t := by
    intro t ht
    rcases List.mem_cons.mp ht with rfl | ht
    · exact kEvents_ok.1
    · obtain ⟨g, -, rfl⟩ := List.mem_map.mp ht
      exact Ingest.slash_groupCol g
  unfold projectKeys
  revert ht
  generalize kEvents :: _ = l
  intro ht
  induction l generalizing kv with
  | nil => rfl
  | cons t l ih =>
    rw [List.foldl_cons, ih _ fun t h => ht t (List.mem_cons_of_mem _ h)]
    have hs := (dictPut_touches (p := r.id) (t := t) (d := Ingest.kProjectId) ⟨ht t List.mem_cons_self, slash_projectId⟩ r.id r.name).run kv
    have ag : AgreeOn projectsC.ns kv _ := Same.agree (hs.same (by intro k hk; simp at hk; simp [hk]))
    unfold Coll.getById
    rw [ag (.data projectsC.ns id) rfl]

/-- A project that was changed is shown with what was mentioned as asked for and all else as before; the others are shown as before. -/
theorem C147_project_update (A : AdminEnv N) {E : Env Q} {n : Nat} {kv kv1 : Kv} (h : Hist E n kv) {ctx ctx' : Ctx} {id : Nat}
    (ha : ctx.accountId < 2 ^ 64) {now now' : Time} {q : JProjectUpd} (hq : ∀ d, q.sessionDuration = some d → d < 2 ^ 64) {j : JProject}
    (hc : (AdminCall.projectUpdate id q).run A ctx now kv = (some (.ok (.project j)), kv1)) (hg : ProjOp.projectGet.allowed ctx' id = true) :
    (∃ old a, (AdminCall.projectGet id).run A ctx' now' kv = (some (.ok (.project old)), kv) ∧
      (AdminCall.projectGet id).run A ctx' now' kv1 = (some (.ok (.project a)), kv1) ∧ ProjectChanged ctx.accountId now q old a) ∧
    ∀ i, i ≠ id → ((AdminCall.projectGet i).run A ctx' now' kv1).1 = ((AdminCall.projectGet i).run A ctx' now' kv).1 := by
  obtain ⟨r, e, er⟩ := telling_ok (ran_act hc).2
  cases er
  unfold updateProject at e
  split at e
  · cases e
  · next r' kva ea =>
    cases e
    have hok : (Req.projectUpdate id now (projectUpdIn ctx.accountId q) : Req Q).Ok := ⟨ha, hq⟩
    obtain ⟨old, new, g1, g2, c1, c2, c3, c4, c5, -, c6, c7, c8, c9, c10, c11, g3⟩ := C108_project h hok ea
    refine ⟨⟨_, _, project_get A hg g1, project_get A hg ((projectKeys_get _ _ _).trans g2), ?_⟩, fun i hi => ?_⟩
    · exact ⟨c7.trans ((hist_projectsOk h).get g1).2.2.symm, c1, c2, c3, c4, c5, c6, c9, c8, c10, c11⟩
    · by_cases hgi : ProjOp.projectGet.allowed ctx' i = true
      · rw [act_of (c := .projectGet i) hgi, act_of (c := .projectGet i) hgi]
        show told _ (projectsC.getById i _) = told _ (projectsC.getById i kv)
        rw [projectKeys_get, g3 i hi]
      · have hgi : (AdminCall.projectGet (N := N) i).allowed ctx' = false := Bool.eq_false_iff.mpr hgi
        rw [C147_refused _ _ _ _ _ hgi, C147_refused _ _ _ _ _ hgi]

/-! ## Backups -/

theorem backup_get (A : AdminEnv N) {ctx : Ctx} {now : Time} {kv : Kv} (hg : RootOp.backupGet.allowed ctx = true) {id : Nat} {r : Backup}
    (h : backupsC.getById id kv = .ok r) : (AdminCall.backupGet id).run A ctx now kv = (some (.ok (.backup (backupOut r))), kv) := by
  rw [act_of (c := .backupGet id) hg]
  show (told _ (backupsC.getById id kv), kv) = _
  rw [h]
  rfl

/-- A backup is made as the settings ask for it, and is shown so until its state changes. -/
theorem C147_backup (A : AdminEnv N) {E : Env Q} {n m : Nat} {kv kv1 kv2 : Kv} (h : Hist E n kv) {ctx ctx' : Ctx} {now now' : Time} {j : JBackup}
    (hc : (AdminCall.backup).run A ctx now kv = (some (.ok (.backup j)), kv1))
    (hr : Runs E (fun r => ¬ r.RewritesBackup j.id) kv1 m kv2) (hn : n + m + 1 < 2 ^ 62) (hg : RootOp.backupGet.allowed ctx' = true) :
    ∃ s a, loadSettings kv = .ok s ∧ s.backupEnabled = true ∧ (AdminCall.backupGet j.id).run A ctx' now' kv2 = (some (.ok (.backup a)), kv2) ∧
      a.id = j.id ∧ BackupAsked now s a := by
  have hc := (ran_act hc).2
  change makeBackup now kv = _ at hc
  unfold makeBackup at hc
  split at hc
  · cases hc
  · next s hs =>
    split at hc
    · cases hc
    · next hen =>
      obtain ⟨r, e, er⟩ := telling_ok hc
      cases er
      have hok : (Req.backupCreate now (fromSettings now s) : Req Q).Ok := fun _ h => by cases h
      have re := hist_backups h (by omega)
      have inv := re.inv backups_ok
      have h1 := h.step _ hok
      rw [show Req.exec E (.backupCreate now (fromSettings now s)) kv = kv1 from congrArg Prod.snd e] at h1
      have e0 := apiCall_ok e
      have e' : backupsC.create [] (fun id => { fromSettings now s with id := id, createdAt := now, updatedAt := none }) kv = .ok (r, kv1) := by
        unfold backupCreate at e0
        dsimp only at e0
        split at e0
        · split at e0
          · cases e0
          · split at e0
            · cases e0
            · exact e0
        · exact e0
      obtain ⟨rfl, -, -, hl⟩ := create_done backups_ok inv (re.room backups_ok)
        (mk := fun id => { fromSettings now s with id := id, createdAt := now, updatedAt := none })
        ⟨fun _ => rfl, fun _ => rfl, fun id hid => ⟨hid, hok⟩⟩ e'
      have hl := hl (Meta.lastId kv backupsC.ns + 1)
      rw [if_pos rfl] at hl
      have hl2 := backup_stays h1 hl hr (by omega)
      have inv2 := (hist_backups (hr.hist h1) (by omega)).inv backups_ok
      refine ⟨s, _, hs, by simpa using hen, backup_get A hg (get_live inv2 hl2), rfl, ?_⟩
      refine ⟨?_, ⟨rfl, rfl, rfl⟩, rfl, rfl, rfl⟩
      cases hp : s.provider <;> simp [backupOut, Backup.norm, fromSettings, providerOf, hp]

/-- A backup is shown as it is: how far it has come while it is being made, and why it failed once it has. -/
theorem C147_backup_shown (A : AdminEnv N) {ctx : Ctx} {now : Time} {kv : Kv} (hg : RootOp.backupGet.allowed ctx = true) {id : Nat} {b : Backup}
    (h : backupsC.getById id kv = .ok b) :
    ∃ j : JBackup, (AdminCall.backupGet id).run A ctx now kv = (some (.ok (.backup j)), kv) ∧ j.id = b.id ∧ j.createdAt = b.createdAt ∧
      j.updatedAt = b.updatedAt ∧ j.provider = b.provider ∧ j.isEncrypted = b.isEncrypted ∧
      (j.status = .idle ↔ b.status = .idle) ∧ (j.status = .uploading ↔ b.status = .uploading) ∧ (j.status = .completed ↔ b.status = .completed) ∧
      (∀ p, j.status = .inProgress ∧ j.progress = some p ↔ b.status = .inProgress p) ∧
      (∀ e, j.status = .failed ∧ j.error = some e ↔ b.status = .failed e) := by
  refine ⟨backupOut b, backup_get A hg h, rfl, rfl, rfl, rfl, rfl, ?_⟩
  cases e : b.status <;> simp [backupOut, backupStatusOut, e]

/-- No backup is made when backups are off, when the settings cannot be read, or while another waits to be run. -/
theorem C147_backup_refused (A : AdminEnv N) {E : Env Q} {n : Nat} {kv : Kv} (h : Hist E n kv) (hn : n < 2 ^ 62) {ctx : Ctx} {now : Time} :
    (∃ j, (AdminCall.backup.run A ctx now kv).1 = some (.ok (.backup j))) ↔
      RootOp.backup.allowed ctx = true ∧ (∃ s, loadSettings kv = .ok s ∧ s.backupEnabled = true) ∧
      ∀ id b, backupsC.getById id kv = .ok b → b.status ≠ .idle := by
  by_cases hal : RootOp.backup.allowed ctx = true
  · rw [act_of (c := .backup) hal]
    change (∃ j, (makeBackup now kv).1 = _) ↔ _
    unfold makeBackup
    cases hs : loadSettings kv with
    | error e => simp
    | ok s =>
      dsimp only
      by_cases hen : s.backupEnabled = true
      · simp only [hen, Bool.not_true, Bool.false_eq_true, if_false]
        obtain ⟨h1, h2⟩ := C38_create h hn (now := now) (req := fromSettings now s) rfl
        constructor
        · rintro ⟨j, hj⟩
          refine ⟨hal, ⟨s, rfl, hen⟩, fun id b hb hi => ?_⟩
          have := h1.mpr ⟨id, b, hb, hi⟩
          unfold telling at hj
          rw [this] at hj
          cases hj
        · rintro ⟨-, -, hb⟩
          obtain ⟨b, eb, -⟩ := h2 fun e => by
            obtain ⟨id, b, e1, e2⟩ := h1.mp e
            exact hb id b e1 e2
          exact ⟨_, by unfold telling; rw [eb]; rfl⟩
      · simp [hen]
  · have : (AdminCall.backup (N := N)).allowed ctx = false := by simpa [AdminCall.allowed] using hal
    rw [C147_refused _ _ _ _ _ this]
    simp [hal]

/-! ## Lists -/

/-- A list has exactly what is shown by number, each once. -/
def ToldExactly {J : Type} (A : AdminEnv N) (ctx : Ctx) (now : Time) (kv : Kv) (one : J → AdminShown N) (many : List J → AdminShown N)
    (num : J → Nat) (get : Nat → AdminCall N) (lst : AdminCall N) : Prop :=
  ∃ l, (lst.run A ctx now kv).1 = some (.ok (many l)) ∧ (l.map num).Nodup ∧
    ∀ j, j ∈ l ↔ ((get (num j)).run A ctx now kv).1 = some (.ok (one j))

theorem told_exactly {J R : Type} {c : Coll R} {A : AdminEnv N} {ctx : Ctx} {now : Time} {kv : Kv} {one : J → AdminShown N} {many : List J → AdminShown N}
    {num : J → Nat} {get : Nat → AdminCall N} {lst : AdminCall N} (hx : ListExact c kv) {out : R → J} {keep : Nat → Bool}
    (hone : ∀ a b, one a = one b → a = b) (hnum : ∀ r, num (out r) = c.id r) (hid : ∀ id r, c.getById id kv = .ok r → c.id r = id)
    (hg : ∀ id, ((get id).run A ctx now kv).1 = if keep id then told (fun r => some (one (out r))) (c.getById id kv) else some (.error .forbidden))
    (hl : ∀ l, c.list kv = .ok l → (lst.run A ctx now kv).1 = some (.ok (many ((l.filter fun r => keep (c.id r)).map out)))) :
    ToldExactly A ctx now kv one many num get lst := by
  obtain ⟨l, e, hm, hn⟩ := hx
  refine ⟨_, hl l e, ?_, fun j => ?_⟩
  · rw [List.map_map, show num ∘ out = c.id from funext hnum]
    exact List.Nodup.sublist (List.filter_sublist.map _) hn
  · rw [hg]
    constructor
    · intro hj
      obtain ⟨r, hr, rfl⟩ := List.mem_map.mp hj
      obtain ⟨hr, hk⟩ := List.mem_filter.mp hr
      obtain ⟨id, hi⟩ := (hm r).mp hr
      have := hid id r hi
      subst this
      rw [hnum, if_pos hk, hi]
      rfl
    · intro hj
      split at hj
      · next hk =>
        obtain ⟨r, hr, e⟩ := told_ok hj
        injection e with e
        have := hone _ _ e
        subst this
        rw [hnum] at hk
        exact List.mem_map.mpr ⟨r, List.mem_filter.mpr ⟨(hm r).mpr ⟨_, hr⟩, hk⟩, rfl⟩
      · cases hj

/-- Accounts, organizations and backups are listed exactly. -/
theorem C147_lists (A : AdminEnv N) {E : Env Q} {n : Nat} {kv : Kv} (h : Hist E n kv) (hn : n < 2 ^ 62) {ctx : Ctx} (now : Time)
    (h1 : RootOp.accountGet.allowed ctx = true ∧ RootOp.accountList.allowed ctx = true) (h2 : RootOp.orgList.allowed ctx = true)
    (h3 : RootOp.backupGet.allowed ctx = true ∧ RootOp.backupList.allowed ctx = true) :
    ToldExactly A ctx now kv .account .accounts JAccount.id .accountGet .accountList ∧
    ToldExactly A ctx now kv .org .orgs JOrg.id .orgGet .orgList ∧
    ToldExactly A ctx now kv .backup .backups JBackup.id .backupGet .backupList := by
  obtain ⟨-, la, lo, -, -, -, lb, -⟩ := C69_list_exact h hn
  have ia := (hist_accounts h hn).inv accounts_ok
  have io := (hist_orgs h hn).inv orgs_ok
  have ib := (hist_backups h hn).inv backups_ok
  have hid : ∀ {R : Type} {c : Coll R} {V : R → Prop}, c.Inv V kv → ∀ id r, c.getById id kv = .ok r → c.id r = id :=
    fun i id r hg => (Inv.live_id i (live_get i hg)).1
  refine ⟨told_exactly (out := accountOut) (keep := fun _ => true) la (fun a b e => by injection e) (fun _ => rfl) (hid ia) (fun id => ?_) (fun l e => ?_),
    told_exactly (out := orgOut) (keep := fun i => OrgOp.orgGet.allowed ctx i) lo (fun a b e => by injection e) (fun _ => rfl) (hid io) (fun id => ?_) (fun l e => ?_),
    told_exactly (out := backupOut) (keep := fun _ => true) lb (fun a b e => by injection e) (fun _ => rfl) (hid ib) (fun id => ?_) (fun l e => ?_)⟩
  · rw [act_of (c := .accountGet id) h1.1]; rfl
  · rw [act_of (c := .accountList) h1.2]
    show told _ (accountsC.list kv) = _
    rw [e, List.filter_true]; rfl
  · by_cases hk : OrgOp.orgGet.allowed ctx id = true
    · rw [act_of (c := .orgGet id) hk, if_pos hk]; rfl
    · rw [C147_refused _ _ _ (.orgGet id) _ (Bool.eq_false_iff.mpr hk), if_neg hk]
  · rw [act_of (c := .orgList) h2]
    show told _ (orgsC.list kv) = _
    rw [e]; rfl
  · rw [act_of (c := .backupGet id) h3.1]; rfl
  · rw [act_of (c := .backupList) h3.2]
    show backupsTold (backupsC.list kv) = _
    rw [e, List.filter_true]; rfl

/-- The projects are listed exactly: those of the organization of the token that the caller may see. -/
theorem C147_projects_partial (A : AdminEnv N) {E : Env Q} {T : Str → Bool} {n : Nat} {kv : Kv} (h : SepHist E T n kv) (hn : n < 2 ^ 62) {ctx : Ctx} (now : Time)
    (hal : OrgOp.projectList.allowed ctx ctx.organizationId = true) :
    ∃ l, (AdminCall.projectList.run A ctx now kv).1 = some (.ok (.projects l)) ∧ (l.map JProject.id).Nodup ∧
      ∀ j, j ∈ l ↔ ((AdminCall.projectGet j.id).run A ctx now kv).1 = some (.ok (.project j)) ∧
        ∃ r, projectsC.getById j.id kv = .ok r ∧ r.orgId = ctx.organizationId := by
  obtain ⟨l, e, hm, hnd⟩ := C69_projects_partial h hn
  refine ⟨_, by rw [act_of (c := .projectList) hal]; show told _ (projectsC.list kv) = _; rw [e]; rfl, ?_, fun j => ?_⟩
  · rw [List.map_map]
    exact List.Nodup.sublist ((List.filter_sublist.trans List.filter_sublist).map _) hnd
  · constructor
    · intro hj
      obtain ⟨r, hr, rfl⟩ := List.mem_map.mp hj
      obtain ⟨hr, hk⟩ := List.mem_filter.mp hr
      obtain ⟨hr, ho⟩ := List.mem_filter.mp hr
      obtain ⟨id, hi⟩ := (hm r).mp hr
      have := ((hist_projectsOk h.hist).get hi).2.2
      subst this
      refine ⟨?_, r, hi, by simpa using ho⟩
      rw [project_get A (id := (projectOut r).id) hk hi]
    · rintro ⟨hj, r, hr, ho⟩
      by_cases hk : ProjOp.projectGet.allowed ctx j.id = true
      · rw [project_get A hk hr] at hj
        cases hj
        exact List.mem_map.mpr ⟨r, List.mem_filter.mpr ⟨List.mem_filter.mpr ⟨(hm r).mpr ⟨_, hr⟩, by simpa using ho⟩, hk⟩, rfl⟩
      · rw [C147_refused _ _ _ (.projectGet j.id) _ (Bool.eq_false_iff.mpr hk)] at hj
        cases hj

/-- What is deleted is shown once more and then no longer; the others stay. -/
def Removes (A : AdminEnv N) (ctx : Ctx) (now : Time) (kv : Kv) (get : Nat → AdminCall N) (del : AdminCall N) (id : Nat) : Prop :=
  (del.run A ctx now kv).1 = ((get id).run A ctx now kv).1 ∧
    ∀ i, ((get i).run A ctx now (del.run A ctx now kv).2).1 = if i = id then some (.error (.failed .notFound)) else ((get i).run A ctx now kv).1

theorem removes {R : Type} {c : Coll R} {norm : R → R} {V : R → Prop} (hc : c.Ok norm V) {A : AdminEnv N} {ctx : Ctx} {now : Time} {kv : Kv} (inv : c.Inv V kv) {f : R → Option (AdminShown N)}
    {get : Nat → AdminCall N} {del : AdminCall N} (id : Nat) (hg : ∀ i kv', ((get i).run A ctx now kv').1 = told f (c.getById i kv'))
    (hd : del.run A ctx now kv = telling f (runCall (c.delete id) kv)) : Removes A ctx now kv get del id := by
  unfold Removes
  rw [hd]
  simp only [hg]
  show told f (runCall (c.delete id) kv).1 = _ ∧ ∀ i, told f (c.getById i (runCall (c.delete id) kv).2) = _
  rcases delete_spec hc inv id with ⟨h0, e⟩ | ⟨r, kv', h0, e, inv', -, h3⟩
  · rw [runCall, e, getById_eq inv, h0]
    refine ⟨rfl, fun i => ?_⟩
    dsimp only
    split
    · next hi => rw [hi, getById_eq inv, h0]; rfl
    · rfl
  · rw [runCall, e, getById_eq inv, h0]
    refine ⟨rfl, fun i => ?_⟩
    dsimp only
    rw [getById_eq inv', h3]
    by_cases hi : i = id
    · rw [if_pos hi, if_pos hi]; rfl
    · rw [if_neg hi, if_neg hi, getById_eq inv]

/-- Deleting an account or an organization, by an administrator. -/
theorem C147_deleted (A : AdminEnv N) {E : Env Q} {n : Nat} {kv : Kv} (h : Hist E n kv) (hn : n < 2 ^ 62) {ctx : Ctx} (now : Time)
    (had : ctx.role = some .admin) (id : Nat) :
    Removes A ctx now kv .accountGet (.accountDelete id) id ∧ Removes A ctx now kv .orgGet (.orgDelete id) id := by
  have root : ∀ o : RootOp, o.allowed ctx = true := fun o => (C71_root ctx o).mpr had
  have org : ∀ (o : OrgOp) i, o.allowed ctx i = true := fun o i => (C71_organization ctx o i).mpr (.inl had)
  exact ⟨removes (f := fun r => some (.account (accountOut r))) accounts_ok ((hist_accounts h hn).inv accounts_ok) id
      (fun i kv' => by rw [act_of (c := .accountGet i) (root _)]; rfl) (by rw [act_of (c := .accountDelete id) (root _)]; rfl),
    removes (f := fun r => some (.org (orgOut r))) orgs_ok ((hist_orgs h hn).inv orgs_ok) id
      (fun i kv' => by rw [act_of (c := .orgGet i) (org _ _)]; rfl) (by rw [act_of (c := .orgDelete id) (root _)]; rfl)⟩

/-! ## Bookmarks -/

theorem bookmarkOut_some {R : ReqEnv N} {r : Bookmark CReportQuery} {j : JBookmark N} (h : bookmarkOut R r = some j) :
    j.id = r.id ∧ j.createdAt = r.createdAt ∧ j.createdBy = r.createdBy ∧ j.projectId = r.projectId ∧ optConv (reportQueryOut R) r.query = some j.query := by
  unfold bookmarkOut at h
  cases e : optConv (reportQueryOut R) r.query with
  | none => rw [e] at h; cases h
  | some q => rw [e] at h; cases h; exact ⟨rfl, rfl, rfl, rfl, rfl⟩

/-- A bookmark that was made is shown to its maker as long as it is left alone; its query is shown as it was asked for exactly if it is tidy. -/
theorem C147_bookmark_partial (A : AdminEnv N) {E : Env CReportQuery} (hE : E.bc = A.bc) {m : Nat} {kv kv1 kv2 : Kv} {ctx : Ctx} (ha : ctx.accountId < 2 ^ 64)
    {now now' : Time} {p : Nat} (hp : p < 2 ^ 64) {name : Str} {q : Option (JReportQuery N)} {j : JBookmark N}
    (hc : (AdminCall.bookmarkCreate p name q).run A ctx now kv = (some (.ok (.bookmark j)), kv1))
    (hr : Runs E (fun r => r.Spares ⟨p, ctx.accountId, j.id⟩) kv1 m kv2) (hg : ProjOp.bookmarkGet.allowed ctx p = true) :
    j.id = name ∧ ∃ a, (AdminCall.bookmarkGet p name).run A ctx now' kv2 = (some (.ok (.bookmark a)), kv2) ∧ a.id = name ∧
      a.createdBy = ctx.accountId ∧ a.projectId = p ∧ a.createdAt = now.trunc ∧ (q = none → a.query = none) ∧
      ∀ x, q = some x → (a.query = some x ↔ Tidy A.R x) := by
  have hc := (ran_act hc).2
  change (match optConv (reportQueryIn A.R) q with | none => _ | some c => _) = _ at hc
  split at hc
  · cases hc
  · next c hq =>
    obtain ⟨r, e, er⟩ := telling_ok hc
    cases e
    dsimp only at er
    cases hb : bookmarkOut A.R (⟨name, now, ctx.accountId, p, c⟩ : Bookmark CReportQuery) with
    | none => rw [hb] at er; cases er
    | some j' =>
      rw [hb] at er
      cases er
      obtain ⟨o1, -, -, -, o5⟩ := bookmarkOut_some hb
      refine ⟨o1, ?_⟩
      rw [o1] at hr
      let b : Bookmark CReportQuery := ⟨name, ⟨now.sec, 0⟩, ctx.accountId, p, c⟩
      have h1 : Meta.bookmarkGet E.bc p ctx.accountId name (putK kv (.bookmark p ctx.accountId name) (Bookmark.enc A.bc ⟨name, now, ctx.accountId, p, c⟩)) =
          found (some b) := by
        unfold Meta.bookmarkGet
        rw [getK_putK _ (k := .bookmark p ctx.accountId name) trivial (k' := .bookmark p ctx.accountId name) trivial, if_pos rfl, ← hE]
        dsimp only
        rw [Bookmark.dec_enc E.bc ⟨name, now, ctx.accountId, p, c⟩ ⟨ha, hp⟩]
        rfl
      have h2 : Meta.bookmarkGet E.bc p ctx.accountId name kv2 = found (some b) := by
        induction hr with
        | refl => exact h1
        | step r _ hr hs ih =>
          have := exec_shelve E hr _ ⟨p, ctx.accountId, name⟩ ih
          rw [show shelve ⟨p, ctx.accountId, name⟩ (some b) r = some b from
            shelve_spares (rs := [r]) (fun r' h' => by rw [List.mem_singleton.mp h']; exact hs) (some b)] at this
          exact this
      have hb2 : bookmarkOut A.R b = some ⟨name, ⟨now.sec, 0⟩, ctx.accountId, p, j.query⟩ := by
        unfold bookmarkOut
        rw [show b.query = c from rfl, show optConv (reportQueryOut A.R) c = some j.query from o5]
        rfl
      refine ⟨⟨name, ⟨now.sec, 0⟩, ctx.accountId, p, j.query⟩, ?_, rfl, rfl, rfl, rfl, ?_, ?_⟩
      · rw [act_of (c := .bookmarkGet p name) hg]
        show (told _ (Meta.bookmarkGet A.bc p ctx.accountId name kv2), kv2) = _
        rw [← hE, h2]
        show (((bookmarkOut A.R b).map AdminShown.bookmark).map Except.ok, kv2) = _
        rw [hb2]
        rfl
      · rintro rfl
        cases hq
        exact (Option.some.inj o5).symm
      · rintro x rfl
        rw [← C123_query_partial]
        cases hx : reportQueryIn A.R x with
        | none => rw [optConv, hx] at hq; cases hq
        | some c' =>
          rw [optConv, hx] at hq
          cases hq
          cases ho : reportQueryOut A.R c' with
          | none => rw [optConv, ho] at o5; cases o5
          | some y =>
            rw [optConv, ho] at o5
            have o5 : some y = j.query := Option.some.inj o5
            rw [← o5]
            constructor
            · intro e; exact ⟨c', rfl, ho.trans e⟩
            · rintro ⟨c'', e1, e⟩
              cases e1
              exact ho.symm.trans e

/-! ## What goes wrong -/

/-- The claim about changed accounts without the two conditions. -/
def C147_account_full (A : AdminEnv N) (E : Env Q) : Prop :=
  ∀ (n : Nat) (kv kv1 : Kv) (ctx ctx' : Ctx) (id salt : Nat) (now : Time) (q : JAccountUpd) (j old a : JAccount), Hist E n kv → n + 1 < 2 ^ 62 →
    ctx.accountId < 2 ^ 64 → (AdminCall.accountUpdate (N := N) salt id q).Ok →
    (AdminCall.accountUpdate salt id q).run A ctx now kv = (some (.ok (.account j)), kv1) →
    (AdminCall.accountGet id).run A ctx' now kv = (some (.ok (.account old)), kv) →
    (AdminCall.accountGet id).run A ctx' now kv1 = (some (.ok (.account a)), kv1) → AccountChanged ctx.accountId now q old a

/-- Neither a role nor the duty to change the password is taken over, whatever they are: the call is answered and the account is shown as before. -/
theorem C147_dropped (A : AdminEnv N) {E : Env Q} {n : Nat} {kv kv1 : Kv} (h : Hist E n kv) (hn : n + 1 < 2 ^ 62) {ctx ctx' : Ctx} {id salt : Nat}
    (ha : ctx.accountId < 2 ^ 64) {now : Time} {q : JAccountUpd} (hq : (AdminCall.accountUpdate (N := N) salt id q).Ok) {j : JAccount}
    (hc : (AdminCall.accountUpdate salt id q).run A ctx now kv = (some (.ok (.account j)), kv1)) (hg : RootOp.accountGet.allowed ctx' = true) :
    ∃ old a, (AdminCall.accountGet id).run A ctx' now kv = (some (.ok (.account old)), kv) ∧
      (AdminCall.accountGet id).run A ctx' now kv1 = (some (.ok (.account a)), kv1) ∧ a.role = old.role ∧ a.forceUpdatePassword = old.forceUpdatePassword := by
  obtain ⟨r, e, er⟩ := telling_ok (ran_act hc).2
  obtain ⟨old, new, g1, g2, -, -, -, c3, -, -, -, -, c8, -⟩ := C108_account_partial h (by omega) (q := accountUpdIn A.hash ctx.accountId salt q) ⟨ha, hq⟩ e
  exact ⟨_, _, account_get A hg g1, account_get A hg g2, c8, c3.2 rfl⟩

/-- The claim fails for both. -/
theorem C147_account_violated (A : AdminEnv N) : ¬ C147_account_full A exEnv := by
  intro hf
  have hok : (AdminCall.accountUpdate (N := N) 0 1 { role := some (some .admin) }).Ok := ⟨by simp, by simp, by simp⟩
  have he : ∃ j kv1, (AdminCall.accountUpdate (N := N) 0 1 { role := some (some .admin) }).run A exAdmin ⟨1, 0⟩ exAllKv = (some (.ok (.account j)), kv1) := by
    rw [act_of (c := .accountUpdate 0 1 { role := some (some .admin) }) rfl]
    show ∃ j kv1, telling _ (runCall (Meta.accountUpdate 1 ⟨1, 0⟩ { updatedBy := 1, role := some (some .admin) }) exAllKv) = _
    cases hu : runCall (Meta.accountUpdate 1 ⟨1, 0⟩ { updatedBy := 1, role := some (some .admin) }) exAllKv with
    | mk ans kv' =>
      have h0 : (runCall (accountUpdate 1 ⟨1, 0⟩ { updatedBy := 1, role := some (some .admin) }) exAllKv).1.toOption.isSome := by decide +kernel
      cases ans with
      | error e => rw [hu] at h0; cases h0
      | ok a => exact ⟨_, _, rfl⟩
  obtain ⟨j, kv1, hc⟩ := he
  obtain ⟨old, a, g1, g2, hr, -⟩ := C147_dropped A exAll_hist (by decide) (ctx' := exAdmin) (by decide) hok hc rfl
  have := (hf 9 exAllKv kv1 exAdmin exAdmin 1 0 ⟨1, 0⟩ _ j old a exAll_hist (by decide) (by decide) hok hc g1 g2).role.1 _ rfl
  rw [hr] at this
  obtain ⟨-, g1⟩ := ran_act g1
  have h3 : (accountsC.getById 1 exAllKv).toOption.map (·.role) = some none := by decide +kernel
  change (told _ (accountsC.getById 1 exAllKv), exAllKv) = _ at g1
  obtain ⟨r, e, er⟩ := told_ok (congrArg Prod.fst g1)
  cases er
  rw [e] at h3
  simp only [Except.toOption, Option.map_some, Option.some.injEq] at h3
  rw [show (accountOut r).role = r.role from rfl, h3] at this
  cases this

/-- The settings of the examples with backups to a directory. -/
def exBackupKv : Kv := (runCall (saveSettings { sampleSettings with backupEnabled := true, provider := .localDir }) []).2

/-- The backup in an answer. -/
def madeBackup : AdminReply Int × Kv → Option JBackup
  | (some (.ok (.backup j)), _) => some j
  | _ => none

theorem madeBackup_some {x : AdminReply Int × Kv} (h : (madeBackup x).isSome = true) : ∃ j, madeBackup x = some j ∧ x = (some (.ok (.backup j)), x.2) := by
  unfold madeBackup at h ⊢
  split at h
  · exact ⟨_, rfl, rfl⟩
  · cases h

def exBackup1 : AdminReply Int × Kv := makeBackup ⟨7200, 0⟩ exBackupKv
def exBackup2 : Kv := (runCall (backupUpdateStatus 1 ⟨7300, 0⟩ .completed) exBackup1.2).2
def exBackup3 : AdminReply Int × Kv := makeBackup ⟨9000, 0⟩ exBackup2

/-- Two backups are made within an hour, the second after the first was completed; they have different numbers and the same file. -/
theorem C147_backup_file_violated (A : AdminEnv Int) : ∃ (j1 j2 : JBackup) (kv1 kv2 kv3 : Kv) (b1 b2 : Backup),
    AdminCall.backup.run A exAdmin ⟨7200, 0⟩ exBackupKv = (some (.ok (.backup j1)), kv1) ∧
    (runCall (backupUpdateStatus j1.id ⟨7300, 0⟩ .completed) kv1).2 = kv2 ∧
    AdminCall.backup.run A exAdmin ⟨9000, 0⟩ kv2 = (some (.ok (.backup j2)), kv3) ∧
    backupsC.getById j1.id kv3 = .ok b1 ∧ backupsC.getById j2.id kv3 = .ok b2 ∧ b1.id ≠ b2.id ∧ b1.status = .completed ∧ backupFile b1 = backupFile b2 := by
  have n1 : (madeBackup exBackup1).map (·.id) = some 1 := by decide +kernel
  have n2 : (madeBackup exBackup3).map (·.id) = some 2 := by decide +kernel
  have hb : (match backupsC.getById 1 exBackup3.2, backupsC.getById 2 exBackup3.2 with
    | .ok b1, .ok b2 => decide (b1.id ≠ b2.id) && decide (b1.status = .completed) && decide (backupFile b1 = backupFile b2)
    | _, _ => false) = true := by decide +kernel
  obtain ⟨j1, m1, e1⟩ := madeBackup_some (x := exBackup1) (by cases h : madeBackup exBackup1 with | none => rw [h] at n1; cases n1 | some => rfl)
  obtain ⟨j2, m2, e2⟩ := madeBackup_some (x := exBackup3) (by cases h : madeBackup exBackup3 with | none => rw [h] at n2; cases n2 | some => rfl)
  rw [m1] at n1
  rw [m2] at n2
  have n1 : j1.id = 1 := Option.some.inj n1
  have n2 : j2.id = 2 := Option.some.inj n2
  split at hb
  · next b1 b2 g1 g2 =>
    simp only [Bool.and_eq_true, decide_eq_true_eq] at hb
    refine ⟨j1, j2, exBackup1.2, exBackup2, exBackup3.2, b1, b2, ?_, ?_, ?_, by rw [n1]; exact g1, by rw [n2]; exact g2, hb.1.1, hb.1.2, hb.2⟩
    · rw [act_of (c := .backup) rfl]; exact e1
    · rw [n1]; rfl
    · rw [act_of (c := .backup) rfl]; exact e2
  · cases hb

/-! ## Examples -/

theorem told_some {x : AdminReply N × Kv} {P : AdminShown N → Prop} (h : ∃ s, x.1 = some (.ok s) ∧ P s) : ∃ s kv, x = (some (.ok s), kv) ∧ P s := by
  obtain ⟨s, e, hp⟩ := h
  exact ⟨s, x.2, by rw [← e], hp⟩

/-- A call of metadata that answers makes a call that answers. -/
theorem telling_some {α : Type} {f : α → AdminShown N} {c : Call α} {kv : Kv} (h : (runCall c kv).1.toOption.isSome = true) :
    ∃ a kv', telling (fun r => some (f r)) (runCall c kv) = (some (.ok (f a)), kv') := by
  cases e : runCall c kv with
  | mk r kv' =>
    rw [e] at h
    cases r with
    | error => cases h
    | ok a => exact ⟨a, kv', rfl⟩

/-- Hypotheses of the theorems above: the store of the examples has a history, an administrator may do all this, and the calls are answered. -/
example (A : AdminEnv N) : Hist exEnv 9 exAllKv ∧
    (∃ j kv1, (AdminCall.accountUpdate 0 1 { email := some "n".toList }).run A exAdmin ⟨1, 0⟩ exAllKv = (some (.ok (.account j)), kv1)) ∧
    (∃ j kv1, (AdminCall.orgCreate "new".toList).run A exAdmin ⟨1, 0⟩ exAllKv = (some (.ok (.org j)), kv1)) ∧
    (∃ j kv1, (AdminCall.orgUpdate 1 (some "new".toList)).run A exAdmin ⟨1, 0⟩ exAllKv = (some (.ok (.org j)), kv1)) := by
  refine ⟨exAll_hist, ?_, ?_, ?_⟩
  · rw [act_of (c := .accountUpdate 0 1 { email := some "n".toList }) rfl]
    obtain ⟨a, kv', e⟩ := telling_some (N := N) (f := fun r => .account (accountOut r)) (c := Meta.accountUpdate 1 ⟨1, 0⟩ { updatedBy := 1, email := some "n".toList }) (kv := exAllKv)
      (by decide +kernel)
    exact ⟨_, kv', e⟩
  · rw [act_of (c := .orgCreate "new".toList) rfl]
    obtain ⟨a, kv', e⟩ := telling_some (N := N) (f := fun r => .org (orgOut r)) (c := Meta.orgCreate ⟨1, 0⟩ 1 "new".toList) (kv := exAllKv) (by decide +kernel)
    exact ⟨_, kv', e⟩
  · rw [act_of (c := .orgUpdate 1 (some "new".toList)) rfl]
    obtain ⟨a, kv', e⟩ := telling_some (N := N) (f := fun r => .org (orgOut r)) (c := Meta.orgUpdate 1 ⟨1, 0⟩ 1 (some "new".toList)) (kv := exAllKv) (by decide +kernel)
    exact ⟨_, kv', e⟩

def exNewAccount : JAccountNew := ⟨"pw".toList, "new@x".toList, some "New".toList, true, false, none, some [(1, .owner)], none, none⟩

/-- And so are those of the theorem about new accounts: the account is made, an organization gets another name, and the account is shown as asked. -/
example (R : ReqEnv N) (bc : Bincode CReportQuery) : ∃ (j : JAccount) (kv1 kv2 : Kv),
    (AdminCall.accountCreate 0 exNewAccount).run ⟨R, bc, fun p _ => p⟩ exAdmin ⟨1, 0⟩ exAllKv = (some (.ok (.account j)), kv1) ∧
    Runs exEnv (fun r => ¬ r.RewritesAccount j.id) kv1 1 kv2 ∧
    ∃ a, (AdminCall.accountGet j.id).run ⟨R, bc, fun p _ => p⟩ exAdmin ⟨2, 0⟩ kv2 = (some (.ok (.account a)), kv2) ∧ AccountAsked 1 ⟨1, 0⟩ exNewAccount a := by
  have hok : (AdminCall.accountCreate (N := N) 0 exNewAccount).Ok := ⟨by simp [exNewAccount], by simp [exNewAccount], by simp [exNewAccount]⟩
  have he : ∃ j kv1, (AdminCall.accountCreate (N := N) 0 exNewAccount).run ⟨R, bc, fun p _ => p⟩ exAdmin ⟨1, 0⟩ exAllKv = (some (.ok (.account j)), kv1) := by
    rw [act_of (c := .accountCreate 0 exNewAccount) rfl]
    obtain ⟨a, kv', e⟩ := telling_some (N := N) (f := fun r => .account (accountOut r))
      (c := Meta.accountCreate ⟨1, 0⟩ (accountNewIn (fun p _ => p) 1 ⟨1, 0⟩ 0 exNewAccount)) (kv := exAllKv) (by decide +kernel)
    exact ⟨_, kv', e⟩
  obtain ⟨j, kv1, hc⟩ := he
  have hr : Runs exEnv (fun r => ¬ r.RewritesAccount j.id) kv1 1 ((Req.orgUpdate 1 ⟨1, 0⟩ 1 (some "new".toList)).exec exEnv kv1) :=
    Runs.step _ .refl (show (1 : Nat) < 2 ^ 64 by decide) (by intro h; exact h)
  obtain ⟨a, g, -, h⟩ := C147_account _ exAll_hist (show exAdmin.accountId < 2 ^ 64 by decide) hok hc hr (by decide) (ctx' := exAdmin) (now' := ⟨2, 0⟩) rfl
  exact ⟨j, kv1, _, hc, hr, a, g, h⟩

/-- A backup is made and shown. -/
example (A : AdminEnv Int) : ∃ (j : JBackup) (kv1 : Kv), AdminCall.backup.run A exAdmin ⟨7200, 0⟩ exBackupKv = (some (.ok (.backup j)), kv1) ∧
    Hist exEnv 1 exBackupKv := by
  obtain ⟨j1, -, kv1, -, -, -, -, h, -⟩ := C147_backup_file_violated A
  exact ⟨j1, kv1, h, Hist.start.step (.settings { sampleSettings with backupEnabled := true, provider := .localDir }) trivial⟩

/-- A bookmark without a query is made and shown. -/
example (A : AdminEnv N) : ∃ j kv1, (AdminCall.bookmarkCreate 1 "b".toList none).run A exAdmin ⟨7200, 0⟩ [] = (some (.ok (.bookmark j)), kv1) := by
  exact ⟨_, _, rfl⟩

end OptiPrism.Platform
