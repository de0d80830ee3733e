import Verif.Meta.Stays
import Verif.Meta.Backups

/-!
# Accounts, organizations and backups stay as they are until they are changed
-/

namespace OptiPrism.Meta

open OptiPrism.Storage (Bytes)

variable {Q R : Type}

/-- The requests that change or delete an account. An organization is written into the account that makes it. -/
def Req.RewritesAccount (id : Nat) : Req Q → Prop
  | .accountUpdate id' .. => id' = id
  | .accountDelete id' => id' = id
  | .orgCreate _ b _ => b = id
  | .addMember _ m _ => m = id
  | .removeMember _ m => m = id
  | .changeMemberRole _ m _ => m = id
  | _ => False

/-- The requests that update or delete an organization (its members may come and go). -/
def Req.RewritesOrg (id : Nat) : Req Q → Prop
  | .orgUpdate id' .. => id' = id
  | .orgDelete id' => id' = id
  | _ => False

/-- The requests that update or delete a backup. -/
def Req.RewritesBackup (id : Nat) : Req Q → Prop
  | .backupStatus id' .. => id' = id
  | .backupDelete id' => id' = id
  | _ => False

theorem update_ok_stays {c : Coll R} {norm : R → R} {Valid : R → Prop} (ok : c.Ok norm Valid) {kv kv' : Kv} (inv : c.Inv Valid kv)
    {id' : Nat} {pairs : R → List (Option Key × Option Key)} {f : R → Except Err R} {t : R → R} (ho : (Op.update id' pairs f t).Ok c Valid)
    {id : Nat} {x a : R} (hne : id ≠ id') (hx : c.live kv id = some x) (e : c.update id' pairs f kv = .ok (a, kv')) : c.live kv' id = some x := by
  have := update_stays ok inv ho hne hx
  rw [runCall, e] at this
  exact this

theorem account_step {E : Env Q} {n : Nat} {kv : Kv} (h : Hist E n kv) (hn : n < 2 ^ 62) {id : Nat} {x : Account}
    (hx : accountsC.live kv id = some x) {r : Req Q} (hr : r.Ok) (hl : ¬ r.RewritesAccount id) : accountsC.live (r.exec E kv) id = some x := by
  by_cases hm : Mod.coll (Ns.top .accounts) ∈ r.mods
  case neg =>
    rw [AgreeOn.live (c := accountsC) (exec_agree E hr hm kv)]
    exact hx
  have re := hist_accounts h hn
  have inv := re.inv accounts_ok
  -- after a change of an organization, another account is written
  have both : ∀ {α β : Type} (a : Call α) (b : α → Call β), (∀ y kv1, a kv = .ok (y, kv1) → AgreeOn (.top .accounts) kv kv1) →
      (∀ y kv1 z kv2, a kv = .ok (y, kv1) → accountsC.Inv Account.Valid kv1 → accountsC.live kv1 id = some x → b y kv1 = .ok (z, kv2) →
        accountsC.live kv2 id = some x) →
      accountsC.live (runCall (Call.then a fun y => Call.then (b y) fun _ => Call.ret y) kv).2 id = some x := by
    intro α β a b h1 h2
    rcases then_run a b kv with e | ⟨y, kv1, z, kv2, e1, e2, e⟩
    · rw [e]; exact hx
    · rw [e]
      have ag := h1 y kv1 e1
      exact h2 y kv1 z kv2 e1 (AgreeOn.inv (c := accountsC) ag inv) (by rw [AgreeOn.live (c := accountsC) ag]; exact hx) e2
  cases r <;> simp only [Req.mods, List.mem_cons, List.not_mem_nil, or_false, Mod.coll.injEq, reduceCtorEq, Ns.top.injEq, or_self] at hm
  case accountCreate now req =>
    show accountsC.live (runCall (accountCreate now req) kv).2 id = _
    unfold runCall
    cases e : accountCreate now req kv with
    | error e => exact hx
    | ok a => exact create_stays accounts_ok inv (re.room accounts_ok) (accountCreate_ok hr) hx e
  case accountUpdate id' now q => exact update_stays accounts_ok inv (t := q.apply now) (accountUpdate_ok hr) (fun e => hl e.symm) hx
  case accountDelete id' => exact delete_stays accounts_ok inv (fun e => hl e.symm) hx
  case orgCreate now b name =>
    show accountsC.live (runCall (orgCreate now b name) kv).2 id = _
    refine both (orgsC.create [some (.idx (.top .organizations) .name name)] fun id =>
      ({ id := id, createdAt := now, createdBy := b, updatedAt := none, updatedBy := none, name := name,
         members := [(b, .owner)] } : Org)) (fun org => addOrganization b org.id .owner) (fun y kv1 e => orgs_only (create_touches (c := orgsC) fun k hk => keys_one hk) e)
      fun y kv1 z kv2 e1 inv1 hx1 e2 => ?_
    have hid : orgsC.id y < 2 ^ 64 := create_id_lt (fun _ => rfl) e1
    exact update_ok_stays accounts_ok inv1 (addOrg_ok (m := b) (o := orgsC.id y) (role := .owner) hid) (fun e => hl e.symm) hx1 e2
  case addMember o m role =>
    show accountsC.live (runCall (addMember o m role) kv).2 id = _
    refine both _ (fun _ => addOrganization m o role) (fun y kv1 e => orgs_only (update_touches (c := orgsC) fun _ => pairs_nil _) e)
      fun y kv1 z kv2 e1 inv1 hx1 e2 => ?_
    exact update_ok_stays accounts_ok inv1 (addOrg_ok (m := m) (o := o) (role := role) hr.1) (fun e => hl e.symm) hx1 e2
  case removeMember o m =>
    show accountsC.live (runCall (removeMember o m) kv).2 id = _
    refine both _ (fun _ => removeOrganization m o) (fun y kv1 e => orgs_only (update_touches (c := orgsC) fun _ => pairs_nil _) e)
      fun y kv1 z kv2 e1 inv1 hx1 e2 => ?_
    exact update_ok_stays accounts_ok inv1 (removeOrg_ok (m := m) (o := o)) (fun e => hl e.symm) hx1 e2
  case changeMemberRole o m role =>
    show accountsC.live (runCall (changeMemberRole o m role) kv).2 id = _
    refine both _ (fun _ => changeOrganizationRole m o role) (fun y kv1 e => orgs_only (update_touches (c := orgsC) fun _ => pairs_nil _) e)
      fun y kv1 z kv2 e1 inv1 hx1 e2 => ?_
    exact update_ok_stays accounts_ok inv1 (changeOrg_ok (m := m) (o := o) (role := role)) (fun e => hl e.symm) hx1 e2

theorem account_stays {E : Env Q} {n m : Nat} {kv kv' : Kv} (h : Hist E n kv) {id : Nat} {x : Account}
    (hx : accountsC.live kv id = some x) (hr : Runs E (fun r => ¬ r.RewritesAccount id) kv m kv') (hn : n + m < 2 ^ 62) :
    accountsC.live kv' id = some x := by
  induction hr with
  | refl => exact hx
  | step r hs ho hp ih => exact account_step (hs.hist h) (by omega) (ih (by omega)) ho hp

/-! ## Backups -/

theorem backup_step {E : Env Q} {n : Nat} {kv : Kv} (h : Hist E n kv) (hn : n < 2 ^ 62) {id : Nat} {x : Backup}
    (hx : backupsC.live kv id = some x) {r : Req Q} (hr : r.Ok) (hl : ¬ r.RewritesBackup id) : backupsC.live (r.exec E kv) id = some x := by
  by_cases hm : Mod.coll Ns.backups ∈ r.mods
  case neg =>
    rw [AgreeOn.live (c := backupsC) (exec_agree E hr hm kv)]
    exact hx
  have re := hist_backups h hn
  have inv := re.inv backups_ok
  cases r <;> simp only [Req.mods, List.mem_cons, List.not_mem_nil, or_false, Mod.coll.injEq, reduceCtorEq, or_self] at hm
  case backupCreate now req =>
    show backupsC.live (runCall (backupCreate now req) kv).2 id = _
    unfold runCall
    cases e : backupCreate now req kv with
    | error e => exact hx
    | ok a =>
      have e' : backupsC.create [] (fun id => { req with id := id, createdAt := now, updatedAt := none }) kv = .ok a := by
        unfold backupCreate at e
        dsimp only at e
        split at e
        · split at e
          · cases e
          · split at e
            · cases e
            · exact e
        · exact e
      obtain ⟨a, kv'⟩ := a
      exact create_stays backups_ok inv (re.room backups_ok) (mk := fun id => { req with id := id, createdAt := now, updatedAt := none }) ⟨fun _ => rfl, fun _ => rfl, fun id hid => ⟨hid, hr⟩⟩ hx e'
  case backupStatus id' now st => exact update_stays backups_ok inv (backupStatus_ok hr) (fun e => hl e.symm) hx
  case backupDelete id' => exact delete_stays backups_ok inv (fun e => hl e.symm) hx

theorem backup_stays {E : Env Q} {n m : Nat} {kv kv' : Kv} (h : Hist E n kv) {id : Nat} {x : Backup}
    (hx : backupsC.live kv id = some x) (hr : Runs E (fun r => ¬ r.RewritesBackup id) kv m kv') (hn : n + m < 2 ^ 62) :
    backupsC.live kv' id = some x := by
  induction hr with
  | refl => exact hx
  | step r hs ho hp ih => exact backup_step (hs.hist h) (by omega) (ih (by omega)) ho hp

/-! ## Organizations -/

/-- The same organization but for its members. -/
def Org.SameBut (r r' : Org) : Prop := ∃ l, r' = { r with members := l }

theorem org_step {E : Env Q} {n : Nat} {kv : Kv} (h : Hist E n kv) (hn : n < 2 ^ 62) {id : Nat} {x : Org}
    (hx : orgsC.live kv id = some x) {r : Req Q} (hr : r.Ok) (hl : ¬ r.RewritesOrg id) : ∃ y, orgsC.live (r.exec E kv) id = some y ∧ x.SameBut y := by
  have same : x.SameBut x := ⟨_, rfl⟩
  by_cases hm : Mod.coll (Ns.top .organizations) ∈ r.mods
  case neg =>
    rw [AgreeOn.live (c := orgsC) (exec_agree E hr hm kv)]
    exact ⟨x, hx, same⟩
  have re := hist_orgs h hn
  have inv := re.inv orgs_ok
  have upd : ∀ {o : Nat} {f : Org → Except Err Org} {g : List (Nat × OrgRole) → List (Nat × OrgRole)} {b : Org → Call Account},
      (Op.update o (fun _ => []) f fun a => { a with members := g a.members }).Ok orgsC Org.Valid →
      (∀ y kv1 z kv2, b y kv1 = .ok (z, kv2) → AgreeOn (.top .organizations) kv1 kv2) →
      ∃ y, orgsC.live (runCall (Call.then (orgsC.update o (fun _ => []) f) fun y => Call.then (b y) fun _ => Call.ret y) kv).2 id = some y ∧
        x.SameBut y := by
    intro o f g b ho hb
    rcases then_run (orgsC.update o (fun _ => []) f) b kv with e | ⟨y, kv1, z, kv2, e1, e2, e⟩
    · rw [e]; exact ⟨x, hx, same⟩
    · rw [e, AgreeOn.live (c := orgsC) (hb _ _ _ _ e2)]
      obtain ⟨r, h1, -, -, h3⟩ := update_done orgs_ok inv ho e1
      rw [h3]
      split
      · next ho =>
        subst ho
        rw [hx] at h1
        cases h1
        refine ⟨_, rfl, g x.members, ?_⟩
        have := re.fixed orgs_ok Org.norm_norm hx
        show ({ x with members := g x.members } : Org).norm = _
        have e3 : ∀ l, ({ x with members := l } : Org).norm = { x.norm with members := l } := fun _ => rfl
        rw [e3, this]
      · exact ⟨x, hx, same⟩
  have acc : ∀ {α : Type} {c : Call α} {kv1 : Kv} {z : α} {kv2 : Kv}, Touches c [.coll (.top .accounts)] → c kv1 = .ok (z, kv2) →
      AgreeOn (.top .organizations) kv1 kv2 := fun ht e => accounts_only ht e
  cases r <;> simp only [Req.mods, List.mem_cons, List.not_mem_nil, or_false, Mod.coll.injEq, reduceCtorEq, Ns.top.injEq, or_self] at hm
  case orgCreate now b name =>
    rcases then_run (orgsC.create [some (.idx (.top .organizations) .name name)] fun id =>
      ({ id := id, createdAt := now, createdBy := b, updatedAt := none, updatedBy := none, name := name,
         members := [(b, .owner)] } : Org)) (fun org => addOrganization b org.id .owner) kv with e | ⟨y, kv1, z, kv2, e1, e2, e⟩
    · exact ⟨x, (congrArg (fun k => orgsC.live k id) e).trans hx, same⟩
    · refine ⟨x, (congrArg (fun k => orgsC.live k id) e).trans ?_, same⟩
      rw [AgreeOn.live (c := orgsC) (acc (accountSet_touches _ _) e2)]
      exact create_stays orgs_ok inv (re.room orgs_ok) (mk := fun id =>
          { id := id, createdAt := now, createdBy := b, updatedAt := none, updatedBy := none, name := name, members := [(b, .owner)] })
        ⟨fun _ => rfl, fun _ => rfl, fun id hid => ⟨⟨hid, hr, optOk_none⟩, by intro m hm; rw [List.mem_singleton.mp hm]; exact hr⟩⟩ hx e1
  case orgUpdate id' now b name => exact ⟨x, update_stays orgs_ok inv (orgUpdate_ok hr) (fun e => hl e.symm) hx, same⟩
  case orgDelete id' => exact ⟨x, delete_stays orgs_ok inv (fun e => hl e.symm) hx, same⟩
  case addMember o m role =>
    show ∃ y, orgsC.live (runCall (addMember o m role) kv).2 id = some y ∧ _
    refine upd (g := fun l => l ++ [(m, role)]) (membersSet_ok (g := fun l => l ++ [(m, role)]) (fun a a' e => ?_) fun l hl x hx => ?_) fun _ _ _ _ e => acc (accountSet_touches _ _) e
    · try dsimp only at e
      split at e
      · cases e
      · injection e with e; exact e.symm
    · rcases List.mem_append.mp hx with h | h
      · exact hl x h
      · simp at h; subst h; exact hr.2
  case removeMember o m =>
    show ∃ y, orgsC.live (runCall (removeMember o m) kv).2 id = some y ∧ _
    refine upd (g := fun l => l.filter fun x => x.1 ≠ m) (membersSet_ok (g := fun l => l.filter fun x => x.1 ≠ m) (fun a a' e => ?_) fun l hl x hx => hl x (List.mem_filter.mp hx).1)
      fun _ _ _ _ e => acc (accountSet_touches _ _) e
    try dsimp only at e
    split at e
    · injection e with e; exact e.symm
    · cases e
  case changeMemberRole o m role =>
    show ∃ y, orgsC.live (runCall (changeMemberRole o m role) kv).2 id = some y ∧ _
    refine upd (g := setRole m role) (membersSet_ok (g := setRole m role) (fun a a' e => ?_) fun l hl x hx => ?_) fun _ _ _ _ e => acc (accountSet_touches _ _) e
    · try dsimp only at e
      split at e
      · injection e with e; exact e.symm
      · cases e
    · obtain ⟨r, hr⟩ := setRole_mem hx
      exact hl (x.1, r) hr

theorem org_stays {E : Env Q} {n m : Nat} {kv kv' : Kv} (h : Hist E n kv) {id : Nat} {x : Org}
    (hx : orgsC.live kv id = some x) (hr : Runs E (fun r => ¬ r.RewritesOrg id) kv m kv') (hn : n + m < 2 ^ 62) :
    ∃ y, orgsC.live kv' id = some y ∧ x.SameBut y := by
  induction hr with
  | refl => exact ⟨x, hx, _, rfl⟩
  | step r hs ho hp ih =>
    obtain ⟨y, hy, l, rfl⟩ := ih (by omega)
    obtain ⟨z, hz, l', rfl⟩ := org_step (hs.hist h) (by omega) hy ho hp
    exact ⟨_, hz, l', rfl⟩

end OptiPrism.Meta
