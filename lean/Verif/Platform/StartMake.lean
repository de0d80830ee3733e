import Verif.Platform.StartBase

/-!
# Starting the server: the administrator and the first organization
-/

namespace OptiPrism.Platform

open OptiPrism.Meta

variable {Q : Type}

theorem accountMade (E : Env Q) {kv : Kv} (h : SoundKv kv) (hroom : Meta.lastId kv accountsC.ns + 1 < 2 ^ 64) {now : Time} {req : Account}
    (hr : (Req.accountCreate now req : Req Q).Ok) :
    ((∃ id a, accountsC.live kv id = some a ∧ a.email = req.email) ∧ runCall (accountCreate now req) kv = (.error .alreadyExists, kv)) ∨
    ((∀ id a, accountsC.live kv id = some a → a.email ≠ req.email) ∧ ∃ kv', runCall (accountCreate now req) kv = (.ok (accountMk now req (Meta.lastId kv accountsC.ns + 1)), kv') ∧
      SoundKv kv' ∧ Meta.lastId kv' accountsC.ns = Meta.lastId kv accountsC.ns + 1 ∧ (∀ m, m ≠ .coll accountsC.ns → Same m kv kv') ∧
      ∀ j, accountsC.live kv' j = if j = Meta.lastId kv accountsC.ns + 1 then some (accountMk now req j).norm else accountsC.live kv j) := by
  obtain ⟨hk, hid, hv⟩ := accountCreate_ok (Q := Q) hr
  have sm : ∀ m, m ≠ .coll accountsC.ns → Same m kv ((Req.accountCreate now req : Req Q).exec E kv) := fun m hm =>
    exec_same E hr (fun e => hm (List.mem_singleton.mp e)) kv
  have cl := (exec_steps E _ hr kv).clean h.clean
  have hx : (Req.accountCreate now req : Req Q).exec E kv = (runCall (accountCreate now req) kv).2 := rfl
  rw [hx] at sm cl
  have taken : accountsC.Taken kv (accountMk now req (Meta.lastId kv accountsC.ns + 1)) ↔ ∃ id a, accountsC.live kv id = some a ∧ a.email = req.email := by
    constructor
    · rintro ⟨i, hi, x, id, a, h1, h2, h3⟩
      rw [List.mem_singleton.mp hi] at h1 h3
      cases h1
      exact ⟨id, a, h2, Option.some.inj h3⟩
    · rintro ⟨id, a, h1, h2⟩
      exact ⟨_, List.mem_singleton.mpr rfl, req.email, id, a, rfl, h1, by rw [← h2]⟩
  rcases create_spec accounts_ok h.acc hroom hk hid hv with ⟨ht, e⟩ | ⟨ht, kv1, e, h1, h2, h3⟩
  · refine .inl ⟨taken.mp ht, ?_⟩
    unfold runCall accountCreate
    rw [e]
  · refine .inr ⟨fun id a ha he => ht (taken.mpr ⟨id, a, ha, he⟩), kv1, ?_⟩
    have er : runCall (accountCreate now req) kv = (.ok (accountMk now req (Meta.lastId kv accountsC.ns + 1)), kv1) := by
      unfold runCall accountCreate
      rw [e]
    rw [er] at sm cl
    exact ⟨er, ⟨cl, h1, AgreeOn.inv (c := orgsC) (sm _ (by simp [orgsC, accountsC])).agree h.org, AgreeOn.inv (c := backupsC) (sm _ (by simp [backupsC, accountsC])).agree h.bak,
      by rw [load_same (sm _ (by simp))]; exact h.set⟩, h2, sm, h3⟩

/-- The organization of the model. -/
def newOrg (now : Time) (by_ : Nat) (name : Str) (id : Nat) : Org :=
  { id := id, createdAt := now, createdBy := by_, updatedAt := none, updatedBy := none, name := name, members := [(by_, .owner)] }

theorem orgMade (E : Env Q) {kv : Kv} (h : SoundKv kv) (hroom : Meta.lastId kv orgsC.ns + 1 < 2 ^ 64) {now : Time} {by_ : Nat} {name : Str}
    (hb : by_ < 2 ^ 64) {a : Account} (ha : accountsC.live kv by_ = some a) (hn : a.organizations = none) :
    ((∃ id o, orgsC.live kv id = some o ∧ o.name = name) ∧ runCall (orgCreate now by_ name) kv = (.error .alreadyExists, kv)) ∨
    ((∀ id o, orgsC.live kv id = some o → o.name ≠ name) ∧ ∃ kv', runCall (orgCreate now by_ name) kv = (.ok (newOrg now by_ name (Meta.lastId kv orgsC.ns + 1)), kv') ∧
      SoundKv kv' ∧ (∀ m, m ≠ .coll accountsC.ns → m ≠ .coll orgsC.ns → Same m kv kv') ∧
      (∀ j, orgsC.live kv' j = if j = Meta.lastId kv orgsC.ns + 1 then some (newOrg now by_ name j).norm else orgsC.live kv j) ∧
      (∀ j, accountsC.live kv' j = if j = by_ then some (Account.norm { a with organizations := some [(Meta.lastId kv orgsC.ns + 1, .owner)] }) else accountsC.live kv j) ∧
      Meta.lastId kv' accountsC.ns = Meta.lastId kv accountsC.ns) := by
  have hr : (Req.orgCreate now by_ name : Req Q).Ok := hb
  have sm : ∀ m, m ≠ .coll accountsC.ns → m ≠ .coll orgsC.ns → Same m kv ((Req.orgCreate now by_ name : Req Q).exec E kv) := fun m hm hm' =>
    exec_same E hr (by simp only [Req.mods, List.mem_cons, List.not_mem_nil, or_false]; exact fun e => e.elim hm' hm) kv
  have cl := (exec_steps E _ hr kv).clean h.clean
  have hx : (Req.orgCreate now by_ name : Req Q).exec E kv = (runCall (orgCreate now by_ name) kv).2 := rfl
  rw [hx] at sm cl
  have taken : orgsC.Taken kv (newOrg now by_ name (Meta.lastId kv orgsC.ns + 1)) ↔ ∃ id o, orgsC.live kv id = some o ∧ o.name = name := by
    constructor
    · rintro ⟨i, hi, x, id, a, h1, h2, h3⟩
      rw [List.mem_singleton.mp hi] at h1 h3
      cases h1
      exact ⟨id, a, h2, Option.some.inj h3⟩
    · rintro ⟨id, a, h1, h2⟩
      exact ⟨_, List.mem_singleton.mpr rfl, name, id, a, rfl, h1, by rw [← h2]⟩
  have hco : (Op.create [some (.idx (.top .organizations) .name name)] (newOrg now by_ name)).Ok orgsC Org.Valid :=
    ⟨fun _ => rfl, fun _ => rfl, fun id hid => ⟨⟨hid, hb, optOk_none⟩, by intro m hm; rw [List.mem_singleton.mp hm]; exact hb⟩⟩
  obtain ⟨hk, hid, hv⟩ := hco
  rcases create_spec orgs_ok h.org hroom hk hid hv with ⟨ht, e⟩ | ⟨ht, kv1, e, h1, h2, h3⟩
  · refine .inl ⟨taken.mp ht, ?_⟩
    have : orgCreate now by_ name kv = .error .alreadyExists := by
      unfold orgCreate Call.then
      rw [show orgsC.create [some (.idx (.top .organizations) .name name)] (fun id => ({ id := id, createdAt := now, createdBy := by_, updatedAt := none, updatedBy := none, name := name, members := [(by_, .owner)] } : Org)) kv = _ from e]
    unfold runCall
    rw [this]
  · have hag := orgs_only (create_touches (c := orgsC) fun k hk => keys_one hk) e
    have hi1 := AgreeOn.inv (c := accountsC) hag h.acc
    have ha1 : accountsC.live kv1 by_ = some a := by rw [AgreeOn.live (c := accountsC) hag]; exact ha
    obtain ⟨ho1, ho2, ho3, sel, hs, hsn, hp, hrest⟩ := addOrg_ok (m := by_) (o := Meta.lastId kv orgsC.ns + 1) (role := .owner) hroom
    have hno : ¬ inOrg (Meta.lastId kv orgsC.ns + 1) (a.organizations.getD []) = true := by rw [hn]; simp [inOrg]
    have hlast : ∃ kv2, addOrganization by_ (Meta.lastId kv orgsC.ns + 1) .owner kv1 = .ok ({ a with organizations := some [(Meta.lastId kv orgsC.ns + 1, .owner)] }, kv2) ∧
        accountsC.Inv Account.Valid kv2 ∧
        (∀ j, accountsC.live kv2 j = if j = by_ then some (Account.norm { a with organizations := some [(Meta.lastId kv orgsC.ns + 1, .owner)] }) else accountsC.live kv1 j) ∧
        Meta.lastId kv2 accountsC.ns = Meta.lastId kv1 accountsC.ns := by
      rcases update_spec accounts_ok hi1 hs hsn ho1 hp hrest ho2 ho3 (id := by_) with ⟨e0, -⟩ | ⟨r, hr', ⟨⟨i, hi, x, id', r', g1, g2, g3, g4⟩, -⟩ | ⟨-, ⟨x, ex, -⟩ | ⟨hf, kv', e', g1, g2, g3⟩⟩⟩
      · rw [ha1] at e0; cases e0
      · exfalso
        rw [ha1] at hr'
        cases hr'
        exact g1 (Inv.distinct hi1 hi g3 ha1 g4 (by rw [List.mem_singleton.mp hi] at g2 ⊢; exact g2))
      · exfalso
        rw [ha1] at hr'
        cases hr'
        rw [if_neg hno] at ex
        cases ex
      · rw [ha1] at hr'
        cases hr'
        rw [hn] at e' g3
        exact ⟨kv', e', g1, g3, g2⟩
    obtain ⟨kv2, e2, g1, g3, g4⟩ := hlast
    have hag2 := accounts_only (accountSet_touches _ _) e2
    have hc : orgCreate now by_ name kv = .ok (newOrg now by_ name (Meta.lastId kv orgsC.ns + 1), kv2) := by
      unfold orgCreate Call.then
      rw [show orgsC.create [some (.idx (.top .organizations) .name name)] (fun id => ({ id := id, createdAt := now, createdBy := by_, updatedAt := none, updatedBy := none, name := name, members := [(by_, .owner)] } : Org)) kv = _ from e]
      dsimp only
      rw [show (newOrg now by_ name (Meta.lastId kv orgsC.ns + 1)).id = Meta.lastId kv orgsC.ns + 1 from rfl, e2]
      rfl
    refine .inr ⟨fun id a ha he => ht (taken.mpr ⟨id, a, ha, he⟩), kv2, ?_⟩
    have er : runCall (orgCreate now by_ name) kv = (.ok (newOrg now by_ name (Meta.lastId kv orgsC.ns + 1)), kv2) := by
      unfold runCall
      rw [hc]
    rw [er] at sm cl
    refine ⟨er, ⟨cl, g1, AgreeOn.inv (c := orgsC) hag2 h1, AgreeOn.inv (c := backupsC) (sm _ (by simp [backupsC, accountsC]) (by simp [backupsC, orgsC])).agree h.bak,
      by rw [load_same (sm _ (by simp) (by simp))]; exact h.set⟩, sm, fun j => ?_, fun j => ?_, g4.trans hag.last⟩
    · rw [AgreeOn.live (c := orgsC) hag2, h3 j]
    · rw [g3 j, AgreeOn.live (c := accountsC) hag]

/-- The address of the administrator is taken. -/
def MailTaken (kv : Kv) : Prop := ∃ id a, accountsC.live kv id = some a ∧ a.email = kAdminMail

/-- The name of the first organization is taken. -/
def NameTaken (kv : Kv) : Prop := ∃ id o, orgsC.live kv id = some o ∧ o.name = kMyOrg

theorem adminAccount_ok (C : AuthEnv) (b : Boot) : (Req.accountCreate b.accountAt (adminAccount C b) : Req Q).Ok := by
  refine ⟨by show 1 < 2 ^ 64; decide, fun m hm => ?_, fun m hm => ?_, fun m hm => ?_⟩ <;> exact absurd hm (by simp [adminAccount])

/-- Nothing is made when the address is taken. -/
theorem accountTaken (C : AuthEnv) (b : Boot) {kv : Kv} (h : SoundKv kv) (ht : MailTaken kv) :
    runCall (accountCreate b.accountAt (adminAccount C b)) kv = (.error .alreadyExists, kv) := by
  obtain ⟨id, a, h1, h2⟩ := ht
  have : clashInsert [some (.idx (.top .accounts) .email (adminAccount C b).email)] kv = true :=
    (clashInsert_iff h.acc (accountMk b.accountAt (adminAccount C b) 0)).mpr ⟨_, List.mem_singleton.mpr rfl, kAdminMail, id, a, rfl, h1, by rw [← h2]⟩
  unfold runCall accountCreate Coll.create
  rw [this]
  rfl

theorem adminPart_found (C : AuthEnv) (b : Boot) {kv : Kv} (h : SoundKv kv) {a : Account} (ha : accountsC.live kv 1 = some a) :
    adminPart C b kv = (.ok a, []) := by
  unfold adminPart adminId
  rw [get_live h.acc ha]

/-- The settings with the password of the administrator. -/
def withPwd (b : Boot) (s : Settings) : Settings := { s with adminPassword := b.pwd, startHour := 0 }

theorem adminPart_missing (E : Env Q) (C : AuthEnv) (b : Boot) {kv : Kv} (h : SoundKv kv) (ha : accountsC.live kv 1 = none) {s : Settings}
    (hs : loadSettings kv = .ok s) (hc : s.Complete) :
    ∃ k1, SoundKv k1 ∧ (∀ m, m ≠ .config → Same m kv k1) ∧ loadSettings k1 = .ok (withPwd b s) ∧
      ((MailTaken kv ∧ adminPart C b kv = (.error .alreadyExists, [k1, k1])) ∨
       (¬ MailTaken kv ∧ (Meta.lastId kv accountsC.ns + 1 < 2 ^ 64 → ∃ k2, SoundKv k2 ∧ (∀ m, m ≠ .coll accountsC.ns → Same m k1 k2) ∧
          (∀ j, accountsC.live k2 j = if j = Meta.lastId kv accountsC.ns + 1 then some (accountMk b.accountAt (adminAccount C b) j).norm else accountsC.live kv j) ∧
          ((NameTaken kv ∧ adminPart C b kv = (.error .alreadyExists, [k1, k2, k2])) ∨
           (¬ NameTaken kv ∧ (Meta.lastId kv orgsC.ns + 1 < 2 ^ 64 → ∃ k3, SoundKv k3 ∧ (∀ m, m ≠ .coll accountsC.ns → m ≠ .coll orgsC.ns → Same m k2 k3) ∧
              (∀ j, orgsC.live k3 j = if j = Meta.lastId kv orgsC.ns + 1 then some (newOrg b.orgAt (Meta.lastId kv accountsC.ns + 1) kMyOrg j).norm else orgsC.live kv j) ∧
              (∀ j, accountsC.live k3 j = if j = Meta.lastId kv accountsC.ns + 1 then
                some (Account.norm { (accountMk b.accountAt (adminAccount C b) j).norm with organizations := some [(Meta.lastId kv orgsC.ns + 1, .owner)] }) else accountsC.live kv j) ∧
              adminPart C b kv = (.ok (accountMk b.accountAt (adminAccount C b) (Meta.lastId kv accountsC.ns + 1)), [k1, k2, k3]) ∧
              Meta.lastId k3 accountsC.ns = Meta.lastId kv accountsC.ns + 1)))))) := by
  have hc' : Settings.Complete { s with adminPassword := b.pwd } := hc
  obtain ⟨k1, e1, s1, -, l1, f1⟩ := save_ok E hc' h
  have ag1 : AgreeOn accountsC.ns kv k1 := (f1 _ (by simp [accountsC])).agree
  have og1 : AgreeOn orgsC.ns kv k1 := (f1 _ (by simp [orgsC])).agree
  have mail : MailTaken k1 ↔ MailTaken kv := by
    unfold MailTaken
    simp only [AgreeOn.live (c := accountsC) ag1]
  have hg : accountsC.getById 1 kv = .error .notFound := (get_none h.acc).mpr ha
  refine ⟨k1, s1, f1, l1, ?_⟩
  by_cases ht : MailTaken kv
  · refine .inl ⟨ht, ?_⟩
    unfold adminPart adminId
    rw [hg, hs]
    simp only [Part.next, one, e1, List.getLastD_cons, List.getLastD_nil, accountTaken C b s1 (mail.mpr ht)]
    rfl
  refine .inr ⟨ht, fun hroom => ?_⟩
  have hlast : Meta.lastId k1 accountsC.ns = Meta.lastId kv accountsC.ns := ag1.last
  rcases accountMade E s1 (by rw [hlast]; exact hroom) (adminAccount_ok (Q := Q) C b) with ⟨hx, -⟩ | ⟨-, k2, e2, s2, n2, f2, v2⟩
  · exact absurd (mail.mp hx) ht
  rw [hlast] at e2 v2
  have v2' : ∀ j, accountsC.live k2 j = if j = Meta.lastId kv accountsC.ns + 1 then some (accountMk b.accountAt (adminAccount C b) j).norm else accountsC.live kv j := by
    intro j
    rw [v2 j, AgreeOn.live (c := accountsC) ag1]
  have og2 : AgreeOn orgsC.ns kv k2 := og1.trans (f2 _ (by simp [orgsC, accountsC])).agree
  have hlasto : Meta.lastId k2 orgsC.ns = Meta.lastId kv orgsC.ns := og2.last
  have name : (∃ id o, orgsC.live k2 id = some o ∧ o.name = kMyOrg) ↔ NameTaken kv := by
    unfold NameTaken
    simp only [AgreeOn.live (c := orgsC) og2]
  have hnew : accountsC.live k2 (Meta.lastId kv accountsC.ns + 1) = some (accountMk b.accountAt (adminAccount C b) (Meta.lastId kv accountsC.ns + 1)).norm := by rw [v2', if_pos rfl]
  refine ⟨k2, s2, f2, v2', ?_⟩
  have hid : (accountMk b.accountAt (adminAccount C b) (Meta.lastId kv accountsC.ns + 1)).id = Meta.lastId kv accountsC.ns + 1 := rfl
  by_cases hn : NameTaken kv
  · refine .inl ⟨hn, ?_⟩
    have e3 : runCall (orgCreate b.orgAt (Meta.lastId kv accountsC.ns + 1) kMyOrg) k2 = (.error .alreadyExists, k2) := by
      obtain ⟨id, o, h1, h2⟩ := name.mpr hn
      have : clashInsert [some (.idx (.top .organizations) .name kMyOrg)] k2 = true :=
        (clashInsert_iff s2.org (newOrg b.orgAt 0 kMyOrg 0)).mpr ⟨_, List.mem_singleton.mpr rfl, kMyOrg, id, o, rfl, h1, by rw [← h2]⟩
      unfold runCall orgCreate Call.then Coll.create
      rw [this]
      rfl
    unfold adminPart adminId
    rw [hg, hs]
    simp only [Part.next, one, e1, e2, hid, e3, List.getLastD_cons, List.getLastD_nil]
    rfl
  · refine .inr ⟨hn, fun hro => ?_⟩
    rcases orgMade E (now := b.orgAt) (name := kMyOrg) s2 (by rw [hlasto]; exact hro) hroom hnew rfl with ⟨hx, -⟩ | ⟨-, k3, e3, s3, f3, o3, v3, n3⟩
    · exact absurd (name.mp hx) hn
    rw [hlasto] at e3 o3 v3
    refine ⟨k3, s3, f3, fun j => ?_, fun j => ?_, ?_, by rw [n3, n2, hlast]⟩
    · rw [o3 j, AgreeOn.live (c := orgsC) og2]
    · rw [v3 j, v2' j]
      by_cases hj : j = Meta.lastId kv accountsC.ns + 1
      · rw [if_pos hj, if_pos hj, hj]
      · rw [if_neg hj, if_neg hj, if_neg hj]
    · unfold adminPart adminId
      rw [hg, hs]
      simp only [Part.next, one, e1, e2, hid, e3, List.getLastD_cons, List.getLastD_nil]
      rfl

end OptiPrism.Platform
