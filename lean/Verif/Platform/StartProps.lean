import Verif.Platform.StartMake
import Verif.Platform.AuthProps

/-!
# C149: what starting the server makes and keeps
-/

namespace OptiPrism.Platform

open OptiPrism.Meta

variable {Q : Type} {C : AuthEnv} {E : Env Q}

/-! ## Specification -/

/-- The store of a server that has just been set up: one administrator, who must choose an address and a password, one
organization, which they own, and keys; the password kept in the settings, and no other, logs the administrator in. -/
def Welcomes (C : AuthEnv) (kv : Kv) : Prop :=
  ∃ a o s, accountsC.getById 1 kv = .ok a ∧ a.email = "admin@admin.com".toList ∧ a.role = some .admin ∧ a.forceUpdatePassword = true ∧
    a.forceUpdateEmail = true ∧ a.organizations = some [(1, .owner)] ∧
    orgsC.getById 1 kv = .ok o ∧ o.name = "My Organization".toList ∧ o.members = [(1, .owner)] ∧
    (∀ id, id ≠ 1 → accountsC.getById id kv = .error .notFound ∧ orgsC.getById id kv = .error .notFound) ∧
    loadSettings kv = .ok s ∧ s.accessToken ≠ [] ∧ s.refreshToken ≠ [] ∧
    (∀ now pw ts, logIn C now "admin@admin.com".toList pw none kv = .ok ts → pw = s.adminPassword) ∧
    ∀ now, ∃ t r ctx, logIn C now "admin@admin.com".toList s.adminPassword none kv = .ok [t, r] ∧ t.account = 1 ∧ t.org = some 1 ∧
      authorize now t kv = .ok ctx ∧ ctx.accountId = 1 ∧ ctx.role = some .admin

/-! ## Stores of a server nobody talks to -/

theorem Still.account {kv k : Kv} (h : Still kv k) (j : Nat) : accountsC.live k j = accountsC.live kv j :=
  AgreeOn.live (c := accountsC) (h _ (by simp) (by simp [accountsC])).agree j

theorem Still.organization {kv k : Kv} (h : Still kv k) (j : Nat) : orgsC.live k j = orgsC.live kv j :=
  AgreeOn.live (c := orgsC) (h _ (by simp) (by simp [orgsC])).agree j

theorem Still.lastAccount {kv k : Kv} (h : Still kv k) : Meta.lastId k accountsC.ns = Meta.lastId kv accountsC.ns :=
  (h _ (by simp) (by simp [accountsC])).agree.last

theorem Still.lastOrg {kv k : Kv} (h : Still kv k) : Meta.lastId k orgsC.ns = Meta.lastId kv orgsC.ns :=
  (h _ (by simp) (by simp [orgsC])).agree.last

/-- A start that finds the administrator. -/
theorem start_found (C : AuthEnv) (E : Env Q) (b : Boot) {kv : Kv} (h : SoundKv kv) {a : Account} (ha : accountsC.live kv 1 = some a) :
    (∀ k ∈ (start C E b kv).2, SoundKv k ∧ Still kv k ∧ (loadSettings k = .ok (settingsOf kv) ∨ loadSettings k = .ok (withKeys b (settingsOf kv)))) ∧
    (b.ui = true → (start C E b kv).1 = .ok a) ∧ loadSettings (afterStart C E b kv) = .ok (withKeys b (settingsOf kv)) ∧
    SoundKv (afterStart C E b kv) ∧ Still kv (afterStart C E b kv) := by
  obtain ⟨l, h1, h2, h3, h4, h5, h6, h7⟩ := start_eq C E b h
  have hf := adminPart_found C b h4 (a := a) (by rw [h5.account]; exact ha)
  rw [hf, List.append_nil] at h7
  unfold afterStart
  rw [h7]
  cases b.ui with
  | true => exact ⟨h1, fun _ => rfl, by show loadSettings (l.getLastD kv) = _; rw [h3]; exact h6, by show SoundKv (l.getLastD kv); rw [h3]; exact h4, by show Still kv (l.getLastD kv); rw [h3]; exact h5⟩
  | false => exact ⟨h1, nofun, by show loadSettings (l.getLastD kv) = _; rw [h3]; exact h6, by show SoundKv (l.getLastD kv); rw [h3]; exact h4, by show Still kv (l.getLastD kv); rw [h3]; exact h5⟩

/-- Nothing has been made. -/
structure NoneYet (kv : Kv) : Prop where
  sound : SoundKv kv
  accounts : Meta.lastId kv accountsC.ns = 0
  orgs : Meta.lastId kv orgsC.ns = 0

theorem NoneYet.still {kv k : Kv} (h : NoneYet kv) (hs : SoundKv k) (hk : Still kv k) : NoneYet k :=
  ⟨hs, hk.lastAccount.trans h.accounts, hk.lastOrg.trans h.orgs⟩

theorem dead {R : Type} {c : Coll R} {Valid : R → Prop} {kv : Kv} (h : c.Inv Valid kv) {j : Nat} (hj : Meta.lastId kv c.ns < j ∨ j = 0) : c.live kv j = none := by
  cases e : c.live kv j with
  | none => rfl
  | some r =>
    obtain ⟨-, h1, h2, -⟩ := Inv.live_id h e
    omega

theorem NoneYet.noAccount {kv : Kv} (h : NoneYet kv) (j : Nat) : accountsC.live kv j = none := dead h.sound.acc (by have := h.accounts; omega)

theorem NoneYet.noOrg {kv : Kv} (h : NoneYet kv) (j : Nat) : orgsC.live kv j = none := dead h.sound.org (by have := h.orgs; omega)

/-- The administrator is the only account, and their password is the one in the settings. -/
structure Alone (C : AuthEnv) (kv : Kv) (a : Account) : Prop where
  live : accountsC.live kv 1 = some a
  others : ∀ j, j ≠ 1 → accountsC.live kv j = none
  email : a.email = kAdminMail
  role : a.role = some .admin
  force : a.forceUpdatePassword = true ∧ a.forceUpdateEmail = true
  hash : ∃ s salt, loadSettings kv = .ok s ∧ a.passwordHash = C.hash s.adminPassword salt

theorem Alone.still {kv k : Kv} {a : Account} (h : Alone C kv a) (hk : Still kv k)
    (hs : ∀ s, loadSettings kv = .ok s → ∃ s', loadSettings k = .ok s' ∧ s'.adminPassword = s.adminPassword) : Alone C k a := by
  obtain ⟨s, salt, h1, h2⟩ := h.hash
  obtain ⟨s', h3, h4⟩ := hs s h1
  exact ⟨by rw [hk.account]; exact h.live, fun j hj => by rw [hk.account]; exact h.others j hj, h.email, h.role, h.force, s', salt, h3, by rw [h4]; exact h2⟩

/-- There is an administrator, but no organization. -/
structure HalfWay (C : AuthEnv) (kv : Kv) : Prop where
  sound : SoundKv kv
  alone : ∃ a, Alone C kv a
  orgs : ∀ j, orgsC.live kv j = none

/-- There are both. -/
structure AllWay (C : AuthEnv) (kv : Kv) : Prop where
  sound : SoundKv kv
  alone : ∃ a, Alone C kv a ∧ a.organizations = some [(1, .owner)]
  org : ∃ o, orgsC.live kv 1 = some o ∧ o.name = kMyOrg ∧ o.members = [(1, .owner)]
  others : ∀ j, j ≠ 1 → orgsC.live kv j = none
  last : Meta.lastId kv accountsC.ns = 1

theorem settings_kept {b : Boot} {kv k : Kv} (h : loadSettings k = .ok (settingsOf kv) ∨ loadSettings k = .ok (withKeys b (settingsOf kv))) :
    ∀ s, loadSettings kv = .ok s → ∃ s', loadSettings k = .ok s' ∧ s'.adminPassword = s.adminPassword := by
  intro s hs
  have : settingsOf kv = s := by unfold settingsOf; rw [hs]
  rw [this] at h
  rcases h with h | h
  · exact ⟨_, h, rfl⟩
  · exact ⟨_, h, rfl⟩

theorem HalfWay.step {b : Boot} {kv k : Kv} (h : HalfWay C kv) (hk : k ∈ (start C E b kv).2) : HalfWay C k := by
  obtain ⟨a, ha⟩ := h.alone
  obtain ⟨h1, h2, h3⟩ := (start_found C E b h.sound ha.live).1 k hk
  exact ⟨h1, ⟨a, ha.still h2 (settings_kept h3)⟩, fun j => by rw [h2.organization]; exact h.orgs j⟩

theorem AllWay.keep {b : Boot} {kv k : Kv} (h : AllWay C kv) (h1 : SoundKv k) (h2 : Still kv k)
    (h3 : loadSettings k = .ok (settingsOf kv) ∨ loadSettings k = .ok (withKeys b (settingsOf kv))) : AllWay C k := by
  obtain ⟨a, ha, ho⟩ := h.alone
  obtain ⟨o, h4, h5⟩ := h.org
  exact ⟨h1, ⟨a, ha.still h2 (settings_kept h3), ho⟩, ⟨o, by rw [h2.organization]; exact h4, h5⟩, fun j hj => by rw [h2.organization]; exact h.others j hj, h2.lastAccount.trans h.last⟩

theorem AllWay.step {b : Boot} {kv k : Kv} (h : AllWay C kv) (hk : k ∈ (start C E b kv).2) : AllWay C k := by
  obtain ⟨a, ha, -⟩ := h.alone
  obtain ⟨h1, h2, h3⟩ := (start_found C E b h.sound ha.live).1 k hk
  exact h.keep h1 h2 h3

/-- A start before anything has been made. -/
theorem NoneYet.start (C : AuthEnv) (E : Env Q) (b : Boot) {kv : Kv} (h : NoneYet kv) :
    ∃ l, (∀ k ∈ l, NoneYet k) ∧ l.getLastD kv = ready E b kv ∧ (b.ui = false → start C E b kv = (.error .notFound, l)) ∧
      (b.ui = true → ∃ a k1 k2 k3, start C E b kv = (.ok a, l ++ [k1, k2, k3]) ∧ NoneYet k1 ∧ HalfWay C k2 ∧ AllWay C k3 ∧
        loadSettings k3 = .ok (withPwd b (withKeys b (settingsOf kv)))) := by
  obtain ⟨l, h1, h2, h3, h4, h5, h6, h7⟩ := start_eq C E b h.sound
  have hr := h.still h4 h5
  refine ⟨l, fun k hk => h.still (h1 k hk).1 (h1 k hk).2.1, h3, fun hu => by rw [h7, hu]; rfl, fun hu => ?_⟩
  rw [h7, if_pos hu]
  have hc : (withKeys b (settingsOf kv)).Complete := (settingsOf_complete h.sound).1
  obtain ⟨k1, a1, a2, a3, a4⟩ := adminPart_missing E C b h4 (hr.noAccount 1) h6 hc
  rcases a4 with ⟨⟨id, a, hx, -⟩, -⟩ | ⟨-, a4⟩
  · rw [hr.noAccount] at hx; cases hx
  obtain ⟨k2, b1, b2, b3, b4⟩ := a4 (by rw [hr.accounts]; decide)
  rcases b4 with ⟨⟨id, o, hx, -⟩, -⟩ | ⟨-, b4⟩
  · rw [hr.noOrg] at hx; cases hx
  obtain ⟨k3, c1, c2, c3, c4, c5, c6⟩ := b4 (by rw [hr.orgs]; decide)
  rw [hr.accounts] at b3 c3 c4 c5 c6
  rw [hr.orgs] at c3 c4
  have l2 : loadSettings k2 = .ok (withPwd b (withKeys b (settingsOf kv))) := (load_same (b2 _ (by simp))).trans a3
  have l3 : loadSettings k3 = .ok (withPwd b (withKeys b (settingsOf kv))) := (load_same (c2 _ (by simp) (by simp))).trans l2
  refine ⟨_, k1, k2, k3, by rw [c5], ?_, ?_, ?_, l3⟩
  · refine hr.still a1 fun m hm _ => a2 m hm
  · refine ⟨b1, ⟨_, ⟨by rw [b3, if_pos rfl], fun j hj => by rw [b3, if_neg (by omega)]; exact hr.noAccount j, rfl, rfl, ⟨rfl, rfl⟩, _, b.salt, l2, rfl⟩⟩, fun j => ?_⟩
    rw [AgreeOn.live (c := orgsC) (b2 _ (by simp [orgsC, accountsC])).agree, AgreeOn.live (c := orgsC) (a2 _ (by simp)).agree]
    exact hr.noOrg j
  · refine ⟨c1, ⟨_, ⟨by rw [c4, if_pos rfl], fun j hj => by rw [c4, if_neg (by omega)]; exact hr.noAccount j, rfl, rfl, ⟨rfl, rfl⟩, _, b.salt, l3, rfl⟩, rfl⟩,
      ⟨_, by rw [c3, if_pos rfl], rfl, rfl⟩, fun j hj => by rw [c3, if_neg (by omega)]; exact hr.noOrg j, c6⟩

theorem noneYet_empty : NoneYet [] := ⟨sound_empty, rfl, rfl⟩

/-- All that starts alone can lead to. -/
theorem starts_phase {kv : Kv} (h : Starts C E [] kv) : NoneYet kv ∨ HalfWay C kv ∨ AllWay C kv := by
  induction h with
  | refl => exact .inl noneYet_empty
  | step b _ hk ih =>
    rcases ih with ih | ih | ih
    · obtain ⟨l, h1, -, h3, h4⟩ := ih.start C E b
      cases hu : b.ui with
      | false => rw [h3 hu] at hk; exact .inl (h1 _ hk)
      | true =>
        obtain ⟨a, k1, k2, k3, e, g1, g2, g3, -⟩ := h4 hu
        rw [e] at hk
        rcases List.mem_append.mp hk with hk | hk
        · exact .inl (h1 _ hk)
        · simp only [List.mem_cons, List.not_mem_nil, or_false] at hk
          rcases hk with rfl | rfl | rfl
          · exact .inl g1
          · exact .inr (.inl g2)
          · exact .inr (.inr g3)
    · exact .inr (.inl (ih.step hk))
    · exact .inr (.inr (ih.step hk))

/-! ## C149 -/

theorem AllWay.welcomes (hC : C.Ok) (hm : C.email "admin@admin.com".toList = true) (ht : 0 ≤ C.accessTtl) {kv : Kv} (h : AllWay C kv) {s : Settings}
    (hs : loadSettings kv = .ok s) (h1 : s.accessToken ≠ []) (h2 : s.refreshToken ≠ []) : Welcomes C kv := by
  have km : kAdminMail = "admin@admin.com".toList := by unfold kAdminMail; rfl
  have ko : kMyOrg = "My Organization".toList := by unfold kMyOrg; rfl
  obtain ⟨a, ha, ho⟩ := h.alone
  obtain ⟨o, g1, g2, g3⟩ := h.org
  obtain ⟨s', salt, e1, e2⟩ := ha.hash
  rw [hs] at e1
  cases e1
  have hid : a.id = 1 := (Inv.live_id h.sound.acc ha.live).1
  have hby : accountsC.getBy .email "admin@admin.com".toList kv = .ok a :=
    (getBy_eq h.sound.acc (i := (.email, fun a => some a.email)) (List.mem_singleton.mpr rfl) _ _).mpr (.inl ⟨1, a, ha.live, by rw [← km, ← ha.email], rfl⟩)
  have hga := get_live h.sound.acc ha.live
  obtain ⟨l, hl, hmem, -⟩ := list_spec h.sound.clean h.sound.org
  have horg : loginOrg 1 none kv = .ok 1 := by
    unfold loginOrg
    dsimp only
    rw [hl]
    have hlo : o ∈ l := (hmem o).mpr ⟨1, g1⟩
    have : (l.find? fun r => inOrg 1 r.members) = some o := by
      cases hf : l.find? fun r => inOrg 1 r.members with
      | none => exact absurd (List.find?_eq_none.mp hf o hlo) (by rw [g3]; decide)
      | some x =>
        obtain ⟨id, hx⟩ := (hmem x).mp (List.mem_of_find?_eq_some hf)
        by_cases hj : id = 1
        · rw [hj, g1] at hx; exact hx.symm
        · rw [h.others id hj] at hx; cases hx
    show Except.ok (match l.find? fun r => inOrg 1 r.members with | some r => r.id | none => 0) = _
    rw [this]
    exact congrArg Except.ok (Inv.live_id h.sound.org g1).1
  have hlog : ∀ now pw, logIn C now "admin@admin.com".toList pw none kv = if pw = s.adminPassword then makeTokens C now 1 1 kv else .error .credentials := by
    intro now pw
    unfold logIn
    rw [hm]
    simp only [hby, e2, hC pw, hid, horg]
    by_cases hp : pw = s.adminPassword <;> simp [hp]
  refine ⟨a, o, s, hga, ha.email.trans km, ha.role, ha.force.1, ha.force.2, ho, get_live h.sound.org g1, g2.trans ko, g3, fun id hid =>
    ⟨(get_none h.sound.acc).mpr (ha.others id hid), (get_none h.sound.org).mpr (h.others id hid)⟩, hs, h1, h2, fun now pw ts he => ?_, fun now => ?_⟩
  · rw [hlog] at he
    by_cases hp : pw = s.adminPassword
    · exact hp
    · rw [if_neg hp] at he; cases he
  · have hk : makeTokens C now 1 1 kv = .ok [⟨s.accessToken, now + C.accessTtl, 1, some 1⟩, ⟨s.refreshToken, now + C.refreshTtl, 1, none⟩] := by
      unfold makeTokens; rw [hs]
    refine ⟨_, _, ⟨a.id, 1, a.role, a.organizations, a.projects⟩, by rw [hlog, if_pos rfl, hk], rfl, rfl, ?_, hid, ha.role⟩
    have hv : Tok.valid ⟨s.accessToken, now + C.accessTtl, 1, some 1⟩ s.accessToken now = true := by
      unfold Tok.valid leeway
      simp
      omega
    unfold authorize
    rw [hs]
    simp only [parseAccess, hv, if_true, Option.map_some, contextOf, hga]

/-- C149: however often the starts of a new server are interrupted, the first one that is not leaves a server one can log in to,
unless there was an interruption between the making of the administrator and that of the organization. -/
theorem C149_ready_partial (hC : C.Ok) (hm : C.email "admin@admin.com".toList = true) (ht : 0 ≤ C.accessTtl) {kv : Kv} (h : Starts C E [] kv)
    (ho : ∀ a, accountsC.getById 1 kv = .ok a → ∃ o, orgsC.getById 1 kv = .ok o) {b : Boot} (hu : b.ui = true) (h1 : b.access ≠ []) (h2 : b.refresh ≠ []) :
    (∃ a, (start C E b kv).1 = .ok a ∧ a.id = 1) ∧ Welcomes C (afterStart C E b kv) := by
  have keys : ∀ s, (withKeys b s).accessToken ≠ [] ∧ (withKeys b s).refreshToken ≠ [] := by
    intro s
    unfold withKeys
    dsimp only
    refine ⟨?_, ?_⟩
    · by_cases e : s.accessToken.isEmpty
      · rw [if_pos e]; exact h1
      · rw [if_neg e]; intro e'; rw [e'] at e; exact e rfl
    · by_cases e : s.refreshToken.isEmpty
      · rw [if_pos e]; exact h2
      · rw [if_neg e]; intro e'; rw [e'] at e; exact e rfl
  rcases starts_phase h with h0 | h0 | h0
  · obtain ⟨l, -, -, -, g⟩ := h0.start C E b
    obtain ⟨a, k1, k2, k3, e, -, -, g3, g4⟩ := g hu
    have hl : afterStart C E b kv = k3 := by
      unfold afterStart
      rw [e, List.getLastD_eq_getLast?]
      simp
    refine ⟨⟨a, by rw [e], ?_⟩, ?_⟩
    · have : (start C E b kv).1 = .ok a := by rw [e]
      obtain ⟨l', q1, q2, q3, q4, q5, q6, q7⟩ := start_eq C E b h0.sound
      have hr := h0.still q4 q5
      obtain ⟨k1', a1, a2, a3, a4⟩ := adminPart_missing E C b q4 (hr.noAccount 1) q6 (settingsOf_complete h0.sound).1
      rw [q7, if_pos hu] at this
      dsimp only at this
      rcases a4 with ⟨⟨id, a, hx, -⟩, -⟩ | ⟨-, a4⟩
      · rw [hr.noAccount] at hx; cases hx
      obtain ⟨k2', b1, b2, b3, b4⟩ := a4 (by rw [hr.accounts]; decide)
      rcases b4 with ⟨⟨id, o, hx, -⟩, -⟩ | ⟨-, b4⟩
      · rw [hr.noOrg] at hx; cases hx
      obtain ⟨k3', c1, c2, c3, c4, c5, -⟩ := b4 (by rw [hr.orgs]; decide)
      rw [c5, hr.accounts] at this
      injection this with this
      rw [← this]
      rfl
    · rw [hl]
      exact g3.welcomes hC hm ht g4 (keys _).1 (keys _).2
  · obtain ⟨a, ha⟩ := h0.alone
    obtain ⟨o, e⟩ := ho a (get_live h0.sound.acc ha.live)
    rw [(get_none h0.sound.org).mpr (h0.orgs 1)] at e
    cases e
  · obtain ⟨a, ha, -⟩ := h0.alone
    obtain ⟨-, g2, g3, g4, g5⟩ := start_found C E b h0.sound ha.live
    exact ⟨⟨a, g2 hu, (Inv.live_id h0.sound.acc ha.live).1⟩, (h0.keep g4 g5 (.inr g3)).welcomes hC hm ht g3 (keys _).1 (keys _).2⟩

/-- The claim without the exception fails: a first start that is interrupted after its account is made leaves a server that starts,
any number of times, and never gets its organization. -/
theorem C149_organization_violated (C : AuthEnv) (E : Env Q) (b : Boot) (hu : b.ui = true) :
    ∃ kv ∈ (start C E b []).2, ∀ kv', Starts C E kv kv' → (∀ b', b'.ui = true → ∃ a, (start C E b' kv').1 = .ok a) ∧
      ∀ id, orgsC.getById id kv' = .error .notFound := by
  obtain ⟨l, -, -, -, g⟩ := noneYet_empty.start C E b
  obtain ⟨a, k1, k2, k3, e, -, g2, -, -⟩ := g hu
  refine ⟨k2, by rw [e]; simp, fun kv' h => ?_⟩
  have hw : HalfWay C kv' := by
    induction h with
    | refl => exact g2
    | step b _ hk ih => exact ih.step hk
  refine ⟨fun b' hu' => ?_, fun id => (get_none hw.sound.org).mpr (hw.orgs id)⟩
  obtain ⟨a, ha⟩ := hw.alone
  exact ⟨a, (start_found C E b' hw.sound ha.live).2.1 hu'⟩

/-- C149: a server that has its first account starts again, and finds all it had: only backups in progress change (C148), and keys are made
if there are none. -/
theorem C149_again {n : Nat} {kv : Kv} (h : Hist E n kv) (hn : n < 2 ^ 62) {a : Account} (ha : accountsC.getById 1 kv = .ok a) {b : Boot} :
    (b.ui = true → (start C E b kv).1 = .ok a) ∧ (∀ k ∈ (start C E b kv).2, ∀ m, m ≠ .config → m ≠ .coll .backups → Same m kv k) ∧
    (∃ s, loadSettings (afterStart C E b kv) = .ok s ∧ (b.access ≠ [] → s.accessToken ≠ []) ∧ (b.refresh ≠ [] → s.refreshToken ≠ [])) ∧
    ∀ s, loadSettings kv = .ok s → s.accessToken ≠ [] → s.refreshToken ≠ [] → ∀ k ∈ (start C E b kv).2, loadSettings k = .ok s := by
  have hs := hist_sound h hn
  obtain ⟨g1, g2, g3, -, -⟩ := start_found C E b hs (live_get hs.acc ha)
  refine ⟨g2, fun k hk => (g1 k hk).2.1, ⟨_, g3, fun h1 => ?_, fun h2 => ?_⟩, fun s hl h1 h2 k hk => ?_⟩
  · unfold withKeys
    dsimp only
    by_cases e : (settingsOf kv).accessToken.isEmpty
    · rw [if_pos e]; exact h1
    · rw [if_neg e]; intro e'; rw [e'] at e; exact e rfl
  · unfold withKeys
    dsimp only
    by_cases e : (settingsOf kv).refreshToken.isEmpty
    · rw [if_pos e]; exact h2
    · rw [if_neg e]; intro e'; rw [e'] at e; exact e rfl
  · have e : settingsOf kv = s := by unfold settingsOf; rw [hl]
    have e2 : withKeys b s = s := by
      unfold withKeys
      rw [if_neg (by simpa using h1), if_neg (by simpa using h2)]
    have := (g1 k hk).2.2
    rw [e, e2] at this
    exact this.elim id id

/-- C149: a server whose first account is there starts; one whose first account is not starts exactly if it can make another administrator,
that is if the address and the name of the organization are free. -/
theorem C149_starts {n : Nat} {kv : Kv} (h : Hist E n kv) (hn : n < 2 ^ 62) {b : Boot} (hu : b.ui = true) :
    (∃ a, (start C E b kv).1 = .ok a) ↔ (∃ a, accountsC.getById 1 kv = .ok a) ∨
      ((∀ id a, accountsC.getById id kv = .ok a → a.email ≠ "admin@admin.com".toList) ∧
       ∀ id o, orgsC.getById id kv = .ok o → o.name ≠ "My Organization".toList) := by
  have km : kAdminMail = "admin@admin.com".toList := by unfold kAdminMail; rfl
  have ko : kMyOrg = "My Organization".toList := by unfold kMyOrg; rfl
  have hs := hist_sound h hn
  cases h1 : accountsC.live kv 1 with
  | some a => exact ⟨fun _ => .inl ⟨a, get_live hs.acc h1⟩, fun _ => ⟨a, (start_found C E b hs h1).2.1 hu⟩⟩
  | none =>
    have hno : ¬ ∃ a, accountsC.getById 1 kv = .ok a := by
      rintro ⟨a, e⟩
      rw [(get_none hs.acc).mpr h1] at e
      cases e
    obtain ⟨l, -, -, -, h4, h5, h6, h7⟩ := start_eq C E b hs
    have hmail : MailTaken (ready E b kv) ↔ ∃ id a, accountsC.getById id kv = .ok a ∧ a.email = "admin@admin.com".toList := by
      unfold MailTaken
      rw [km]
      exact ⟨fun ⟨id, a, e1, e2⟩ => ⟨id, a, get_live hs.acc (by rw [← h5.account]; exact e1), e2⟩, fun ⟨id, a, e1, e2⟩ => ⟨id, a, by rw [h5.account]; exact live_get hs.acc e1, e2⟩⟩
    have hname : NameTaken (ready E b kv) ↔ ∃ id a, orgsC.getById id kv = .ok a ∧ a.name = "My Organization".toList := by
      unfold NameTaken
      rw [ko]
      exact ⟨fun ⟨id, a, e1, e2⟩ => ⟨id, a, get_live hs.org (by rw [← h5.organization]; exact e1), e2⟩, fun ⟨id, a, e1, e2⟩ => ⟨id, a, by rw [h5.organization]; exact live_get hs.org e1, e2⟩⟩
    rw [h7, if_pos hu]
    dsimp only
    obtain ⟨k1, a1, a2, a3, a4⟩ := adminPart_missing E C b h4 (by rw [h5.account]; exact h1) h6 (settingsOf_complete hs).1
    rcases a4 with ⟨ht, e⟩ | ⟨ht, a4⟩
    · rw [e]
      refine ⟨fun ⟨_, e⟩ => (by cases e), fun hx => ?_⟩
      rcases hx with hx | hx
      · exact absurd hx hno
      · obtain ⟨id, a, e1, e2⟩ := hmail.mp ht
        exact absurd e2 (hx.1 id a e1)
    obtain ⟨k2, b1, b2, b3, b4⟩ := a4 (by rw [h5.lastAccount]; exact (hist_accounts h hn).room accounts_ok)
    rcases b4 with ⟨hn', e⟩ | ⟨hn', b4⟩
    · rw [e]
      refine ⟨fun ⟨_, e⟩ => (by cases e), fun hx => ?_⟩
      rcases hx with hx | hx
      · exact absurd hx hno
      · obtain ⟨id, a, e1, e2⟩ := hname.mp hn'
        exact absurd e2 (hx.2 id a e1)
    obtain ⟨k3, -, -, -, -, e, -⟩ := b4 (by rw [h5.lastOrg]; exact (hist_orgs h hn).room orgs_ok)
    rw [e]
    exact ⟨fun _ => .inr ⟨fun id a e1 e2 => ht (hmail.mpr ⟨id, a, e1, e2⟩), fun id o e1 e2 => hn' (hname.mpr ⟨id, o, e1, e2⟩)⟩, fun _ => ⟨_, rfl⟩⟩

/-- The store of a server that will not start any more. -/
structure Locked (kv : Kv) : Prop where
  sound : SoundKv kv
  gone : accountsC.live kv 1 = none
  mail : MailTaken kv

theorem Locked.start {b : Boot} {kv : Kv} (h : Locked kv) : (∃ e, (start C E b kv).1 = .error e) ∧ ∀ k ∈ (start C E b kv).2, Locked k := by
  obtain ⟨l, h1, -, -, h4, h5, h6, h7⟩ := start_eq C E b h.sound
  have still : ∀ {k}, SoundKv k → (∀ j, accountsC.live k j = accountsC.live kv j) → Locked k := fun hs hj =>
    ⟨hs, by rw [hj]; exact h.gone, by obtain ⟨id, a, e1, e2⟩ := h.mail; exact ⟨id, a, by rw [hj]; exact e1, e2⟩⟩
  have hl : ∀ k ∈ l, Locked k := fun k hk => still (h1 k hk).1 (h1 k hk).2.1.account
  have hr := still h4 h5.account
  rw [h7]
  cases hu : b.ui with
  | false => exact ⟨⟨_, rfl⟩, hl⟩
  | true =>
    obtain ⟨k1, a1, a2, -, a4⟩ := adminPart_missing E C b h4 hr.gone h6 (settingsOf_complete h.sound).1
    rcases a4 with ⟨-, e⟩ | ⟨ht, -⟩
    · rw [e]
      refine ⟨⟨_, rfl⟩, fun k hk => ?_⟩
      rcases List.mem_append.mp hk with hk | hk
      · exact hl k hk
      · have : k = k1 := by simpa using hk
        rw [this]
        exact still a1 fun j => by rw [AgreeOn.live (c := accountsC) (a2 _ (by simp)).agree, h5.account]
    · exact absurd hr.mail ht

/-- One request. -/
theorem last_step {n : Nat} {kv : Kv} (h : Hist E n kv) (hn : n < 2 ^ 62) {r : Req Q} (hr : r.Ok) :
    Meta.lastId kv accountsC.ns ≤ Meta.lastId (r.exec E kv) accountsC.ns := by
  have hs := hist_sound h hn
  by_cases hna : notAccount r
  · exact Nat.le_of_eq (exec_keeps E hr hna hs.acc).last.symm
  cases r <;> try exact absurd trivial hna
  case accountCreate now req =>
    show _ ≤ Meta.lastId (runCall (accountCreate now req) kv).2 accountsC.ns
    rcases accountMade E hs ((hist_accounts h hn).room accounts_ok) hr with ⟨-, e⟩ | ⟨-, kv', e, -, h2, -⟩
    · exact Nat.le_of_eq (by rw [e])
    · rw [e]; show _ ≤ Meta.lastId kv' accountsC.ns; omega
  case accountUpdate id now q =>
    obtain ⟨ho1, ho2, ho3, sel, hs', hsn, hp, hrest⟩ := accountUpdate_ok hr
    show _ ≤ Meta.lastId (runCall (accountUpdate id now q) kv).2 accountsC.ns
    have step : ∀ x, accountUpdate id now q kv = x → (∀ r k, x = .ok (r, k) → Meta.lastId k accountsC.ns = Meta.lastId kv accountsC.ns) →
        Meta.lastId kv accountsC.ns ≤ Meta.lastId (runCall (accountUpdate id now q) kv).2 accountsC.ns := by
      intro x hx hk
      unfold runCall
      rw [hx]
      cases x with
      | error e => exact Nat.le_refl _
      | ok v => exact Nat.le_of_eq (hk v.1 v.2 rfl).symm
    rcases update_spec accounts_ok hs.acc hs' hsn ho1 hp hrest ho2 ho3 (id := id) with ⟨-, e'⟩ | ⟨r, hr, ⟨-, e'⟩ | ⟨-, ⟨x, -, e'⟩ | ⟨hf, kv', e', h1, h2, h3⟩⟩⟩
    · exact step _ e' nofun
    · exact step _ e' nofun
    · exact step _ e' nofun
    · exact step _ e' fun r k e => by cases e; exact h2
  case accountDelete id =>
    show _ ≤ Meta.lastId (runCall (accountsC.delete id) kv).2 accountsC.ns
    unfold runCall
    rcases delete_spec accounts_ok hs.acc id with ⟨-, e⟩ | ⟨r, kv', -, e, -, h2, -⟩
    · exact Nat.le_of_eq (by rw [e])
    · rw [e]; show _ ≤ Meta.lastId kv' accountsC.ns; omega

theorem last_runs {P : Req Q → Prop} {n m : Nat} {kv kv' : Kv} (h : Hist E n kv) (hr : Runs E P kv m kv') (hn : n + m < 2 ^ 62) :
    Meta.lastId kv accountsC.ns ≤ Meta.lastId kv' accountsC.ns := by
  induction hr with
  | refl => exact Nat.le_refl _
  | step r hs ho _ ih => exact Nat.le_trans (ih (by omega)) (last_step (hs.hist h) (by omega) ho)

/-- The first account was there and is not any more, and the server failed to start: it never starts again. -/
theorem C149_never {n m : Nat} {kv0 kv : Kv} (h : Hist E n kv0) {a : Account} (ha : accountsC.getById 1 kv0 = .ok a)
    (hr : Runs E (fun _ => True) kv0 m kv) (hn : n + m < 2 ^ 62) (hg : accountsC.getById 1 kv = .error .notFound) {b : Boot} (hu : b.ui = true)
    {e : Err} (he : (start C E b kv).1 = .error e) {kv' : Kv} (hs : Starts C E (afterStart C E b kv) kv') (b' : Boot) :
    ∃ e', (start C E b' kv').1 = .error e' := by
  have hh := hr.hist h
  have h0 := hist_sound h (by omega)
  have hk := hist_sound hh hn
  have hlast : 1 ≤ Meta.lastId kv accountsC.ns := Nat.le_trans (Inv.live_id h0.acc (live_get h0.acc ha)).2.2.1 (last_runs h hr hn)
  have hlock : Locked (afterStart C E b kv) := by
    have hgone := (get_none hk.acc).mp hg
    obtain ⟨l, -, -, h3, h4, h5, h6, h7⟩ := start_eq C E b hk
    obtain ⟨k1, a1, a2, a3, a4⟩ := adminPart_missing E C b h4 (by rw [h5.account]; exact hgone) h6 (settingsOf_complete hk).1
    rw [if_pos hu] at h7
    unfold afterStart
    rw [h7] at he ⊢
    dsimp only at he ⊢
    have sk1 : ∀ j, accountsC.live k1 j = accountsC.live kv j := fun j => by rw [AgreeOn.live (c := accountsC) (a2 _ (by simp)).agree, h5.account]
    rcases a4 with ⟨⟨id, x, e1, e2⟩, e⟩ | ⟨ht, a4⟩
    · rw [e]
      have : (l ++ [k1, k1]).getLastD kv = k1 := by rw [List.getLastD_eq_getLast?]; simp
      rw [this]
      exact ⟨a1, by rw [sk1]; exact hgone, id, x, by rw [sk1, ← h5.account]; exact e1, e2⟩
    obtain ⟨k2, b1, b2, b3, b4⟩ := a4 (by rw [h5.lastAccount]; exact (hist_accounts hh hn).room accounts_ok)
    rcases b4 with ⟨hn', e⟩ | ⟨hn', b4⟩
    · rw [e]
      have : (l ++ [k1, k2, k2]).getLastD kv = k2 := by rw [List.getLastD_eq_getLast?]; simp
      rw [this]
      rw [h5.lastAccount] at b3
      exact ⟨b1, by rw [b3, if_neg (by omega), h5.account]; exact hgone, _, _, by rw [b3, if_pos rfl], rfl⟩
    · obtain ⟨k3, -, -, -, -, e, -⟩ := b4 (by rw [h5.lastOrg]; exact (hist_orgs hh hn).room orgs_ok)
      rw [e] at he
      cases he
  have : Locked kv' := by
    induction hs with
    | refl => exact hlock
    | step b _ hk ih => exact ih.start.2 _ hk
  exact this.start.1

/-- C149: a start, interrupted or not, removes and changes no account and no organization, and writes to settings, backups, accounts and
organizations only. -/
theorem C149_keeps {n : Nat} {kv : Kv} (h : Hist E n kv) (hn : n < 2 ^ 62) {b : Boot} {k : Kv} (hk : k ∈ (start C E b kv).2) :
    (∀ id a, accountsC.getById id kv = .ok a → accountsC.getById id k = .ok a) ∧
    (∀ id o, orgsC.getById id kv = .ok o → orgsC.getById id k = .ok o) ∧
    ∀ m, m ≠ .config → m ≠ .coll .backups → m ≠ .coll (.top .accounts) → m ≠ .coll (.top .organizations) → Same m kv k := by
  have hs := hist_sound h hn
  have finish : ∀ {k}, SoundKv k → (∀ j a, accountsC.live kv j = some a → accountsC.live k j = some a) → (∀ j o, orgsC.live kv j = some o → orgsC.live k j = some o) →
      (∀ m, m ≠ .config → m ≠ .coll .backups → m ≠ .coll (.top .accounts) → m ≠ .coll (.top .organizations) → Same m kv k) →
      (∀ id a, accountsC.getById id kv = .ok a → accountsC.getById id k = .ok a) ∧
      (∀ id o, orgsC.getById id kv = .ok o → orgsC.getById id k = .ok o) ∧
      ∀ m, m ≠ .config → m ≠ .coll .backups → m ≠ .coll (.top .accounts) → m ≠ .coll (.top .organizations) → Same m kv k :=
    fun hsk h1 h2 h3 => ⟨fun id a e => get_live hsk.acc (h1 id a (live_get hs.acc e)), fun id o e => get_live hsk.org (h2 id o (live_get hs.org e)), h3⟩
  have calm : ∀ {k}, SoundKv k → Still kv k → _ := fun hsk hst =>
    finish hsk (fun j a e => by rw [hst.account]; exact e) (fun j o e => by rw [hst.organization]; exact e) (fun m h1 h2 _ _ => hst m h1 h2)
  obtain ⟨l, h1, -, -, h4, h5, h6, h7⟩ := start_eq C E b hs
  rw [h7] at hk
  cases hu : b.ui with
  | false =>
    rw [hu] at hk
    exact calm (h1 k hk).1 (h1 k hk).2.1
  | true =>
    rw [if_pos hu] at hk
    rcases List.mem_append.mp hk with hk | hk
    · exact calm (h1 k hk).1 (h1 k hk).2.1
    cases hl : accountsC.live kv 1 with
    | some a =>
      rw [adminPart_found C b h4 (a := a) (by rw [h5.account]; exact hl)] at hk
      cases hk
    | none =>
      obtain ⟨k1, a1, a2, a3, a4⟩ := adminPart_missing E C b h4 (by rw [h5.account]; exact hl) h6 (settingsOf_complete hs).1
      have st1 : Still kv k1 := h5.trans fun m hm _ => a2 m hm
      rcases a4 with ⟨-, e⟩ | ⟨-, a4⟩
      · rw [e] at hk
        have : k = k1 := by simpa using hk
        rw [this]
        exact calm a1 st1
      obtain ⟨k2, b1, b2, b3, b4⟩ := a4 (by rw [h5.lastAccount]; exact (hist_accounts h hn).room accounts_ok)
      rw [h5.lastAccount] at b3
      have fresh : ∀ j a, accountsC.live kv j = some a → j ≠ Meta.lastId kv accountsC.ns + 1 := fun j a e => by
        have := (Inv.live_id hs.acc e).2.2.1
        omega
      have g2 := finish b1 (fun j a e => by rw [b3, if_neg (fresh j a e), h5.account]; exact e)
        (fun j o e => by rw [AgreeOn.live (c := orgsC) (b2 _ (by simp [orgsC, accountsC])).agree, st1.organization]; exact e)
        (fun m c1 c2 c3 _ => (st1 m c1 c2).trans (b2 m c3))
      rcases b4 with ⟨-, e⟩ | ⟨-, b4⟩
      · rw [e] at hk
        have : k = k1 ∨ k = k2 := by simpa using hk
        rcases this with rfl | rfl
        · exact calm a1 st1
        · exact g2
      obtain ⟨k3, c1, c2, c3, c4, e, -⟩ := b4 (by rw [h5.lastOrg]; exact (hist_orgs h hn).room orgs_ok)
      rw [h5.lastAccount] at c4
      rw [h5.lastOrg] at c3
      rw [e] at hk
      have : k = k1 ∨ k = k2 ∨ k = k3 := by simpa using hk
      rcases this with rfl | rfl | rfl
      · exact calm a1 st1
      · exact g2
      · refine finish c1 (fun j a e => by rw [c4, if_neg (fresh j a e), h5.account]; exact e) (fun j o e => ?_)
          (fun m d1 d2 d3 d4 => ((st1 m d1 d2).trans (b2 m d3)).trans (c2 m d3 d4))
        rw [c3, if_neg, h5.organization]
        · exact e
        · have := (Inv.live_id hs.org e).2.2.1
          omega

/-- The store of a server without its first account where the address or the name of the organization is taken. -/
structure Doomed (kv : Kv) : Prop where
  sound : SoundKv kv
  gone : accountsC.live kv 1 = none
  taken : MailTaken kv ∨ (NameTaken kv ∧ Meta.lastId kv accountsC.ns = 1)

theorem Doomed.start {b : Boot} {kv : Kv} (h : Doomed kv) : (∃ e, (start C E b kv).1 = .error e) ∧ ∀ k ∈ (start C E b kv).2, Doomed k := by
  have lock : ∀ {k}, Locked k → Doomed k := fun h => ⟨h.sound, h.gone, .inl h.mail⟩
  rcases h.taken with hm | ⟨hm, hl⟩
  · obtain ⟨h1, h2⟩ := Locked.start (C := C) (E := E) (b := b) ⟨h.sound, h.gone, hm⟩
    exact ⟨h1, fun k hk => lock (h2 k hk)⟩
  obtain ⟨l, h1, -, -, h4, h5, h6, h7⟩ := start_eq C E b h.sound
  have still : ∀ {k}, SoundKv k → Still kv k → Doomed k := fun hs hst =>
    ⟨hs, by rw [hst.account]; exact h.gone, .inr ⟨by obtain ⟨id, a, e1, e2⟩ := hm; exact ⟨id, a, by rw [hst.organization]; exact e1, e2⟩, hst.lastAccount.trans hl⟩⟩
  have hall : ∀ k ∈ l, Doomed k := fun k hk => still (h1 k hk).1 (h1 k hk).2.1
  have hr := still h4 h5
  rw [h7]
  cases hu : b.ui with
  | false => exact ⟨⟨_, rfl⟩, hall⟩
  | true =>
    obtain ⟨k1, a1, a2, -, a4⟩ := adminPart_missing E C b h4 hr.gone h6 (settingsOf_complete h.sound).1
    have d1 : Doomed k1 := still a1 (h5.trans fun m hm _ => a2 m hm)
    rcases a4 with ⟨-, e⟩ | ⟨ht, a4⟩
    · rw [e]
      refine ⟨⟨_, rfl⟩, fun k hk => ?_⟩
      rcases List.mem_append.mp hk with hk | hk
      · exact hall k hk
      · have : k = k1 := by simpa using hk
        rw [this]
        exact d1
    · have hlr : Meta.lastId (ready E b kv) accountsC.ns = 1 := h5.lastAccount.trans hl
      obtain ⟨k2, b1, b2, b3, b4⟩ := a4 (by rw [hlr]; decide)
      rw [hlr] at b3
      have d2 : Doomed k2 := lock ⟨b1, by rw [b3, if_neg (by omega)]; exact hr.gone, _, _, by rw [b3, if_pos rfl], rfl⟩
      rcases b4 with ⟨-, e⟩ | ⟨hn, -⟩
      · rw [e]
        refine ⟨⟨_, rfl⟩, fun k hk => ?_⟩
        rcases List.mem_append.mp hk with hk | hk
        · exact hall k hk
        · have : k = k1 ∨ k = k2 := by simpa using hk
          rcases this with rfl | rfl
          · exact d1
          · exact d2
      · refine absurd ?_ hn
        obtain ⟨id, a, e1, e2⟩ := hm
        exact ⟨id, a, by rw [h5.organization]; exact e1, e2⟩

theorem Doomed.starts {kv kv' : Kv} (h : Doomed kv) (hs : Starts C E kv kv') : Doomed kv' := by
  induction hs with
  | refl => exact h
  | step b _ hk ih => exact ih.start.2 _ hk

/-- The claim that a server which has started can be started again fails: once the administrator has removed the first account, which
they may do right after the first start, the server never starts again. -/
theorem C149_restart_violated (hC : C.Ok) (hm : C.email "admin@admin.com".toList = true) (ht : 0 ≤ C.accessTtl) (E : Env Q) {b : Boot} (hu : b.ui = true)
    (h1 : b.access ≠ []) (h2 : b.refresh ≠ []) :
    (∃ a, (start C E b []).1 = .ok a) ∧ ∃ s t r kv, loadSettings (afterStart C E b []) = .ok s ∧
      logIn C 0 "admin@admin.com".toList s.adminPassword none (afterStart C E b []) = .ok [t, r] ∧
      adminDelete 0 t 1 (afterStart C E b []) = (.ok [], kv) ∧ ∀ kv', Starts C E kv kv' → ∀ b', ∃ e, (start C E b' kv').1 = .error e := by
  obtain ⟨⟨a0, e0, -⟩, hw⟩ := C149_ready_partial hC hm ht (E := E) .refl (fun a e => by rw [(get_none sound_empty.acc).mpr rfl] at e; cases e) hu h1 h2
  refine ⟨⟨a0, e0⟩, ?_⟩
  obtain ⟨l, -, -, -, g⟩ := noneYet_empty.start C E b
  obtain ⟨a', k1, k2, k3, e, -, -, g3, -⟩ := g hu
  have hl : afterStart C E b [] = k3 := by
    unfold afterStart
    rw [e, List.getLastD_eq_getLast?]
    simp
  rw [hl] at hw ⊢
  obtain ⟨a, o, s, w1, -, -, -, -, -, w2, w3, -, -, w4, -, -, -, w5⟩ := hw
  obtain ⟨t, r, ctx, x1, x2, x3, x4, x5, x6⟩ := w5 0
  have hallow : RootOp.accountDelete.allowed ctx = true := by
    unfold RootOp.allowed Ctx.checkPermission
    rw [x6]
    decide
  have hlive := live_get g3.sound.acc w1
  rcases delete_spec accounts_ok g3.sound.acc 1 with ⟨e1, -⟩ | ⟨r1, kv, -, e1, d1, d2, d3⟩
  · rw [hlive] at e1; cases e1
  have hrun : runCall (accountsC.delete 1) k3 = (.ok r1, kv) := by unfold runCall; rw [e1]
  have hdel : adminDelete 0 t 1 k3 = (.ok [], kv) := by
    unfold adminDelete reply
    rw [x4]
    simp only [hallow, hrun]
    rfl
  refine ⟨s, t, r, kv, w4, x1, hdel, ?_⟩
  have hr : (Req.accountDelete 1 : Req Q).Ok := trivial
  have hx : (Req.accountDelete 1 : Req Q).exec E k3 = kv := congrArg Prod.snd hrun
  have sm : ∀ m, m ≠ .coll accountsC.ns → Same m k3 kv := fun m hm => hx ▸ exec_same E hr (fun e => hm (List.mem_singleton.mp e)) k3
  have hsound : SoundKv kv := ⟨hx ▸ (exec_steps E _ hr k3).clean g3.sound.clean, d1, AgreeOn.inv (c := orgsC) (sm _ (by simp [orgsC, accountsC])).agree g3.sound.org,
    AgreeOn.inv (c := backupsC) (sm _ (by simp [backupsC, accountsC])).agree g3.sound.bak, by rw [load_same (sm _ (by simp))]; exact g3.sound.set⟩
  have hgone : accountsC.live kv 1 = none := by rw [d3, if_pos rfl]
  have hname : NameTaken kv := by
    have ko : kMyOrg = "My Organization".toList := by unfold kMyOrg; rfl
    refine ⟨1, o, ?_, w3.trans ko.symm⟩
    rw [AgreeOn.live (c := orgsC) (sm _ (by simp [orgsC, accountsC])).agree]
    exact live_get g3.sound.org w2
  have hlast : Meta.lastId kv accountsC.ns = 1 := d2.trans g3.last
  intro kv' hst b'
  exact (Doomed.starts ⟨hsound, hgone, .inr ⟨hname, hlast⟩⟩ hst).start.1

/-! ## Cases -/

def exBoot : Boot := ⟨true, "access".toList, "refresh".toList, "secret".toList, 0, fun _ => ⟨0, 0⟩, ⟨0, 0⟩, ⟨0, 0⟩⟩

/-- The first start, uninterrupted. -/
example : Welcomes exAuth (afterStart exAuth exEnv exBoot []) :=
  (C149_ready_partial exAuth_ok (by decide) (by decide) (.refl) (fun a e => by rw [(get_none sound_empty.acc).mpr rfl] at e; cases e) rfl (by decide) (by decide)).2

/-- An interrupted one, and another. -/
example : ∃ kv, Starts exAuth exEnv [] kv ∧ kv ≠ [] ∧ Welcomes exAuth (afterStart exAuth exEnv exBoot kv) := by
  obtain ⟨l, h1, h2, -, g⟩ := noneYet_empty.start exAuth exEnv exBoot
  obtain ⟨a, k1, k2, k3, e, g1, -, -, -⟩ := g rfl
  have hs : Starts exAuth exEnv [] k1 := .step exBoot .refl (by rw [e]; simp)
  refine ⟨k1, hs, ?_, (C149_ready_partial exAuth_ok (by decide) (by decide) hs (fun a ha => ?_) rfl (by decide) (by decide)).2⟩
  · rintro rfl
    obtain ⟨l', q1, q2, q3, q4, q5, q6, q7⟩ := start_eq exAuth exEnv exBoot sound_empty
    obtain ⟨k1', a1, a2, a3, a4⟩ := adminPart_missing exEnv exAuth exBoot q4 ((noneYet_empty.still q4 q5).noAccount 1) q6 (settingsOf_complete sound_empty).1
    have hr := noneYet_empty.still q4 q5
    rcases a4 with ⟨⟨id, a, hx, -⟩, -⟩ | ⟨-, a4⟩
    · rw [hr.noAccount] at hx; cases hx
    obtain ⟨k2', b1, b2, b3, b4⟩ := a4 (by rw [hr.accounts]; decide)
    rcases b4 with ⟨⟨id, o, hx, -⟩, -⟩ | ⟨-, b4⟩
    · rw [hr.noOrg] at hx; cases hx
    obtain ⟨k3', c1, c2, c3, c4, c5, -⟩ := b4 (by rw [hr.orgs]; decide)
    rw [q7, if_pos (show exBoot.ui = true from rfl), c5] at e
    have : k1' = [] := by
      have := congrArg (fun p => (p.2.reverse.drop 2).head?) e
      simpa using this
    rw [this] at a3
    cases a3
  · rw [(get_none g1.sound.acc).mpr (g1.noAccount 1)] at ha
    cases ha

/-- A server that has been set up. -/
def exSetUp : List (Req Unit) := [.settings sampleSettings, .accountCreate ⟨0, 0⟩ (adminAccount exAuth exBoot), .orgCreate ⟨0, 0⟩ 1 "My Organization".toList]

theorem exSetUp_hist : Hist exEnv 3 (runReqs exEnv exSetUp []) := by
  refine Hist.of_run exEnv exSetUp fun r hr => ?_
  simp only [exSetUp, List.mem_cons, List.not_mem_nil, or_false] at hr
  rcases hr with rfl | rfl | rfl
  · trivial
  · exact adminAccount_ok exAuth exBoot
  · show 1 < 2 ^ 64
    decide

def exGoneKv : Kv := (Req.accountDelete 1 : Req Unit).exec exEnv (runReqs exEnv exSetUp [])

theorem exGone_runs : Runs exEnv (fun _ => True) (runReqs exEnv exSetUp []) 1 exGoneKv := .step _ .refl trivial trivial

theorem exGone_fails : ∃ e, (start exAuth exEnv exBoot exGoneKv).1 = .error e := by
  cases h : (start exAuth exEnv exBoot exGoneKv).1 with
  | error e => exact ⟨e, rfl⟩
  | ok a =>
    rcases (C149_starts (C := exAuth) (exGone_runs.hist exSetUp_hist) (by decide) (b := exBoot) rfl).mp ⟨a, h⟩ with ⟨a, e⟩ | ⟨-, e⟩
    · have : (accountsC.getById 1 exGoneKv).toOption.isSome = false := by decide +kernel
      rw [e] at this
      cases this
    · have : (orgsC.getById 1 exGoneKv).toOption.map (·.name) = some "My Organization".toList := by decide +kernel
      cases h1 : orgsC.getById 1 exGoneKv with
      | error x => rw [h1] at this; cases this
      | ok o =>
        rw [h1] at this
        exact absurd (Option.some.inj this) (e 1 o h1)

/-- It has been set up, the account has been removed and a start has failed: no start succeeds. -/
example : ∀ b', ∃ e, (start exAuth exEnv b' (afterStart exAuth exEnv exBoot exGoneKv)).1 = .error e := by
  intro b'
  have h1 : (accountsC.getById 1 (runReqs exEnv exSetUp [])).toOption.isSome = true := by decide +kernel
  have h2 : accountsC.getById 1 exGoneKv = .error .notFound := by rw [get_none (hist_sound (exGone_runs.hist exSetUp_hist) (by decide)).acc]; decide +kernel
  obtain ⟨e, he⟩ := exGone_fails
  cases h : accountsC.getById 1 (runReqs exEnv exSetUp []) with
  | error x => rw [h] at h1; cases h1
  | ok a => exact C149_never exSetUp_hist h exGone_runs (by decide) h2 rfl he .refl b'

/-- It has been set up and starts again. -/
example : ∃ a, (start exAuth exEnv exBoot (runReqs exEnv exSetUp [])).1 = .ok a := by
  have h1 : (accountsC.getById 1 (runReqs exEnv exSetUp [])).toOption.isSome = true := by decide +kernel
  cases h : accountsC.getById 1 (runReqs exEnv exSetUp []) with
  | error x => rw [h] at h1; cases h1
  | ok a => exact ⟨a, (C149_again exSetUp_hist (by decide) h (b := exBoot)).1 rfl⟩

end OptiPrism.Platform
