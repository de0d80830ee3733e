import Verif.Meta.Twin
import Verif.Meta.UpdateProps

/-!
# The calls of the metadata on twins
-/

namespace OptiPrism.Meta

open OptiPrism.Storage (Bytes)

variable {α Q : Type}

/-! ## Accounts, organizations, backups -/

theorem accountCreate_blind {now : Time} {r r' : Account} (he : r.email = r'.email)
    (h : ∀ id, AkinA (accountMk now r id) (accountMk now r' id)) : Blind AkinA (accountCreate now r) (accountCreate now r') := by
  unfold accountCreate
  rw [he]
  exact accounts_twin.create _ fun id _ => h id

theorem AccountUpd.akin {q : AccountUpd} {now : Time} (hq : (Req.accountUpdate (Q := Unit) 0 now q).Ok) {r r' : Account} (h : AkinA r r') :
    AkinA (q.apply now r) (q.apply now r') := by
  rcases h with rfl | ⟨h1, h2, h3⟩
  · exact .refl _
  · refine Or.inr ⟨(accountUpdate_ok hq).2.2.1 _ h1, (accountUpdate_ok hq).2.2.1 _ h2, ?_⟩
    cases r; cases r'
    simp only [Account.mask, Account.mk.injEq] at h3
    obtain ⟨e1, e2, e3, e4, e5, -, e7, e8, e9, e10, e11, e12, e13, e14⟩ := h3
    subst e1 e2 e3 e4 e5 e7 e8 e9 e10 e11 e12 e13 e14
    rfl

theorem accountUpdate_blind {id : Nat} {now : Time} {q : AccountUpd} (hq : (Req.accountUpdate (Q := Unit) 0 now q).Ok) :
    Blind AkinA (accountUpdate id now q) (accountUpdate id now q) := by
  refine accounts_twin.update id (fun r r' h => ?_) (fun r r' h => .ok (AccountUpd.akin hq h))
  have : r.email = r'.email := (congrArg Account.email h.eq :)
  rw [this]

/-- The three calls that change the organizations of an account. -/
theorem orgs_blind {m : Nat} {f : Account → Except Err Account}
    (hf : ∀ r r' : Account, AkinA r r' → ExRel AkinA (f r) (f r')) :
    Blind AkinA (accountsC.update m (fun _ => []) f) (accountsC.update m (fun _ => []) f) :=
  accounts_twin.update m (fun _ _ _ => rfl) hf

theorem akin_orgs {r r' : Account} (h : AkinA r r') : r.organizations = r'.organizations := (congrArg Account.organizations h.eq :)

theorem akin_setOrgs {r r' : Account} (h : AkinA r r') {l : Option (List (Nat × OrgRole))}
    (hl : r.Valid → ∀ m ∈ l.getD [], m.1 < 2 ^ 64) : AkinA { r with organizations := l } { r' with organizations := l } := by
  rcases h with rfl | ⟨h1, h2, h3⟩
  · exact .refl _
  · refine Or.inr ⟨⟨h1.head, hl h1, h1.projs, h1.teams⟩, ⟨h2.head, hl h1, h2.projs, h2.teams⟩, ?_⟩
    exact congrArg (fun a : Account => { a with organizations := l }) h3

theorem addOrganization_blind {m o : Nat} (ho : o < 2 ^ 64) (role : OrgRole) :
    Blind AkinA (addOrganization m o role) (addOrganization m o role) := by
  refine orgs_blind fun r r' h => ?_
  rw [akin_orgs h]
  split
  · exact .error _
  · refine .ok (akin_setOrgs h fun hv x hx => ?_)
    rw [Option.getD_some, List.mem_append] at hx
    rcases hx with hx | hx
    · rw [← akin_orgs h] at hx; exact hv.orgs x hx
    · rw [List.mem_singleton] at hx; subst hx; exact ho

theorem removeOrganization_blind {m o : Nat} : Blind AkinA (removeOrganization m o) (removeOrganization m o) := by
  refine orgs_blind fun r r' h => ?_
  rw [akin_orgs h]
  split
  · refine .ok (akin_setOrgs h fun hv x hx => ?_)
    rw [Option.getD_some, List.mem_filter, ← akin_orgs h] at hx
    exact hv.orgs x hx.1
  · exact .error _

theorem changeOrganizationRole_blind {m o : Nat} {role : OrgRole} :
    Blind AkinA (changeOrganizationRole m o role) (changeOrganizationRole m o role) := by
  refine orgs_blind fun r r' h => ?_
  rw [akin_orgs h]
  split
  · refine .ok (akin_setOrgs h fun hv x hx => ?_)
    rw [Option.getD_some, ← akin_orgs h] at hx
    obtain ⟨k, hk⟩ := setRole_mem hx
    exact hv.orgs (x.1, k) hk
  · exact .error _

theorem orgs_twin : CollTwin orgsC Eq := collTwin_open orgs_open
theorem projects_twin : CollTwin projectsC Eq := collTwin_open projects_open
theorem teams_twin (o : Nat) : CollTwin (teamsC o) Eq := collTwin_open (teams_open o)
theorem events_twin (p : Nat) : CollTwin (eventsC p) Eq := collTwin_open (proj_open p _)
theorem custom_twin (p : Nat) : CollTwin (customC p) Eq := collTwin_open (proj_open p _)
theorem dashboards_twin (p : Nat) : CollTwin (dashboardsC p) Eq := collTwin_open (proj_open p _)
theorem reports_twin (bc : Bincode Q) (p : Nat) : CollTwin (reportsC bc p) Eq := collTwin_open (proj_open p _)
theorem props_twin (p : Nat) (ty : PropType) : CollTwin (propsC p ty) Eq := collTwin_open (proj_open p _)

/-- An update of a collection without secrets. -/
theorem update_open {R : Type} {c : Coll R} (C : CollTwin c Eq) {id : Nat} {ps : R → List (Option Key × Option Key)} {f : R → Except Err R} :
    Blind Eq (c.update id ps f) (c.update id ps f) :=
  C.update id (fun _ _ e => by rw [e]) (fun _ _ e => by rw [e]; exact .refl _)

theorem create_open {R : Type} {c : Coll R} (C : CollTwin c Eq) {keys : List (Option Key)} {mk : Nat → R} :
    Blind Eq (c.create keys mk) (c.create keys mk) := C.create keys fun _ _ => rfl

theorem nextSeq_ok_lt {k : Key} {kv : Kv} {n : Nat} {kv' : Kv} (h : nextSeq k kv = .ok (n, kv')) : n < 2 ^ 64 := by
  unfold nextSeq at h
  split at h
  · cases h; decide
  · split at h
    · cases h
    · cases h; exact Nat.mod_lt _ (by decide)

/-- A created record has the number given by the sequence. -/
theorem create_made {R : Type} {c : Coll R} {keys : List (Option Key)} {mk : Nat → R} {kv : Kv} {r : R} {kv' : Kv}
    (h : c.create keys mk kv = .ok (r, kv')) : ∃ id, id < 2 ^ 64 ∧ r = mk id := by
  unfold Coll.create at h
  split at h
  · cases h
  · split at h
    · cases h
    · next id kv1 e => cases h; exact ⟨id, nextSeq_ok_lt e, rfl⟩

theorem orgCreate_blind {now : Time} {b : Nat} {name : Str} : Blind Eq (orgCreate now b name) (orgCreate now b name) := by
  intro kv kv' h
  unfold orgCreate Call.then
  have h0 := create_open orgs_twin (keys := [some (.idx (.top .organizations) .name name)]) (mk := fun id =>
      { id := id, createdAt := now, createdBy := b, updatedAt := none, updatedBy := none, name := name, members := [(b, .owner)] }) kv kv' h
  have hm := fun r kv' => create_made (c := orgsC) (keys := [some (.idx (.top .organizations) .name name)]) (mk := fun id =>
      { id := id, createdAt := now, createdBy := b, updatedAt := none, updatedBy := none, name := name, members := [(b, .owner)] }) (kv := kv)
      (r := r) (kv' := kv')
  revert h0 hm
  generalize orgsC.create _ _ kv = x
  generalize orgsC.create _ _ kv' = y
  intro h0 hm
  cases h0 with
  | error e => exact .error e
  | @ok org _ _ _ e ht =>
    subst e
    obtain ⟨id, hid, e⟩ := hm _ _ rfl
    exact Blind.then (S := Eq) (addOrganization_blind (m := b) (o := org.id) (by rw [e]; exact hid) .owner) (fun _ _ _ => Blind.ret org) _ _ ht

theorem addMember_blind {o m : Nat} (ho : o < 2 ^ 64) {role : OrgRole} : Blind Eq (addMember o m role) (addMember o m role) :=
  Blind.then (T := Eq) (update_open orgs_twin) fun _ _ e => by subst e; exact Blind.then (addOrganization_blind ho role) fun _ _ _ => Blind.ret _

theorem removeMember_blind {o m : Nat} : Blind Eq (removeMember o m) (removeMember o m) :=
  Blind.then (T := Eq) (update_open orgs_twin) fun _ _ e => by subst e; exact Blind.then removeOrganization_blind fun _ _ _ => Blind.ret _

theorem changeMemberRole_blind {o m : Nat} {role : OrgRole} : Blind Eq (changeMemberRole o m role) (changeMemberRole o m role) :=
  Blind.then (T := Eq) (update_open orgs_twin) fun _ _ e => by subst e; exact Blind.then changeOrganizationRole_blind fun _ _ _ => Blind.ret _

theorem akinB_status {b b' : Backup} (h : AkinB b b') : b.status = b'.status := (congrArg Backup.status h.eq :)

theorem backupCreate_blind {now : Time} {r r' : Backup} (hs : r.status = r'.status)
    (h : ∀ id, id < 2 ^ 64 → AkinB { r with id := id, createdAt := now, updatedAt := none } { r' with id := id, createdAt := now, updatedAt := none }) :
    Blind AkinB (backupCreate now r) (backupCreate now r') := by
  intro kv kv' ht
  unfold backupCreate
  dsimp only
  by_cases hi : r'.status = .idle
  · rw [if_pos (hs.trans hi), if_pos hi]
    have h0 := backups_twin.list ht
    revert h0
    generalize backupsC.list kv = x
    generalize backupsC.list kv' = y
    intro h0
    cases h0 with
    | error e => exact .error e
    | @ok l l' hl =>
      dsimp only
      have : l.any (fun b => decide (b.status = .idle)) = l'.any (fun b => decide (b.status = .idle)) := by
        have := hl.map (f := Backup.status) (g := Backup.status) fun _ _ e => akinB_status e
        have h2 : ∀ l : List Backup, l.any (fun b => decide (b.status = .idle)) = (l.map Backup.status).any (fun s => decide (s = .idle)) := by
          intro l; rw [List.any_map]; rfl
        rw [h2, h2, this]
      rw [this]
      split
      · exact .error _
      · exact backups_twin.create _ h kv kv' ht
  · rw [if_neg fun e => hi (hs.symm.trans e), if_neg hi]
    exact backups_twin.create _ h kv kv' ht

theorem akinB_with {b b' : Backup} (h : AkinB b b') {st : BackupStatus} (hst : ∀ n, st = .inProgress n → n < 2 ^ 64) (t : Option Time) :
    AkinB { b with status := st, updatedAt := t } { b' with status := st, updatedAt := t } := by
  rcases h with rfl | ⟨h1, h2, h3⟩
  · exact .refl _
  · exact Or.inr ⟨⟨h1.id, hst⟩, ⟨h2.id, hst⟩, congrArg (fun b : Backup => { b with status := st, updatedAt := t }) h3⟩

theorem backupStatus_blind {id : Nat} {now : Time} {st : BackupStatus} (hst : ∀ n, st = .inProgress n → n < 2 ^ 64) :
    Blind AkinB (backupUpdateStatus id now st) (backupUpdateStatus id now st) :=
  backups_twin.update id (fun _ _ _ => rfl) fun _ _ h => .ok (akinB_with h hst _)

/-! ## Custom events -/

theorem CollTwin.getById_eq {R : Type} {c : Coll R} (C : CollTwin c Eq) {kv kv' : Kv} (h : Twin kv kv') (id : Nat) :
    c.getById id kv = c.getById id kv' := (C.getById h id).eq

theorem CollTwin.getBy_eq {R : Type} {c : Coll R} (C : CollTwin c Eq) {kv kv' : Kv} (h : Twin kv kv') (ix : Ix) (s : Str) :
    c.getBy ix s kv = c.getBy ix s kv' := (C.getBy h ix s).eq

theorem CollTwin.list_eq {R : Type} {c : Coll R} (hc : OpenPrefix c.ns.listPrefix) {kv kv' : Kv} (h : Twin kv kv') : c.list kv = c.list kv' :=
  h.readAll_open hc

theorem validateEvents_eq {p max : Nat} {kv kv' : Kv} (h : Twin kv kv') : ∀ fuel level refs ids,
    validateEvents p max kv fuel level refs ids = validateEvents p max kv' fuel level refs ids := by
  intro fuel
  induction fuel with
  | zero => intros; rfl
  | succ f ih =>
    intro level refs ids
    unfold validateEvents
    split
    · rfl
    · congr 1
      funext ids r
      cases r with
      | regularName n => dsimp only; rw [(events_twin p).getBy_eq h]
      | regular id => dsimp only; rw [(events_twin p).getById_eq h]
      | custom id => dsimp only; rw [(custom_twin p).getById_eq h]; simp only [ih]

theorem validate_eq {p : Nat} {kv kv' : Kv} (h : Twin kv kv') (evs : List CEvent) (ids : List Nat) : validate p kv evs ids = validate p kv' evs ids :=
  validateEvents_eq h _ _ _ _

theorem customCreate_blind {p : Nat} {now : Time} {r : CustomEvent} : Blind Eq (customCreate p now r) (customCreate p now r) := by
  intro kv kv' h
  unfold customCreate
  split
  · exact .error _
  · rw [validate_eq h]
    split
    · exact .error _
    · exact create_open (custom_twin p) _ _ h

theorem customUpdate_blind {p id : Nat} {now : Time} {q : CustomUpd} : Blind Eq (customUpdate p id now q) (customUpdate p id now q) := by
  intro kv kv' h
  unfold customUpdate
  have : q.check p now kv = q.check p now kv' := by
    funext r
    unfold CustomUpd.check
    split
    · rfl
    · rw [validate_eq h]
  rw [this]
  exact update_open (custom_twin p) _ _ h

/-! ## Dictionaries, events, groups, sessions, bookmarks, properties -/

theorem dictGetOrCreate_blind {p : Nat} {t d v : Str} : Blind Eq (dictGetOrCreate p t d v) (dictGetOrCreate p t d v) := by
  intro kv kv' h
  unfold dictGetOrCreate
  rw [h.getK_open (open_dictVal _ _ _ _)]
  split
  · split
    · exact .error _
    · exact .ok rfl h
  · have := nextSeq_blind (open_dictSeq p t d) kv kv' h
    revert this
    generalize nextSeq _ kv = x
    generalize nextSeq _ kv' = y
    intro this
    cases this with
    | error e => exact .error e
    | ok e ht => subst e; exact .ok rfl ((ht.putK _ _).putK _ _)

theorem dictCreateKey_blind {p n : Nat} {t d v : Str} : Blind Eq (dictCreateKey p t d n v) (dictCreateKey p t d n v) :=
  fun _ _ h => .ok rfl ((h.putK _ _).putK _ _)

theorem createEvent_both {p : Nat} {now : Time} {r : Event} {kv kv' : Kv} (h : Twin kv kv') :
    Both Eq (createEvent p now r kv) (createEvent p now r kv') := by
  unfold createEvent
  have := create_open (events_twin p) (keys := [some (.idx (.proj p .events) .name r.name), r.displayName.map (.idx (.proj p .events) .displayName)])
    (mk := eventMk p now r) kv kv' h
  revert this
  unfold eventCreate
  generalize (eventsC p).create _ _ kv = x
  generalize (eventsC p).create _ _ kv' = y
  intro this
  cases this with
  | error e => exact ⟨.error e, h⟩
  | @ok ev _ _ _ e ht =>
    subst e
    dsimp only
    have := dictGetOrCreate_blind (p := p) (t := kEvents) (d := kEvent) (v := ev.name) _ _ ht
    revert this
    generalize dictGetOrCreate p kEvents kEvent _ _ = x
    generalize dictGetOrCreate p kEvents kEvent _ _ = y
    intro this
    cases this with
    | error e => exact ⟨.error e, ht⟩
    | ok e ht => exact ⟨.ok rfl, ht⟩

theorem getOrCreateEvent_both {p : Nat} {now : Time} {r : Event} {kv kv' : Kv} (h : Twin kv kv') :
    Both Eq (getOrCreateEvent p now r kv) (getOrCreateEvent p now r kv') := by
  unfold getOrCreateEvent
  rw [(events_twin p).getBy_eq h]
  split
  · exact ⟨.ok rfl, h⟩
  · exact createEvent_both h
  · exact ⟨.error _, h⟩

theorem anonymousId_blind {p g : Nat} {s : Str} : Blind Eq (anonymousId p g s) (anonymousId p g s) := by
  intro kv kv' h
  unfold anonymousId
  rw [h.getK_open (open_anon _ _ _)]
  split
  · split
    · exact .error _
    · exact .ok rfl h
  · have := nextSeq_blind (open_groupSeq p g) kv kv' h
    revert this
    generalize nextSeq _ kv = x
    generalize nextSeq _ kv' = y
    intro this
    cases this with
    | error e => exact .error e
    | ok e ht => subst e; exact .ok rfl (ht.putK _ _)

/-- The end common to the calls that make the record of a group. -/
theorem newGroup_alike {p g : Nat} {s : Str} {vs : List PropVal} {kv kv' : Kv} (h : Twin kv kv') :
    Alike Eq (match nextSeq (.groupSeq p g) kv with
      | .error e => .error e
      | .ok (id, kv) => match (⟨id, vs⟩ : GroupValues).enc with
        | none => .error .panic
        | some b => .ok ((⟨id, vs⟩ : GroupValues), putK kv (.real p g s) b))
      (match nextSeq (.groupSeq p g) kv' with
      | .error e => .error e
      | .ok (id, kv) => match (⟨id, vs⟩ : GroupValues).enc with
        | none => .error .panic
        | some b => .ok ((⟨id, vs⟩ : GroupValues), putK kv (.real p g s) b)) := by
  have := nextSeq_blind (open_groupSeq p g) kv kv' h
  revert this
  generalize nextSeq _ kv = x
  generalize nextSeq _ kv' = y
  intro this
  cases this with
  | error e => exact .error e
  | ok e ht =>
    subst e
    dsimp only
    split
    · exact .error _
    · exact .ok rfl (ht.putK _ _)

theorem groupGetOrCreate_blind {p g : Nat} {s : Str} {vs : List PropVal} : Blind Eq (groupGetOrCreate p g s vs) (groupGetOrCreate p g s vs) := by
  intro kv kv' h
  unfold groupGetOrCreate
  rw [h.getK_open (open_real _ _ _)]
  split
  · split
    · exact .error _
    · exact .ok rfl h
  · exact newGroup_alike h

theorem groupCreateOrUpdate_blind {p g : Nat} {s : Str} {vs : List PropVal} :
    Blind Eq (groupCreateOrUpdate p g s vs) (groupCreateOrUpdate p g s vs) := by
  intro kv kv' h
  unfold groupCreateOrUpdate
  rw [h.getK_open (open_real _ _ _)]
  split
  · split
    · exact .error _
    · dsimp only
      split
      · exact .error _
      · exact .ok rfl (h.putK _ _)
  · exact newGroup_alike h

theorem mergeWithAnonymous_both {p g : Nat} {a s : Str} {vs : List PropVal} {kv kv' : Kv} (h : Twin kv kv') :
    Both Eq (mergeWithAnonymous p g a s vs kv) (mergeWithAnonymous p g a s vs kv') := by
  unfold mergeWithAnonymous
  rw [h.getK_open (open_real _ _ _)]
  split
  · split
    · exact ⟨.error _, h⟩
    · exact ⟨.ok rfl, h⟩
  · have := (anonymousId_blind (p := p) (g := g) (s := a)).run h
    revert this
    generalize runCall _ kv = x
    generalize runCall _ kv' = y
    intro this
    obtain ⟨x1, x2⟩ := x
    obtain ⟨y1, y2⟩ := y
    obtain ⟨h1, h2⟩ := this
    cases h1 with
    | error e => exact ⟨.error e, h2⟩
    | ok e =>
      subst e
      dsimp only
      split
      · exact ⟨.error _, h2⟩
      · exact ⟨.ok rfl, Twin.putK (Twin.putK h2 _ _) _ _⟩

theorem getOrCreateGroup_blind {p : Nat} {n d : Str} : Blind Eq (getOrCreateGroup p n d) (getOrCreateGroup p n d) := by
  intro kv kv' h
  unfold getOrCreateGroup
  rw [h.getK_open (open_groupName _ _)]
  split
  · split
    · exact .error _
    · exact .ok rfl h
  · have := nextZeroSeq_blind (open_groupNamesSeq p) kv kv' h
    revert this
    generalize nextZeroSeq _ kv = x
    generalize nextZeroSeq _ kv' = y
    intro this
    cases this with
    | error e => exact .error e
    | ok e ht =>
      subst e
      dsimp only
      split
      · exact .error _
      · exact .ok rfl (ht.putK _ _)

theorem setCurrentTime_blind {p u : Nat} {t : Time} : Blind Eq (setCurrentTime p u t) (setCurrentTime p u t) := by
  intro kv kv' h
  unfold setCurrentTime
  rw [h.getK_open (open_session _ _)]
  split
  · exact .ok rfl (h.putK _ _)
  · split
    · exact .error _
    · exact .ok rfl (h.putK _ _)

theorem Twin.deleteSessions {kv kv' : Kv} (h : Twin kv kv') (p : Nat) (us : List Nat) : Twin (deleteSessions p us kv) (deleteSessions p us kv') := by
  unfold Meta.deleteSessions
  induction us generalizing kv kv' with
  | nil => exact h
  | cons u us ih => exact ih (h.delK _)

theorem session_open (p : Nat) : OpenPrefix (sessionPrefix p) := projPath_open _ _

theorem clearProject_blind {p : Nat} : Blind Eq (clearProject p) (clearProject p) := by
  intro kv kv' h
  unfold clearProject
  rw [h.readAll_open (session_open p)]
  split
  · exact .error _
  · exact .ok rfl (h.deleteSessions _ _)

theorem checkForDeletion_blind {p : Nat} {cb : Session → Except Err Bool} : Blind Eq (checkForDeletion p cb) (checkForDeletion p cb) := by
  intro kv kv' h
  unfold checkForDeletion
  rw [h.readAll_open (session_open p)]
  split
  · exact .error _
  · split
    · exact .error _
    · exact .ok rfl (h.deleteSessions _ _)

theorem bookmarkCreate_blind {bc : Bincode Q} {p : Nat} {r : Bookmark Q} : Blind Eq (bookmarkCreate bc p r) (bookmarkCreate bc p r) :=
  fun _ _ h => .ok rfl (h.putK _ _)

theorem bookmarkGet_eq {bc : Bincode Q} {p a : Nat} {id : Str} {kv kv' : Kv} (h : Twin kv kv') : bookmarkGet bc p a id kv = bookmarkGet bc p a id kv' := by
  unfold bookmarkGet; rw [h.getK_open (open_bookmark _ _ _)]

theorem bookmarkDelete_blind {bc : Bincode Q} {p a : Nat} {id : Str} : Blind Eq (bookmarkDelete bc p a id) (bookmarkDelete bc p a id) := by
  intro kv kv' h
  unfold bookmarkDelete
  rw [h.getK_open (open_bookmark _ _ _)]
  split
  · exact .error _
  · split
    · exact .error _
    · exact .ok rfl (h.delK _)

theorem propCreate_blind {sys : Str → Str} {p : Nat} {ty : PropType} {now : Time} {r : Property} {f : Except Err Unit} :
    Blind Eq (propCreate sys p ty now r f) (propCreate sys p ty now r f) := by
  intro kv kv' h
  unfold propCreate
  dsimp only
  rw [h.clashInsert]
  split
  · exact .error _
  · have := nextSeq_blind (open_seq (.proj p ty.coll)) kv kv' h
    revert this
    generalize nextSeq _ kv = x
    generalize nextSeq _ kv' = y
    intro this
    cases this with
    | error e => exact .error e
    | ok e ht =>
      subst e
      dsimp only
      split
      · exact .error _
      · next sh _ =>
        have := nextZeroSeq_blind (open_orderSeq p sh) _ _ ht
        revert this
        generalize nextZeroSeq _ _ = x
        generalize nextZeroSeq _ _ = y
        intro this
        cases this with
        | error e => exact .error e
        | ok e ht =>
          subst e
          dsimp only
          split
          · exact .error _
          · split
            · exact .error _
            · exact .ok rfl (Twin.insertIndex (ht.putK _ _) _ _)

theorem propGetOrCreate_blind {sys : Str → Str} {p : Nat} {ty : PropType} {now : Time} {r : Property} {f : Except Err Unit} :
    Blind Eq (propGetOrCreate sys p ty now r f) (propGetOrCreate sys p ty now r f) := by
  intro kv kv' h
  unfold propGetOrCreate
  rw [(props_twin p ty).getBy_eq h]
  split
  · exact .ok rfl h
  · exact propCreate_blind kv kv' h
  · exact .error _

/-! ## All requests -/

theorem Account.mask_refl {r : Account} : AkinA r r := .refl r

/-- Requests on twins leave twins. -/
theorem exec_twin (E : Env Q) {r : Req Q} (hr : r.Ok) {kv kv' : Kv} (h : Twin kv kv') : Twin (r.exec E kv) (r.exec E kv') := by
  cases r with
  | teamCreate o now b n => exact ((create_open (teams_twin o)).run h).2
  | teamUpdate o id now b n => exact ((update_open (teams_twin o)).run h).2
  | teamDelete o id => exact (((teams_twin o).delete id).run h).2
  | eventCreate p now r => exact (createEvent_both h).2
  | eventGetOrCreate p now r => exact (getOrCreateEvent_both h).2
  | eventUpdate p id now q => exact ((update_open (events_twin p)).run h).2
  | eventAttach w p id x => exact ((update_open (events_twin p)).run h).2
  | eventDetach w p id x => exact ((update_open (events_twin p)).run h).2
  | eventTryAttach p id ps => exact ((update_open (events_twin p)).run h).2
  | eventDelete p id => exact (((events_twin p).delete id).run h).2
  | eventRecord p => exact ((nextSeq_blind (open_recSeq p)).run h).2
  | accountCreate now r => exact ((accountCreate_blind rfl fun _ => .refl _).run h).2
  | accountUpdate id now q => exact ((accountUpdate_blind (id := id) (now := now) (q := q) hr).run h).2
  | accountDelete id => exact ((accounts_twin.delete id).run h).2
  | orgCreate now b n => exact (orgCreate_blind.run h).2
  | orgUpdate id now b n => exact ((update_open orgs_twin).run h).2
  | orgDelete id => exact ((orgs_twin.delete id).run h).2
  | addMember o m role => exact ((addMember_blind hr.1).run h).2
  | removeMember o m => exact (removeMember_blind.run h).2
  | changeMemberRole o m role => exact (changeMemberRole_blind.run h).2
  | projectCreate now r => exact ((create_open projects_twin).run h).2
  | projectUpdate id now q => exact ((update_open projects_twin).run h).2
  | projectIncrement id => exact ((update_open projects_twin).run h).2
  | projectDelete id => exact ((projects_twin.delete id).run h).2
  | customCreate p now r => exact (customCreate_blind.run h).2
  | customUpdate p id now q => exact (customUpdate_blind.run h).2
  | customDelete p id => exact (((custom_twin p).delete id).run h).2
  | dashboardCreate p now r => exact ((create_open (dashboards_twin p)).run h).2
  | dashboardUpdate p id now q => exact ((update_open (dashboards_twin p)).run h).2
  | dashboardDelete p id => exact (((dashboards_twin p).delete id).run h).2
  | reportCreate p now r => exact ((create_open (reports_twin E.bc p)).run h).2
  | reportUpdate p id now q => exact ((update_open (reports_twin E.bc p)).run h).2
  | reportDelete p id => exact (((reports_twin E.bc p).delete id).run h).2
  | backupCreate now r => exact ((backupCreate_blind rfl fun _ _ => .refl _).run h).2
  | backupStatus id now st => exact ((backupStatus_blind (id := id) (now := now) (st := st) hr).run h).2
  | backupDelete id => exact ((backups_twin.delete id).run h).2
  | dictGet p t d v => exact (dictGetOrCreate_blind.run h).2
  | dictPut p t d n v => exact (dictCreateKey_blind.run h).2
  | anonymous p g s => exact (anonymousId_blind.run h).2
  | groupGet p g s vs => exact (groupGetOrCreate_blind.run h).2
  | groupUpdate p g s vs => exact (groupCreateOrUpdate_blind.run h).2
  | groupMerge p g a s vs => exact (mergeWithAnonymous_both h).2
  | groupName p n d => exact (getOrCreateGroup_blind.run h).2
  | groupRecord p g => exact ((nextSeq_blind (open_groupRecSeq p g)).run h).2
  | sessionSet p u t => exact (setCurrentTime_blind.run h).2
  | sessionClear p => exact (clearProject_blind.run h).2
  | sessionCheck p cb => exact (checkForDeletion_blind.run h).2
  | bookmarkCreate p r => exact (bookmarkCreate_blind.run h).2
  | bookmarkDelete p a id => exact (bookmarkDelete_blind.run h).2
  | propCreate p ty now r f => exact (propCreate_blind.run h).2
  | propGetOrCreate p ty now r f => exact (propGetOrCreate_blind.run h).2
  | propUpdate p ty id now q => exact ((update_open (props_twin p ty)).run h).2
  | propDelete p ty id => exact (((props_twin p ty).delete id).run h).2
  | settings s => exact ((saveSettings_blind (.refl s)).run h).2

end OptiPrism.Meta
