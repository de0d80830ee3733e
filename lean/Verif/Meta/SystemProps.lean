import Verif.Meta.SystemReach

/-!
# C27 (and C25) for the modules, in any history of requests to the whole store

`Hist E n kv`: the store `kv` is reached from the empty one by `n` requests to any modules. The bound on
`n` keeps the 64-bit identifier sequences from overflowing.
-/

namespace OptiPrism.Meta

variable {R Q : Type}

/-- Finding by a unique field gives exactly the live record with that value, and live records differ in
their unique fields. -/
def IndexFaithful (c : Coll R) (kv : Kv) : Prop :=
  ∀ i ∈ c.ixs,
    (∀ x r, c.getBy i.1 x kv = .ok r ↔ (∃ id, c.getById id kv = .ok r) ∧ i.2 r = some x) ∧
    ∀ id id' r r' x, c.getById id kv = .ok r → c.getById id' kv = .ok r' → i.2 r = some x → i.2 r' = some x → id = id'

theorem IndexFaithful.of {c : Coll R} {norm : R → R} {Valid : R → Prop} (ok : c.Ok norm Valid) {kv : Kv} (h : Reach c Valid kv) :
    IndexFaithful c kv :=
  fun _ hi => ⟨fun x r => C27_lookup ok h hi x r, fun _ _ _ _ _ h1 h2 h3 h4 => C27_distinct ok h hi h1 h2 h3 h4⟩

/-- C27: in every history, for every module with unique fields but projects. -/
theorem C27_indexes_faithful {E : Env Q} {n : Nat} {kv : Kv} (h : Hist E n kv) (hn : n < 2 ^ 62) :
    (∀ o, IndexFaithful (teamsC o) kv) ∧ (∀ p, IndexFaithful (eventsC p) kv) ∧ IndexFaithful accountsC kv ∧
    IndexFaithful orgsC kv ∧ (∀ p, IndexFaithful (customC p) kv) ∧ ∀ p ty, IndexFaithful (propsC p ty) kv :=
  ⟨fun o => .of (teams_ok o) (hist_teams h hn o), fun p => .of (events_ok p) (hist_events h hn p),
   .of accounts_ok (hist_accounts h hn), .of orgs_ok (hist_orgs h hn), fun p => .of (custom_ok p) (hist_customs h hn p),
   fun p ty => .of (props_ok p ty) (hist_props h hn p ty)⟩

/-- C27: after a deletion the record and all its unique values are gone, for the same modules. -/
def DeleteFrees (c : Coll R) (kv : Kv) : Prop :=
  ∀ id r, c.getById id kv = .ok r → ∃ kv', c.delete id kv = .ok (r, kv') ∧ c.getById id kv' = .error .notFound ∧
    ∀ i ∈ c.ixs, ∀ x, i.2 r = some x → c.getBy i.1 x kv' = .error .notFound

theorem C27_deletes_free {E : Env Q} {n : Nat} {kv : Kv} (h : Hist E n kv) (hn : n < 2 ^ 62) :
    (∀ o, DeleteFrees (teamsC o) kv) ∧ (∀ p, DeleteFrees (eventsC p) kv) ∧ DeleteFrees accountsC kv ∧
    DeleteFrees orgsC kv ∧ (∀ p, DeleteFrees (customC p) kv) ∧ ∀ p ty, DeleteFrees (propsC p ty) kv :=
  ⟨fun o _ _ hr => C27_delete_frees (teams_ok o) (hist_teams h hn o) hr,
   fun p _ _ hr => C27_delete_frees (events_ok p) (hist_events h hn p) hr,
   fun _ _ hr => C27_delete_frees accounts_ok (hist_accounts h hn) hr,
   fun _ _ hr => C27_delete_frees orgs_ok (hist_orgs h hn) hr,
   fun p _ _ hr => C27_delete_frees (custom_ok p) (hist_customs h hn p) hr,
   fun p ty _ _ hr => C27_delete_frees (props_ok p ty) (hist_props h hn p ty) hr⟩

/-- C27 for teams: a create is refused exactly if a live team of the organization has the name; otherwise
it succeeds. -/
theorem C27_team_create {E : Env Q} {n : Nat} {kv : Kv} (h : Hist E n kv) (hn : n < 2 ^ 62) {o : Nat} {now : Time} {b : Nat} {name : Str}
    (ho : o < 2 ^ 64) (hb : b < 2 ^ 64) :
    ((runCall (teamCreate o now b name) kv).1 = .error .alreadyExists ↔ ∃ id r, (teamsC o).getById id kv = .ok r ∧ r.name = name) ∧
    ((runCall (teamCreate o now b name) kv).1 ≠ .error .alreadyExists → ∃ r, (runCall (teamCreate o now b name) kv).1 = .ok r) := by
  have := C27_create (teams_ok o) (hist_teams h hn o) (teamCreate_ok (now := now) (name := name) ho hb)
  refine ⟨this.1.trans ?_, this.2⟩
  simp only [teamsC, List.mem_singleton, exists_eq_left, Option.some.injEq]
  constructor
  · rintro ⟨x, id, r, rfl, h1, h2⟩; exact ⟨id, r, h1, h2⟩
  · rintro ⟨id, r, h1, h2⟩; exact ⟨name, id, r, rfl, h1, h2⟩

/-- C27 for accounts: a create is refused exactly if a live account has the e-mail address. -/
theorem C27_account_create {E : Env Q} {n : Nat} {kv : Kv} (h : Hist E n kv) (hn : n < 2 ^ 62) {now : Time} {req : Account}
    (hr : (Req.accountCreate (Q := Q) now req).Ok) :
    ((runCall (accountCreate now req) kv).1 = .error .alreadyExists ↔ ∃ id r, accountsC.getById id kv = .ok r ∧ r.email = req.email) ∧
    ((runCall (accountCreate now req) kv).1 ≠ .error .alreadyExists → ∃ r, (runCall (accountCreate now req) kv).1 = .ok r) := by
  have := C27_create accounts_ok (hist_accounts h hn) (accountCreate_ok hr)
  refine ⟨this.1.trans ?_, this.2⟩
  simp only [accountsC, List.mem_singleton, exists_eq_left, Option.some.injEq]
  constructor
  · rintro ⟨x, id, r, e, h1, h2⟩; exact ⟨id, r, h1, h2.trans e.symm⟩
  · rintro ⟨id, r, h1, h2⟩; exact ⟨req.email, id, r, rfl, h1, h2⟩

/-- C27 for events: a create is refused exactly if a live event of the project has the name or the display
name. -/
theorem C27_event_create {E : Env Q} {n : Nat} {kv : Kv} (h : Hist E n kv) (hn : n < 2 ^ 62) {p : Nat} {now : Time} {req : Event}
    (hp : p < 2 ^ 64) (hb : req.createdBy < 2 ^ 64) :
    ((runCall (eventCreate p now req) kv).1 = .error .alreadyExists ↔ ∃ id r, (eventsC p).getById id kv = .ok r ∧
      (r.name = req.name ∨ ∃ d, req.displayName = some d ∧ r.displayName = some d)) ∧
    ((runCall (eventCreate p now req) kv).1 ≠ .error .alreadyExists → ∃ r, (runCall (eventCreate p now req) kv).1 = .ok r) := by
  have := C27_create (events_ok p) (hist_events h hn p) (eventCreate_ok (now := now) hp hb)
  refine ⟨this.1.trans ?_, this.2⟩
  constructor
  · rintro ⟨i, hi, x, id, r, e, h1, h2⟩
    simp only [eventsC, List.mem_cons, List.not_mem_nil, or_false] at hi
    rcases hi with rfl | rfl
    · exact ⟨id, r, h1, .inl (Option.some.inj (h2.trans e.symm))⟩
    · exact ⟨id, r, h1, .inr ⟨x, e, h2⟩⟩
  · rintro ⟨id, r, h1, h2 | ⟨d, h2, h3⟩⟩
    · exact ⟨_, List.mem_cons_self .., req.name, id, r, rfl, h1, congrArg some h2⟩
    · exact ⟨_, List.mem_cons_of_mem _ (List.mem_cons_self ..), d, id, r, h2, h1, h3⟩

/-- C27 for events: an update of a live event is refused exactly if a different live event of the project
has one of the resulting names; otherwise it answers the updated event. -/
theorem C27_event_update {E : Env Q} {n : Nat} {kv : Kv} (h : Hist E n kv) (hn : n < 2 ^ 62) {p id : Nat} {now : Time} {q : EventUpd}
    (hq : q.updatedBy < 2 ^ 64) {r : Event} (hr : (eventsC p).getById id kv = .ok r) :
    ((runCall (eventUpdate p id now q) kv).1 = .error .alreadyExists ↔ ∃ id' r', id' ≠ id ∧ (eventsC p).getById id' kv = .ok r' ∧
      (r'.name = q.name.getD r.name ∨ ∃ d, q.displayName.getD r.displayName = some d ∧ r'.displayName = some d)) ∧
    ((runCall (eventUpdate p id now q) kv).1 ≠ .error .alreadyExists → (runCall (eventUpdate p id now q) kv).1 = .ok (q.apply now r)) := by
  have := C27_update (events_ok p) (hist_events h hn p) (eventUpdate_ok (id := id) (now := now) hq) hr rfl
  refine ⟨this.1.trans ?_, this.2⟩
  constructor
  · rintro ⟨i, hi, x, id', r', hne, e, h1, h2⟩
    simp only [eventsC, List.mem_cons, List.not_mem_nil, or_false] at hi
    rcases hi with rfl | rfl
    · exact ⟨id', r', hne, h1, .inl (Option.some.inj (h2.trans e.symm))⟩
    · exact ⟨id', r', hne, h1, .inr ⟨x, e, h2⟩⟩
  · rintro ⟨id', r', hne, h1, h2 | ⟨d, h2, h3⟩⟩
    · exact ⟨_, List.mem_cons_self .., _, id', r', hne, rfl, h1, congrArg some h2⟩
    · exact ⟨_, List.mem_cons_of_mem _ (List.mem_cons_self ..), d, id', r', hne, h2, h1, h3⟩

/-- C27 for events: after a rename the old name is free and the new one finds the event. -/
theorem C27_event_rename {E : Env Q} {n : Nat} {kv : Kv} (h : Hist E n kv) (hn : n < 2 ^ 62) {p id : Nat} {now : Time} {q : EventUpd}
    (hq : q.updatedBy < 2 ^ 64) {r r1 : Event} (hr : (eventsC p).getById id kv = .ok r) {kv' : Kv}
    (hu : eventUpdate p id now q kv = .ok (r1, kv')) (hne : r1.name ≠ r.name) :
    (eventsC p).getBy .name r.name kv' = .error .notFound ∧ (eventsC p).getBy .name r1.name kv' = .ok r1.norm :=
  C27_rename_frees (events_ok p) (hist_events h hn p) (eventUpdate_ok (now := now) hq) hr hu
    (i := (.name, fun e => some e.name)) (by simp [eventsC]) rfl rfl hne

/-- A concrete history: two teams; a third create with the name of the first is refused. -/
def exTeams : List (Req Unit) := [.teamCreate 1 ⟨0, 0⟩ 1 "a".toList, .teamCreate 1 ⟨5, 0⟩ 1 "b".toList]

def exEnv : Env Unit := ⟨⟨fun _ => [], fun _ => some (), fun _ => rfl⟩, id⟩

example : Hist exEnv 2 (runReqs exEnv exTeams []) ∧
    ((teamsC 1).getBy .name "b".toList (runReqs exEnv exTeams [])).toOption.map (·.id) = some 2 ∧
    (match (runCall (teamCreate 1 ⟨9, 0⟩ 1 "a".toList) (runReqs exEnv exTeams [])).1 with
      | .error e => some e | .ok _ => none) = some .alreadyExists := by
  refine ⟨Hist.of_run exEnv exTeams ?_, by decide +kernel, by decide +kernel⟩
  intro r hr
  simp only [exTeams, List.mem_cons, List.not_mem_nil, or_false] at hr
  rcases hr with rfl | rfl <;> exact ⟨by decide, by decide⟩

end OptiPrism.Meta
