import Verif.Meta.System

/-!
# Every module is a collection in every history

For each collection: whatever the history of requests to all modules, its part of the store is one that
the generic theorems of `CollProps` speak about (`Reach`).
-/

namespace OptiPrism.Meta

variable {R Q : Type}

theorem exec_agree (E : Env Q) {r : Req Q} (h : r.Ok) {ns : Ns} (hm : Mod.coll ns ∉ r.mods) (kv : Kv) : AgreeOn ns kv (r.exec E kv) :=
  Same.agree ((exec_steps E r h kv).same fun _ hk e => hm (e ▸ hk))

/-- At most `n` steps. -/
def ReachesLe (c : Coll R) (Valid : R → Prop) (n : Nat) (kv : Kv) : Prop := ∃ m ≤ n, Reaches c Valid m kv

theorem ReachesLe.one {c : Coll R} {Valid : R → Prop} {n : Nat} {kv : Kv} (h : Reaches c Valid (n + 1) kv) : ReachesLe c Valid (n + 2) kv :=
  ⟨n + 1, by omega, h⟩

theorem hist_reaches (E : Env Q) {c : Coll R} {Valid : R → Prop}
    (step : ∀ (r : Req Q), r.Ok → Mod.coll c.ns ∈ r.mods → ∀ n kv, Reaches c Valid n kv → ReachesLe c Valid (n + 2) (r.exec E kv))
    {n : Nat} {kv : Kv} (h : Hist E n kv) : ReachesLe c Valid (2 * n) kv := by
  induction h with
  | start => exact ⟨0, Nat.le_refl _, .start⟩
  | @step n kv r _ hr ih =>
    obtain ⟨m, hm, h⟩ := ih
    by_cases hmod : Mod.coll c.ns ∈ r.mods
    · obtain ⟨m', hm', h'⟩ := step r hr hmod m kv h
      exact ⟨m', by omega, h'⟩
    · exact ⟨m + 1, by omega, h.env (exec_agree E hr hmod kv)⟩

theorem hist_reach (E : Env Q) {c : Coll R} {Valid : R → Prop}
    (step : ∀ (r : Req Q), r.Ok → Mod.coll c.ns ∈ r.mods → ∀ n kv, Reaches c Valid n kv → ReachesLe c Valid (n + 2) (r.exec E kv))
    {n : Nat} {kv : Kv} (h : Hist E n kv) (hn : n < 2 ^ 62) : Reach c Valid kv := by
  obtain ⟨m, hm, h⟩ := hist_reaches E step h
  exact h.reach (by omega)

/-- Identifiers count the steps. -/
theorem ReachesLe.last {c : Coll R} {norm : R → R} {Valid : R → Prop} (ok : c.Ok norm Valid) {n : Nat} {kv : Kv} (h : ReachesLe c Valid n kv) (hn : n < 2 ^ 63) :
    lastId kv c.ns ≤ 2 * n := by
  obtain ⟨m, hm, h⟩ := h
  obtain ⟨ops, h1, h2, rfl⟩ := h.reach'
  have hz : lastId [] c.ns = 0 := by simp [lastId, getK, Kv.get]
  have := runOps_last ok ops [] (empty_inv c Valid) h1 (by rw [hz]; omega)
  omega

/-- Two calls in one transaction: nothing, or both. -/
theorem then_run {α β : Type} (a : Call α) (b : α → Call β) (kv : Kv) :
    (runCall (Call.then a fun x => Call.then (b x) fun _ => Call.ret x) kv).2 = kv ∨
    ∃ x kv1 y kv2, a kv = .ok (x, kv1) ∧ b x kv1 = .ok (y, kv2) ∧
      (runCall (Call.then a fun x => Call.then (b x) fun _ => Call.ret x) kv).2 = kv2 := by
  unfold runCall Call.then
  cases ha : a kv with
  | error e => exact .inl rfl
  | ok v =>
    obtain ⟨x, kv1⟩ := v
    dsimp only
    cases hb : b x kv1 with
    | error e => exact .inl rfl
    | ok w =>
      obtain ⟨y, kv2⟩ := w
      exact .inr ⟨x, kv1, y, kv2, rfl, hb, rfl⟩

theorem run_ok {α : Type} {c : Call α} {kv : Kv} {a : α} {kv' : Kv} (h : c kv = .ok (a, kv')) : (runCall c kv).2 = kv' := by
  rw [runCall, h]

theorem Reaches.ok {α : Type} {c : Coll R} {Valid : R → Prop} {n : Nat} {call : Call α} {kv kv' : Kv} {a : α}
    (h : Reaches c Valid n (runCall call kv).2) (e : call kv = .ok (a, kv')) : Reaches c Valid n kv' := by
  rwa [run_ok e] at h

theorem ReachesLe.of_eq {c : Coll R} {Valid : R → Prop} {n m : Nat} {kv kv' : Kv} (e : kv = kv') (h : Reaches c Valid n kv')
    (hle : n ≤ m) : ReachesLe c Valid m kv := ⟨n, hle, e.symm ▸ h⟩

theorem optOk_none : OptOk none := fun _ h => by cases h
theorem optOk_some {n : Nat} (h : n < 2 ^ 64) : OptOk (some n) := fun _ e => by cases e; exact h

/-- An update that touches no index. -/
theorem noix_ok {c : Coll R} {Valid : R → Prop} {id : Nat} {f : R → Except Err R} (t : R → R) (h1 : ∀ r r', f r = .ok r' → r' = t r)
    (h2 : ∀ r, c.id (t r) = c.id r) (h3 : ∀ r, Valid r → Valid (t r)) (h4 : ∀ r, ∀ i ∈ c.ixs, i.2 (t r) = i.2 r) :
    (Op.update id (fun _ => []) f t).Ok c Valid :=
  ⟨h1, h2, h3, [], by simp, by simp, fun _ => rfl, fun r i hi _ => h4 r i hi⟩

theorem getD_ok {o : Option Nat} (h : ∀ n, o = some n → n < 2 ^ 64) {d : Nat} (hd : d < 2 ^ 64) : o.getD d < 2 ^ 64 := by
  cases o with
  | none => exact hd
  | some n => exact h n rfl

/-! ## Teams -/

theorem teamCreate_ok {o : Nat} {now : Time} {b : Nat} {name : Str} (ho : o < 2 ^ 64) (hb : b < 2 ^ 64) :
    (Op.create [some (Key.idx (.teams o) .name name)] fun id =>
      ({ id := id, createdAt := now, createdBy := b, updatedAt := none, updatedBy := none, orgId := o, name := name } : Team)).Ok
      (teamsC o) Team.Valid :=
  ⟨fun _ => rfl, fun _ => rfl, fun id hid => ⟨⟨hid, hb, optOk_none⟩, ho⟩⟩

theorem hist_teams {E : Env Q} {n : Nat} {kv : Kv} (h : Hist E n kv) (hn : n < 2 ^ 62) (o : Nat) :
    Reach (teamsC o) Team.Valid kv := by
  refine hist_reach E ?_ h hn
  intro r hr hm n kv hk
  cases r <;> simp only [Req.mods, teamsC, List.mem_cons, List.not_mem_nil, or_false, Mod.coll.injEq, reduceCtorEq, Ns.teams.injEq, or_self] at hm
  case teamCreate o' now b name => subst hm; exact .one (hk.create (teamCreate_ok hr.1 hr.2))
  case teamUpdate o' id now b name =>
    subst hm
    refine .one (hk.update (fun r => { r with updatedAt := some now, updatedBy := some b, name := name.getD r.name }) ?_)
    refine ⟨fun r r' e => by injection e with e; exact e.symm, fun _ => rfl, fun r h => ⟨⟨h.head.id, h.head.createdBy, optOk_some hr⟩, h.org⟩, ?_⟩
    cases name with
    | none => exact ⟨[], by simp, by simp, fun _ => rfl, fun r i hi _ => by simp [teamsC] at hi; subst hi; rfl⟩
    | some x => exact ⟨(teamsC o).ixs, fun _ h => h, by simp [teamsC], fun _ => rfl, fun r i hi hn => absurd hi hn⟩
  case teamDelete o' id => subst hm; exact .one (hk.delete id)

/-! ## Events -/

theorem eventCreate_ok {p : Nat} {now : Time} {r : Event} (hp : p < 2 ^ 64) (hb : r.createdBy < 2 ^ 64) :
    (Op.create [some (.idx (.proj p .events) .name r.name), r.displayName.map (.idx (.proj p .events) .displayName)]
      (eventMk p now r)).Ok (eventsC p) Event.Valid :=
  ⟨fun _ => rfl, fun _ => rfl, fun id hid => ⟨⟨hid, hb, optOk_none⟩, hp⟩⟩

theorem createEvent_reaches {p : Nat} {now : Time} {r : Event} (hp : p < 2 ^ 64) (hb : r.createdBy < 2 ^ 64) {n : Nat} {kv : Kv}
    (h : Reaches (eventsC p) Event.Valid n kv) : ReachesLe (eventsC p) Event.Valid (n + 2) (createEvent p now r kv).2 := by
  have h1 := h.create (eventCreate_ok (now := now) hp hb)
  unfold createEvent
  cases e1 : eventCreate p now r kv with
  | error e => exact ⟨n, by omega, h⟩
  | ok v =>
    obtain ⟨ev, kv1⟩ := v
    replace h1 := h1.ok e1
    dsimp only
    cases e2 : dictGetOrCreate p kEvents kEvent ev.name kv1 with
    | error e => exact .one h1
    | ok v =>
      obtain ⟨x, kv2⟩ := v
      exact ⟨n + 2, Nat.le_refl _, h1.env (Same.agree ((dict_touches kEvents_ok ev.name kv1 x kv2 e2).same (by intro k hk; rw [List.mem_singleton.mp hk]; simp [eventsC])))⟩

theorem eventUpdate_ok {p id : Nat} {now : Time} {q : EventUpd} (hq : q.updatedBy < 2 ^ 64) :
    (Op.update id (q.pairs p) (fun r => .ok (q.apply now r)) (q.apply now)).Ok (eventsC p) Event.Valid := by
  refine ⟨fun r r' e => by injection e with e; exact e.symm, fun _ => rfl, fun r h => ⟨⟨h.head.id, h.head.createdBy, optOk_some hq⟩, h.proj⟩,
    (if q.name.isSome then [(.name, fun e => some e.name)] else []) ++
    (if q.displayName.isSome then [(.displayName, fun e => e.displayName)] else []), ?_, ?_, ?_, ?_⟩
  · intro i hi
    cases hn : q.name <;> cases hd : q.displayName <;> simp [hn, hd, eventsC] at hi ⊢ <;> simp [hi]
  · cases hn : q.name <;> cases hd : q.displayName <;> simp
  · intro r
    cases hn : q.name <;> cases hd : q.displayName <;> simp [EventUpd.pairs, pairsOf, EventUpd.apply, hn, hd, eventsC]
  · intro r i hi hs
    simp only [eventsC, List.mem_cons, List.not_mem_nil, or_false] at hi
    rcases hi with rfl | rfl <;>
    cases hn : q.name <;> cases hd : q.displayName <;> simp [hn, hd] at hs <;> simp [EventUpd.apply, hn, hd]

theorem PropList.set_valid (w : PropList) {e : Event} (h : e.Valid) (l : Option (List Nat)) : (w.set e l).Valid := by
  cases w <;> exact ⟨h.head, h.proj⟩

theorem hist_events_le {E : Env Q} {n : Nat} {kv : Kv} (h : Hist E n kv) (p : Nat) :
    ReachesLe (eventsC p) Event.Valid (2 * n) kv := by
  refine hist_reaches E ?_ h
  intro r hr hm n kv hk
  cases r <;> simp only [Req.mods, eventsC, List.mem_cons, List.not_mem_nil, or_false, Mod.coll.injEq, reduceCtorEq, Ns.proj.injEq, or_self, and_true, and_false] at hm
  case eventCreate p' now r => subst hm; exact createEvent_reaches hr.1 hr.2 hk
  case eventGetOrCreate p' now r =>
    subst hm
    simp only [Req.exec, getOrCreateEvent]
    split
    · exact ⟨n, by omega, hk⟩
    · exact createEvent_reaches hr.1 hr.2 hk
    · exact ⟨n, by omega, hk⟩
  case eventUpdate p' id now q => subst hm; exact .one (hk.update (q.apply now) (eventUpdate_ok hr))
  case eventAttach w p' id x =>
    subst hm
    refine .one (hk.update (fun e => w.set e (some ((w.get e).getD [] ++ [x]))) (noix_ok _ ?_ ?_ ?_ ?_))
    · intro r r' e
      try dsimp only at e
      cases hg : w.get r with
      | none => rw [hg] at e; injection e with e; rw [← e]; rfl
      | some l =>
        rw [hg] at e
        try dsimp only at e
        split at e
        · cases e
        · injection e with e; rw [← e]; rfl
    · intro r; cases w <;> rfl
    · intro r h; exact w.set_valid h _
    · intro r i hi; simp [eventsC] at hi; rcases hi with rfl | rfl <;> cases w <;> rfl
  case eventDetach w p' id x =>
    subst hm
    refine .one (hk.update (fun e => w.set e (some (((w.get e).getD []).filter (· ≠ x)))) (noix_ok _ ?_ ?_ ?_ ?_))
    · intro r r' e
      try dsimp only at e
      cases hg : w.get r with
      | none => rw [hg] at e; cases e
      | some l =>
        rw [hg] at e
        try dsimp only at e
        split at e
        · injection e with e; rw [← e]; rfl
        · cases e
    · intro r; cases w <;> rfl
    · intro r h; exact w.set_valid h _
    · intro r i hi; simp [eventsC] at hi; rcases hi with rfl | rfl <;> cases w <;> rfl
  case eventTryAttach p' id ps =>
    subst hm
    refine .one (hk.update (fun e => { e with eventProperties := tryAttach e.eventProperties ps }) (noix_ok _ ?_ ?_ ?_ ?_))
    · intro r r' e; injection e with e; exact e.symm
    · intro r; rfl
    · intro r h; exact ⟨h.head, h.proj⟩
    · intro r i hi; simp [eventsC] at hi; rcases hi with rfl | rfl <;> rfl
  case eventDelete p' id => subst hm; exact .one (hk.delete id)
  case propCreate p' ty now r f => cases ty <;> simp [PropType.coll] at hm
  case propGetOrCreate p' ty now r f => cases ty <;> simp [PropType.coll] at hm
  case propUpdate p' ty id now q => cases ty <;> simp [PropType.coll] at hm
  case propDelete p' ty id => cases ty <;> simp [PropType.coll] at hm

theorem hist_events {E : Env Q} {n : Nat} {kv : Kv} (h : Hist E n kv) (hn : n < 2 ^ 62) (p : Nat) :
    Reach (eventsC p) Event.Valid kv := by
  obtain ⟨m, hm, h⟩ := hist_events_le h p
  exact h.reach (by omega)

/-! ## Accounts and organizations -/

theorem accountCreate_ok {now : Time} {r : Account} (h : (Req.accountCreate (Q := Q) now r).Ok) :
    (Op.create [some (.idx (.top .accounts) .email r.email)] (accountMk now r)).Ok accountsC Account.Valid :=
  ⟨fun _ => rfl, fun _ => rfl, fun id hid => ⟨⟨hid, h.1, optOk_none⟩, h.2.1, h.2.2.1, h.2.2.2⟩⟩

theorem setRole_mem {o : Nat} {role : OrgRole} {l : List (Nat × OrgRole)} {m : Nat × OrgRole} (h : m ∈ setRole o role l) :
    ∃ r, (m.1, r) ∈ l := by
  induction l with
  | nil => simp [setRole] at h
  | cons x l ih =>
    unfold setRole at h
    split at h
    · rcases List.mem_cons.mp h with rfl | h
      · exact ⟨x.2, by simp⟩
      · exact ⟨m.2, by simp [h]⟩
    · rcases List.mem_cons.mp h with rfl | h
      · exact ⟨m.2, by simp⟩
      · obtain ⟨r, hr⟩ := ih h
        exact ⟨r, by simp [hr]⟩

theorem orgsSet_ok {id : Nat} {g : List (Nat × OrgRole) → List (Nat × OrgRole)} {f : Account → Except Err Account}
    (hf : ∀ a a', f a = .ok a' → a' = { a with organizations := some (g (a.organizations.getD [])) })
    (hg : ∀ l : List (Nat × OrgRole), (∀ m ∈ l, m.1 < 2 ^ 64) → ∀ m ∈ g l, m.1 < 2 ^ 64) :
    (Op.update id (fun _ => []) f fun a => { a with organizations := some (g (a.organizations.getD [])) }).Ok accountsC Account.Valid := by
  refine noix_ok _ hf (fun _ => rfl) (fun r h => ⟨h.head, ?_, h.projs, h.teams⟩) ?_
  · exact hg _ h.orgs
  · intro r i hi; simp [accountsC] at hi; subst hi; rfl

theorem addOrg_ok {m o : Nat} {role : OrgRole} (ho : o < 2 ^ 64) :
    (Op.update m (fun _ => []) (fun a : Account => if inOrg o (a.organizations.getD []) then Except.error Err.alreadyExists
      else .ok { a with organizations := some (a.organizations.getD [] ++ [(o, role)]) })
      fun a => { a with organizations := some (a.organizations.getD [] ++ [(o, role)]) }).Ok accountsC Account.Valid := by
  refine orgsSet_ok (g := fun l => l ++ [(o, role)]) ?_ ?_
  · intro a a' e
    try dsimp only at e
    split at e
    · cases e
    · injection e with e; exact e.symm
  · intro l hl m hm
    rcases List.mem_append.mp hm with h | h
    · exact hl m h
    · simp at h; subst h; exact ho

theorem removeOrg_ok {m o : Nat} :
    (Op.update m (fun _ => []) (fun a : Account => if inOrg o (a.organizations.getD []) then
      .ok { a with organizations := some ((a.organizations.getD []).filter fun m => m.1 ≠ o) } else Except.error Err.notFound)
      fun a => { a with organizations := some ((a.organizations.getD []).filter fun m => m.1 ≠ o) }).Ok accountsC Account.Valid := by
  refine orgsSet_ok (g := fun l => l.filter fun m => m.1 ≠ o) ?_ ?_
  · intro a a' e
    try dsimp only at e
    split at e
    · injection e with e; exact e.symm
    · cases e
  · intro l hl m hm
    exact hl m (List.mem_filter.mp hm).1

theorem changeOrg_ok {m o : Nat} {role : OrgRole} :
    (Op.update m (fun _ => []) (fun a : Account => if inOrg o (a.organizations.getD []) then
      .ok { a with organizations := some (setRole o role (a.organizations.getD [])) } else Except.error Err.notFound)
      fun a => { a with organizations := some (setRole o role (a.organizations.getD [])) }).Ok accountsC Account.Valid := by
  refine orgsSet_ok (g := setRole o role) ?_ ?_
  · intro a a' e
    try dsimp only at e
    split at e
    · injection e with e; exact e.symm
    · cases e
  · intro l hl m hm
    obtain ⟨r, hr⟩ := setRole_mem hm
    exact hl (m.1, r) hr

theorem nextSeq_lt {k : Key} {kv kv' : Kv} {id : Nat} (h : nextSeq k kv = .ok (id, kv')) : id < 2 ^ 64 := by
  unfold nextSeq at h
  split at h
  · simp only [Except.ok.injEq, Prod.mk.injEq] at h
    rw [← h.1]; decide
  · split at h
    · cases h
    · simp only [Except.ok.injEq, Prod.mk.injEq] at h
      rw [← h.1]; exact Nat.mod_lt _ (by decide)

theorem create_id_lt {c : Coll R} {keys : List (Option Key)} {mk : Nat → R} (hid : ∀ id, c.id (mk id) = id) {kv kv' : Kv} {r : R}
    (h : c.create keys mk kv = .ok (r, kv')) : c.id r < 2 ^ 64 := by
  unfold Coll.create at h
  split at h
  · cases h
  · split at h
    · cases h
    · rename_i id kv1 hs
      simp only [Except.ok.injEq, Prod.mk.injEq] at h
      rw [← h.1, hid]
      exact nextSeq_lt hs

theorem orgs_only {c : Call Org} (ht : Touches c [.coll (.top .organizations)]) {kv kv1 : Kv} {x : Org} (h : c kv = .ok (x, kv1)) :
    AgreeOn (.top .accounts) kv kv1 := Same.agree ((ht kv x kv1 h).same (by intro k hk; simp at hk; simp [hk]))

theorem accounts_only {α : Type} {c : Call α} (ht : Touches c [.coll (.top .accounts)]) {kv kv1 : Kv} {x : α} (h : c kv = .ok (x, kv1)) :
    AgreeOn (.top .organizations) kv kv1 := Same.agree ((ht kv x kv1 h).same (by intro k hk; simp at hk; simp [hk]))

theorem accountUpdate_ok {id : Nat} {now : Time} {q : AccountUpd} (hr : (Req.accountUpdate (Q := Q) id now q).Ok) :
    (Op.update id (fun r : Account => match q.email with
      | none => []
      | some e => [(some (.idx (.top .accounts) .email e), some (.idx (.top .accounts) .email r.email))])
      (fun r => .ok (q.apply now r)) (q.apply now)).Ok accountsC Account.Valid := by
  refine ⟨fun r r' e => by injection e with e; exact e.symm, fun _ => rfl, fun r h => ?_, ?_⟩
  · obtain ⟨h1, h2, h3, h4⟩ := hr
    refine ⟨⟨h.head.id, h.head.createdBy, optOk_some h1⟩, ?_, ?_, ?_⟩
    · intro m hm
      simp only [AccountUpd.apply] at hm
      cases hq : q.organizations with
      | none => rw [hq] at hm; exact h.orgs m hm
      | some l => cases l with
        | none => rw [hq] at hm; simp at hm
        | some l => rw [hq] at hm; exact h2 l hq m hm
    · intro m hm
      simp only [AccountUpd.apply] at hm
      cases hq : q.projects with
      | none => rw [hq] at hm; exact h.projs m hm
      | some l => cases l with
        | none => rw [hq] at hm; simp at hm
        | some l => rw [hq] at hm; exact h3 l hq m hm
    · intro m hm
      simp only [AccountUpd.apply] at hm
      cases hq : q.teams with
      | none => rw [hq] at hm; exact h.teams m hm
      | some l => cases l with
        | none => rw [hq] at hm; simp at hm
        | some l => rw [hq] at hm; exact h4 l hq m hm
  · cases he : q.email with
    | none => exact ⟨[], by simp, by simp, fun _ => rfl, fun r i hi _ => by simp [accountsC] at hi; subst hi; simp [AccountUpd.apply, he]⟩
    | some x => exact ⟨accountsC.ixs, fun _ h => h, by simp [accountsC],
        fun r => by simp [pairsOf, accountsC, AccountUpd.apply, he], fun r i hi hn => absurd hi hn⟩

theorem hist_accounts {E : Env Q} {n : Nat} {kv : Kv} (h : Hist E n kv) (hn : n < 2 ^ 62) : Reach accountsC Account.Valid kv := by
  refine hist_reach E ?_ h hn
  intro r hr hm n kv hk
  cases r <;> simp only [Req.mods, accountsC, List.mem_cons, List.not_mem_nil, or_false, Mod.coll.injEq, reduceCtorEq, Ns.top.injEq, or_self, and_true, and_false] at hm
  case accountCreate now r => exact .one (hk.create (accountCreate_ok hr))
  case accountUpdate id now q => exact .one (hk.update (q.apply now) (accountUpdate_ok hr))
  case accountDelete id => exact .one (hk.delete id)
  case orgCreate now b name =>
    rcases then_run (orgsC.create [some (.idx (.top .organizations) .name name)] fun id =>
      ({ id := id, createdAt := now, createdBy := b, updatedAt := none, updatedBy := none, name := name,
         members := [(b, .owner)] } : Org)) (fun org => addOrganization b org.id .owner) kv with e | ⟨x, kv1, y, kv2, h1, h2, e⟩
    · exact .of_eq e hk (by omega)
    · have hid := create_id_lt (fun _ => rfl) h1
      have := (hk.env (orgs_only (create_touches (c := orgsC) fun k hk => keys_one hk) h1)).update _ (addOrg_ok (m := b) (role := .owner) hid)
      exact .of_eq e (this.ok h2) (Nat.le_refl _)
  case addMember o m role =>
    rcases then_run (orgsC.update o (fun _ => []) fun r =>
      if inOrg m r.members then .error .alreadyExists else .ok { r with members := r.members ++ [(m, role)] })
      (fun _ => addOrganization m o role) kv with e | ⟨x, kv1, y, kv2, h1, h2, e⟩
    · exact .of_eq e hk (by omega)
    · have := (hk.env (orgs_only (update_touches (c := orgsC) fun _ => pairs_nil _) h1)).update _ (addOrg_ok (m := m) (role := role) hr.1)
      exact .of_eq e (this.ok h2) (Nat.le_refl _)
  case removeMember o m =>
    rcases then_run (orgsC.update o (fun _ => []) fun r =>
      if inOrg m r.members then .ok { r with members := r.members.filter fun x => x.1 ≠ m } else .error .notFound)
      (fun _ => removeOrganization m o) kv with e | ⟨x, kv1, y, kv2, h1, h2, e⟩
    · exact .of_eq e hk (by omega)
    · have := (hk.env (orgs_only (update_touches (c := orgsC) fun _ => pairs_nil _) h1)).update _ (removeOrg_ok (m := m) (o := o))
      exact .of_eq e (this.ok h2) (Nat.le_refl _)
  case changeMemberRole o m role =>
    rcases then_run (orgsC.update o (fun _ => []) fun r =>
      if inOrg m r.members then .ok { r with members := setRole m role r.members } else .error .notFound)
      (fun _ => changeOrganizationRole m o role) kv with e | ⟨x, kv1, y, kv2, h1, h2, e⟩
    · exact .of_eq e hk (by omega)
    · have := (hk.env (orgs_only (update_touches (c := orgsC) fun _ => pairs_nil _) h1)).update _ (changeOrg_ok (m := m) (o := o) (role := role))
      exact .of_eq e (this.ok h2) (Nat.le_refl _)

theorem membersSet_ok {id : Nat} {g : List (Nat × OrgRole) → List (Nat × OrgRole)} {f : Org → Except Err Org}
    (hf : ∀ a a', f a = .ok a' → a' = { a with members := g a.members })
    (hg : ∀ l : List (Nat × OrgRole), (∀ m ∈ l, m.1 < 2 ^ 64) → ∀ m ∈ g l, m.1 < 2 ^ 64) :
    (Op.update id (fun _ => []) f fun a => { a with members := g a.members }).Ok orgsC Org.Valid := by
  refine noix_ok _ hf (fun _ => rfl) (fun r h => ⟨h.head, ?_⟩) ?_
  · exact hg _ h.members
  · intro r i hi; simp [orgsC] at hi; subst hi; rfl

theorem orgUpdate_ok {id : Nat} {now : Time} {b : Nat} {name : Option Str} (hr : (Req.orgUpdate (Q := Q) id now b name).Ok) :
    (Op.update id (fun r : Org => match (generalizing := false) name with
      | none => []
      | some n => [(some (.idx (.top .organizations) .name n), some (.idx (.top .organizations) .name r.name))])
      (fun r => .ok { r with updatedAt := some now, updatedBy := some b, name := name.getD r.name })
      (fun r => { r with updatedAt := some now, updatedBy := some b, name := name.getD r.name })).Ok orgsC Org.Valid := by
  refine ⟨fun r r' e => by injection e with e; exact e.symm, fun _ => rfl, fun r h => ⟨⟨h.head.id, h.head.createdBy, optOk_some hr⟩, h.members⟩, ?_⟩
  cases name with
  | none => exact ⟨[], by simp, by simp, fun _ => rfl, fun r i hi _ => by simp [orgsC] at hi; subst hi; rfl⟩
  | some x => exact ⟨orgsC.ixs, fun _ h => h, by simp [orgsC], fun _ => rfl, fun r i hi hn => absurd hi hn⟩

theorem hist_orgs {E : Env Q} {n : Nat} {kv : Kv} (h : Hist E n kv) (hn : n < 2 ^ 62) : Reach orgsC Org.Valid kv := by
  refine hist_reach E ?_ h hn
  intro r hr hm n kv hk
  cases r <;> simp only [Req.mods, orgsC, List.mem_cons, List.not_mem_nil, or_false, Mod.coll.injEq, reduceCtorEq, Ns.top.injEq, or_self, and_true, and_false] at hm
  case orgCreate now b name =>
    rcases then_run (orgsC.create [some (.idx (.top .organizations) .name name)] fun id =>
      ({ id := id, createdAt := now, createdBy := b, updatedAt := none, updatedBy := none, name := name,
         members := [(b, .owner)] } : Org)) (fun org => addOrganization b org.id .owner) kv with e | ⟨x, kv1, y, kv2, h1, h2, e⟩
    · exact .of_eq e hk (by omega)
    · have := hk.create (keys := [some (.idx (.top .organizations) .name name)]) (mk := fun id =>
        ({ id := id, createdAt := now, createdBy := b, updatedAt := none, updatedBy := none, name := name,
           members := [(b, .owner)] } : Org))
        ⟨fun _ => rfl, fun _ => rfl, fun id hid => ⟨⟨hid, hr, optOk_none⟩, by intro m hm; rw [List.mem_singleton.mp hm]; exact hr⟩⟩
      exact .of_eq e ((this.ok h1).env (accounts_only (accountSet_touches _ _) h2)) (Nat.le_refl _)
  case orgUpdate id now b name => exact .one (hk.update _ (orgUpdate_ok hr))
  case orgDelete id => exact .one (hk.delete id)
  case addMember o m role =>
    rcases then_run (orgsC.update o (fun _ => []) fun r =>
      if inOrg m r.members then .error .alreadyExists else .ok { r with members := r.members ++ [(m, role)] })
      (fun _ => addOrganization m o role) kv with e | ⟨x, kv1, y, kv2, h1, h2, e⟩
    · exact .of_eq e hk (by omega)
    · have := hk.update _ (membersSet_ok (id := o) (g := fun l => l ++ [(m, role)]) (f := fun r =>
        if inOrg m r.members then .error .alreadyExists else .ok { r with members := r.members ++ [(m, role)] })
        (by
          intro a a' e
          try dsimp only at e
          split at e
          · cases e
          · injection e with e; exact e.symm)
        (by
          intro l hl x hx
          rcases List.mem_append.mp hx with h | h
          · exact hl x h
          · simp at h; subst h; exact hr.2))
      exact .of_eq e ((this.ok h1).env (accounts_only (accountSet_touches _ _) h2)) (Nat.le_refl _)
  case removeMember o m =>
    rcases then_run (orgsC.update o (fun _ => []) fun r =>
      if inOrg m r.members then .ok { r with members := r.members.filter fun x => x.1 ≠ m } else .error .notFound)
      (fun _ => removeOrganization m o) kv with e | ⟨x, kv1, y, kv2, h1, h2, e⟩
    · exact .of_eq e hk (by omega)
    · have := hk.update _ (membersSet_ok (id := o) (g := fun l => l.filter fun x => x.1 ≠ m) (f := fun r =>
        if inOrg m r.members then .ok { r with members := r.members.filter fun x => x.1 ≠ m } else .error .notFound)
        (by
          intro a a' e
          try dsimp only at e
          split at e
          · injection e with e; exact e.symm
          · cases e)
        (fun l hl x hx => hl x (List.mem_filter.mp hx).1))
      exact .of_eq e ((this.ok h1).env (accounts_only (accountSet_touches _ _) h2)) (Nat.le_refl _)
  case changeMemberRole o m role =>
    rcases then_run (orgsC.update o (fun _ => []) fun r =>
      if inOrg m r.members then .ok { r with members := setRole m role r.members } else .error .notFound)
      (fun _ => changeOrganizationRole m o role) kv with e | ⟨x, kv1, y, kv2, h1, h2, e⟩
    · exact .of_eq e hk (by omega)
    · have := hk.update _ (membersSet_ok (id := o) (g := setRole m role) (f := fun r =>
        if inOrg m r.members then .ok { r with members := setRole m role r.members } else .error .notFound)
        (by
          intro a a' e
          try dsimp only at e
          split at e
          · injection e with e; exact e.symm
          · cases e)
        (by
          intro l hl x hx
          obtain ⟨r, hr⟩ := setRole_mem hx
          exact hl (x.1, r) hr))
      exact .of_eq e ((this.ok h1).env (accounts_only (accountSet_touches _ _) h2)) (Nat.le_refl _)

/-! ## Custom events -/

theorem customCreate_ok {p : Nat} {now : Time} {r : CustomEvent} (h : (Req.customCreate (Q := Q) p now r).Ok) :
    (Op.create [some (.idx (.proj p .customEvents) .name r.name)] (customMk p now r)).Ok (customC p) CustomEvent.Bounds :=
  ⟨fun _ => rfl, fun _ => rfl, fun id hid => ⟨⟨hid, h.2.1, optOk_none⟩, h.1, h.2.2⟩⟩

theorem customUpdate_ok {p id : Nat} {now : Time} {q : CustomUpd} (h : (Req.customUpdate (Q := Q) p id now q).Ok) (kv : Kv) :
    (Op.update id (q.pairs p) (q.check p now kv) (q.apply now)).Ok (customC p) CustomEvent.Bounds := by
  obtain ⟨h1, h2⟩ := h
  refine ⟨?_, fun _ => rfl, fun r h => ⟨⟨h.head.id, h.head.createdBy, optOk_some h1⟩, h.proj, ?_⟩, ?_⟩
  · intro r r' e
    unfold CustomUpd.check at e
    split at e
    · injection e with e; exact e.symm
    · split at e
      · cases e
      · split at e
        · cases e
        · injection e with e; exact e.symm
  · intro e he
    simp only [CustomUpd.apply] at he
    cases hq : q.events with
    | none => rw [hq] at he; exact h.events e he
    | some l => rw [hq] at he; exact h2 l hq e he
  · unfold CustomUpd.pairs
    cases he : q.name with
    | none => exact ⟨[], by simp, by simp, fun _ => rfl, fun r i hi _ => by simp [customC] at hi; subst hi; simp [CustomUpd.apply, he]⟩
    | some x => exact ⟨(customC p).ixs, fun _ h => h, by simp [customC],
        fun r => by simp [pairsOf, customC, CustomUpd.apply, he], fun r i hi hn => absurd hi hn⟩

theorem hist_customs {E : Env Q} {n : Nat} {kv : Kv} (h : Hist E n kv) (hn : n < 2 ^ 62) (p : Nat) :
    Reach (customC p) CustomEvent.Bounds kv := by
  refine hist_reach E ?_ h hn
  intro r hr hm n kv hk
  cases r <;> simp only [Req.mods, customC, List.mem_cons, List.not_mem_nil, or_false, Mod.coll.injEq, reduceCtorEq, Ns.proj.injEq, or_self, and_true, and_false] at hm
  case customCreate p' now r =>
    subst hm
    have h1 := hk.create (customCreate_ok (now := now) hr)
    show ReachesLe _ _ _ (runCall (Meta.customCreate p now r) kv).2
    unfold runCall Meta.customCreate
    by_cases h0 : r.events = []
    · rw [if_pos h0]; exact ⟨n, by omega, hk⟩
    · rw [if_neg h0]
      cases validate p kv r.events [] with
      | error e => exact ⟨n, by omega, hk⟩
      | ok v => exact .one h1
  case customUpdate p' id now q => subst hm; exact .one (hk.update _ (customUpdate_ok hr kv))
  case customDelete p' id => subst hm; exact .one (hk.delete id)
  case propCreate p' ty now r f => cases ty <;> simp [PropType.coll] at hm
  case propGetOrCreate p' ty now r f => cases ty <;> simp [PropType.coll] at hm
  case propUpdate p' ty id now q => cases ty <;> simp [PropType.coll] at hm
  case propDelete p' ty id => cases ty <;> simp [PropType.coll] at hm

/-! ## Dashboards, reports, backups -/

theorem hist_dashboards {E : Env Q} {n : Nat} {kv : Kv} (h : Hist E n kv) (hn : n < 2 ^ 62) (p : Nat) :
    Reach (dashboardsC p) Dashboard.Valid kv := by
  refine hist_reach E ?_ h hn
  intro r hr hm n kv hk
  cases r <;> simp only [Req.mods, dashboardsC, List.mem_cons, List.not_mem_nil, or_false, Mod.coll.injEq, reduceCtorEq, Ns.proj.injEq, or_self, and_true, and_false] at hm
  case dashboardCreate p' now r =>
    subst hm
    exact .one (hk.create ⟨fun _ => rfl, fun _ => rfl, fun id hid => ⟨⟨hid, hr.2.1, optOk_none⟩, hr.1, hr.2.2⟩⟩)
  case dashboardUpdate p' id now q =>
    subst hm
    refine .one (hk.update (q.apply now) (noix_ok _ (fun r r' e => by injection e with e; exact e.symm) (fun _ => rfl) (fun r h => ?_) (by simp [dashboardsC])))
    refine ⟨⟨h.head.id, h.head.createdBy, optOk_some hr.1⟩, h.proj, ?_⟩
    intro e he
    simp only [DashboardUpd.apply] at he
    cases hq : q.panels with
    | none => rw [hq] at he; exact h.panels e he
    | some l => rw [hq] at he; exact hr.2 l hq e he
  case dashboardDelete p' id => subst hm; exact .one (hk.delete id)
  case propCreate p' ty now r f => cases ty <;> simp [PropType.coll] at hm
  case propGetOrCreate p' ty now r f => cases ty <;> simp [PropType.coll] at hm
  case propUpdate p' ty id now q => cases ty <;> simp [PropType.coll] at hm
  case propDelete p' ty id => cases ty <;> simp [PropType.coll] at hm

theorem hist_reports {E : Env Q} {n : Nat} {kv : Kv} (h : Hist E n kv) (hn : n < 2 ^ 62) (p : Nat) :
    Reach (reportsC E.bc p) (Report.Valid E.bc) kv := by
  refine hist_reach E ?_ h hn
  intro r hr hm n kv hk
  cases r <;> simp only [Req.mods, reportsC, List.mem_cons, List.not_mem_nil, or_false, Mod.coll.injEq, reduceCtorEq, Ns.proj.injEq, or_self, and_true, and_false] at hm
  case reportCreate p' now r =>
    subst hm
    exact .one (hk.create ⟨fun _ => rfl, fun _ => rfl, fun id hid => ⟨⟨hid, hr.2, optOk_none⟩, hr.1⟩⟩)
  case reportUpdate p' id now q =>
    subst hm
    refine .one (hk.update (q.apply now) (noix_ok _ (fun r r' e => by injection e with e; exact e.symm) (fun _ => rfl) (fun r h => ?_) (by simp [reportsC])))
    exact ⟨⟨h.head.id, h.head.createdBy, optOk_some hr⟩, h.proj⟩
  case reportDelete p' id => subst hm; exact .one (hk.delete id)
  case propCreate p' ty now r f => cases ty <;> simp [PropType.coll] at hm
  case propGetOrCreate p' ty now r f => cases ty <;> simp [PropType.coll] at hm
  case propUpdate p' ty id now q => cases ty <;> simp [PropType.coll] at hm
  case propDelete p' ty id => cases ty <;> simp [PropType.coll] at hm

theorem hist_backups {E : Env Q} {n : Nat} {kv : Kv} (h : Hist E n kv) (hn : n < 2 ^ 62) : Reach backupsC Backup.Valid kv := by
  refine hist_reach E ?_ h hn
  intro r hr hm n kv hk
  cases r <;> simp only [Req.mods, backupsC, List.mem_cons, List.not_mem_nil, or_false, Mod.coll.injEq, reduceCtorEq, or_self, and_true, and_false] at hm
  case backupCreate now r =>
    have h1 := hk.create (c := backupsC) (keys := []) (mk := fun id => { r with id := id, createdAt := now, updatedAt := none })
      ⟨fun _ => rfl, fun _ => rfl, fun id hid => ⟨hid, hr⟩⟩
    cases e : Meta.backupCreate now r kv with
    | error x => exact .of_eq (by show (runCall _ kv).2 = kv; rw [runCall, e]) hk (by omega)
    | ok v =>
      obtain ⟨y, kv'⟩ := v
      have : backupsC.create [] (fun id => { r with id := id, createdAt := now, updatedAt := none }) kv = .ok (y, kv') := by
        unfold Meta.backupCreate at e
        dsimp only at e
        split at e
        · split at e
          · cases e
          · split at e
            · cases e
            · exact e
        · exact e
      exact .of_eq (run_ok e) (h1.ok this) (by omega)
  case backupStatus id now st =>
    refine .one (hk.update (fun b => { b with status := st, updatedAt := some now }) (noix_ok _ (fun r r' e => by injection e with e; exact e.symm) (fun _ => rfl) (fun r h => ⟨h.id, hr⟩) (by simp [backupsC])))
  case backupDelete id => exact .one (hk.delete id)

/-! ## Properties -/

theorem agree_put {ns : Ns} {a b : Kv} (h : AgreeOn ns a b) {k : Key} (hk : k.WF) (v : OptiPrism.Storage.Bytes) :
    AgreeOn ns (putK a k v) (putK b k v) := by
  intro k' hc
  have hw : k'.WF := by cases k' <;> first | trivial | simp [Key.coll] at hc
  rw [getK_putK _ hk hw, getK_putK _ hk hw, h k' hc]

theorem agree_insertIndex {ns : Ns} (keys : List (Option Key)) (hk : ∀ k, some k ∈ keys → k.WF) (id : Nat) {a b : Kv} (h : AgreeOn ns a b) :
    AgreeOn ns (insertIndex keys id a) (insertIndex keys id b) := by
  induction keys generalizing a b with
  | nil => exact h
  | cons k ks ih =>
    cases k with
    | none => exact ih (fun k hm => hk k (by simp [hm])) h
    | some k => exact ih (fun k hm => hk k (by simp [hm])) (agree_put h (hk k (by simp)) _)

theorem insertIndex_append (a b : List (Option Key)) (id : Nat) (kv : Kv) :
    insertIndex (a ++ b) id kv = insertIndex b id (insertIndex a id kv) := by
  induction a generalizing kv with
  | nil => rfl
  | cons k ks ih => cases k <;> simp [insertIndex, ih]

def propMk (p : Nat) (now : Time) (req : Property) (order id : Nat) : Property :=
  { req with id := id, createdAt := now, updatedAt := none, updatedBy := none, projectId := p, order := order }

def propKeys (p : Nat) (ty : PropType) (req : Property) : List (Option Key) :=
  [some (.idx (.proj p ty.coll) .name req.name), req.displayName.map (.idx (.proj p ty.coll) .displayName)]

theorem nextZeroSeq_lt {k : Key} {kv kv' : Kv} {id : Nat} (h : nextZeroSeq k kv = .ok (id, kv')) : id < 2 ^ 64 := by
  unfold nextZeroSeq at h
  split at h
  · simp only [Except.ok.injEq, Prod.mk.injEq] at h
    rw [← h.1]; decide
  · split at h
    · cases h
    · simp only [Except.ok.injEq, Prod.mk.injEq] at h
      rw [← h.1]; exact Nat.mod_lt _ (by decide)

theorem propType_coll_ne (ty : PropType) : ty.coll ≠ .global := by cases ty <;> simp [PropType.coll]

/-- `create_` is the create of a collection, and changes to the column index and the order sequence. -/
theorem propCreate_inv {sys : Str → Str} {p : Nat} {ty : PropType} {now : Time} {req : Property} {f : Except Err Unit} {kv kv' : Kv}
    {a : Property} (e : propCreate sys p ty now req f kv = .ok (a, kv')) :
    ∃ order kv1, order < 2 ^ 64 ∧ req.dataType.num.isSome ∧
      (propsC p ty).create (propKeys p ty req) (propMk p now req order) kv = .ok (a, kv1) ∧ AgreeOn (.proj p ty.coll) kv1 kv' := by
  unfold propCreate at e
  try dsimp only at e
  split at e
  · cases e
  · rename_i hcl
    split at e
    · cases e
    · rename_i id kv1 h1
      split at e
      · cases e
      · rename_i sh hsh
        split at e
        · cases e
        · rename_i o kv2 h2
          split at e
          · cases e
          · rename_i b hb
            split at e
            · cases e
            · cases e
              have hnum : req.dataType.num.isSome := by
                cases hq : req.dataType.num with
                | none => simp [Property.encO, hq] at hb
                | some x => rfl
              refine ⟨o, insertIndex (propKeys p ty req) id (putK kv1 (.data (.proj p ty.coll) id) ((propsC p ty).enc (propMk p now req o id))), nextZeroSeq_lt h2, hnum, ?_, ?_⟩
              · unfold Coll.create
                rw [if_neg (by exact hcl), show (propsC p ty).ns = .proj p ty.coll from rfl, h1]
                rfl
              · have hag : AgreeOn (.proj p ty.coll) kv1 kv2 :=
                  Same.agree ((nextZeroSeq_touches (k := .orderSeq p sh) (shortName_ok hsh) kv1 o kv2 h2).same (by intro k hk; rw [List.mem_singleton.mp hk]; simp [Key.mod]))
                have hb' : (propsC p ty).enc (propMk p now req o id) = b := by
                  show ((propMk p now req o id).encO).getD [] = b
                  unfold propMk
                  rw [hb]; rfl
                rw [insertIndex_append]
                refine AgreeOn.trans (b := insertIndex (propKeys p ty req) id (putK kv2 (.data (.proj p ty.coll) id) b)) ?_ ?_
                · show AgreeOn _ (insertIndex (propKeys p ty req) id (putK kv1 (.data (.proj p ty.coll) id) ((propsC p ty).enc (propMk p now req o id)))) _
                  rw [hb']
                  refine agree_insertIndex _ ?_ _ (agree_put hag (wf_data _ _) _)
                  intro k hk
                  simp only [propKeys, List.mem_cons, Option.some.injEq, List.not_mem_nil, or_false] at hk
                  rcases hk with rfl | hk
                  · trivial
                  · obtain ⟨s, -, rfl⟩ := Option.map_eq_some_iff.mp hk.symm
                    trivial
                · show AgreeOn _ _ (putK (insertIndex (propKeys p ty req) id (putK kv2 (.data (.proj p ty.coll) id) b)) (columnIdx p _) (le64 id))
                  refine Same.agree (same_putK _ (wf_idx _ _ _) ?_ _)
                  simp [columnIdx, Key.mod, Ne.symm (propType_coll_ne ty)]

theorem propCreate_ok {p : Nat} {ty : PropType} {now : Time} {req : Property} {order : Nat} (ho : order < 2 ^ 64) (hp : p < 2 ^ 64)
    (hb : req.createdBy < 2 ^ 64) (hg : ∀ g, req.typ = .group g → g < 2 ^ 64) (hn : req.dataType.num.isSome) :
    (Op.create (propKeys p ty req) (propMk p now req order)).Ok (propsC p ty) Property.Valid :=
  ⟨fun _ => rfl, fun _ => rfl, fun id hid => ⟨⟨⟨hid, hb, optOk_none⟩, hp, ho, hg⟩, hn⟩⟩

theorem propCreate_reaches {sys : Str → Str} {p : Nat} {ty : PropType} {now : Time} {req : Property} {f : Except Err Unit} (hp : p < 2 ^ 64)
    (hb : req.createdBy < 2 ^ 64) (hg : ∀ g, req.typ = .group g → g < 2 ^ 64) {n : Nat} {kv : Kv}
    (h : Reaches (propsC p ty) Property.Valid n kv) :
    Reaches (propsC p ty) Property.Valid (n + 1) (runCall (propCreate sys p ty now req f) kv).2 := by
  refine h.call fun a kv' e => ?_
  obtain ⟨o, kv1, ho, hn, e1, hag⟩ := propCreate_inv e
  exact ⟨_, propCreate_ok ho hp hb hg hn, by
    show AgreeOn _ (runCall ((propsC p ty).create _ _) kv).2 kv'
    rw [run_ok e1]; exact hag⟩

theorem PropType.coll_inj {a b : PropType} (h : a.coll = b.coll) : a = b := by
  cases a <;> cases b <;> simp [PropType.coll] at h ⊢
  exact h

theorem propUpdate_ok {p : Nat} {ty : PropType} {id : Nat} {now : Time} {q : PropUpd} (hr : (Req.propUpdate (Q := Q) p ty id now q).Ok) :
    (Op.update id (q.pairs p ty) (fun r => .ok (q.apply now r)) (q.apply now)).Ok (propsC p ty) Property.Valid := by
  obtain ⟨q1, q2, q3⟩ := hr
  refine ⟨fun r r' e => by injection e with e; exact e.symm, fun _ => rfl, fun r h => ⟨⟨⟨h.bounds.head.id, h.bounds.head.createdBy, optOk_some q1⟩, h.bounds.proj, h.bounds.order, ?_⟩, ?_⟩, ?_⟩
  · intro g e
    simp only [PropUpd.apply] at e
    cases hq : q.typ with
    | none => rw [hq] at e; exact h.bounds.grp g e
    | some t => rw [hq] at e; exact q2 g (by rw [hq]; simpa using e)
  · simp only [PropUpd.apply]
    cases hq : q.dataType with
    | none => exact h.enc
    | some t => exact q3 t hq
  · unfold PropUpd.pairs
    cases hd : q.displayName with
    | none =>
      refine ⟨[], by simp, by simp, fun _ => rfl, fun r i hi _ => ?_⟩
      simp only [propsC, List.mem_cons, List.not_mem_nil, or_false] at hi
      rcases hi with rfl | rfl <;> simp [PropUpd.apply, hd]
    | some d =>
      refine ⟨[(.displayName, fun r => r.displayName)], by simp [propsC], by simp, fun r => by simp [pairsOf, propsC, PropUpd.apply, hd], ?_⟩
      intro r i hi hs
      simp only [propsC, List.mem_cons, List.not_mem_nil, or_false] at hi
      rcases hi with rfl | rfl
      · rfl
      · simp at hs

theorem hist_props {E : Env Q} {n : Nat} {kv : Kv} (h : Hist E n kv) (hn : n < 2 ^ 62) (p : Nat) (ty : PropType) :
    Reach (propsC p ty) Property.Valid kv := by
  refine hist_reach E ?_ h hn
  intro r hr hm n kv hk
  have hne : ty.coll ≠ .events ∧ ty.coll ≠ .customEvents ∧ ty.coll ≠ .dashboards ∧ ty.coll ≠ .reports ∧ ty.coll ≠ .global := by
    cases ty <;> simp [PropType.coll]
  obtain ⟨h1, h2, h3, h4, h5⟩ := hne
  cases r <;> simp only [Req.mods, propsC, List.mem_cons, List.not_mem_nil, or_false, Mod.coll.injEq, reduceCtorEq, Ns.proj.injEq, or_self,
    false_or, h1, h2, h3, h4, h5, and_false] at hm
  case propCreate p' ty' now r f =>
    obtain ⟨rfl, hm⟩ := hm
    cases PropType.coll_inj hm
    exact .one (propCreate_reaches hr.1 hr.2.1 hr.2.2 hk)
  case propGetOrCreate p' ty' now r f =>
    obtain ⟨rfl, hm⟩ := hm
    cases PropType.coll_inj hm
    have hc := propCreate_reaches (sys := E.sys) (now := now) (req := r) (f := f) hr.1 hr.2.1 hr.2.2 hk
    show ReachesLe _ _ _ (runCall (Meta.propGetOrCreate E.sys p ty now r f) kv).2
    unfold runCall Meta.propGetOrCreate
    split
    · rename_i e
      split at e
      · cases e; exact ⟨n, by omega, hk⟩
      · rw [run_ok e] at hc; exact .one hc
      · cases e
    · exact ⟨n, by omega, hk⟩
  case propUpdate p' ty' id now q =>
    obtain ⟨rfl, hm⟩ := hm
    cases PropType.coll_inj hm
    exact .one (hk.update (q.apply now) (propUpdate_ok hr))
  case propDelete p' ty' id =>
    obtain ⟨rfl, hm⟩ := hm
    cases PropType.coll_inj hm
    exact .one (hk.delete id)

end OptiPrism.Meta
