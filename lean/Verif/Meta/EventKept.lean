import Verif.Meta.EventNames

/-!
# Events keep their names

Unless it renames or deletes an event of the project, a request leaves the name of every event number as it is.
-/

namespace OptiPrism.Meta

variable {Q : Type}

/-- Spec: the request neither deletes nor renames events of the project. -/
def Req.SparesEvents (p : Nat) : Req Q → Prop
  | .eventDelete q _ => q ≠ p
  | .eventUpdate q _ _ u => q = p → u.name = none
  | _ => True

/-- Names are kept, others may come. -/
def Kept (p : Nat) (kv kv' : Kv) : Prop := ∀ id v, nameAt p kv id = some v → nameAt p kv' id = some v

theorem Kept.refl (p : Nat) (kv : Kv) : Kept p kv kv := fun _ _ h => h

theorem Kept.trans {p : Nat} {a b c : Kv} (h : Kept p a b) (h' : Kept p b c) : Kept p a c := fun id v e => h' id v (h id v e)

theorem Kept.of_eq {p : Nat} {a b : Kv} (h : ∀ j, nameAt p b j = nameAt p a j) : Kept p a b := fun id v e => by rw [h]; exact e

theorem createEvent_kept {p : Nat} (hp : p < 2 ^ 64) {now : Time} {r : Event} (hb : r.createdBy < 2 ^ 64) {kv : Kv} (hi : (eventsC p).Inv Event.Valid kv)
    (hl : lastId kv (.proj p .events) + 1 < 2 ^ 64) :
    Kept p kv (createEvent p now r kv).2 ∧ ∀ ev, (createEvent p now r kv).1 = .ok ev → nameAt p (createEvent p now r kv).2 ev.id = some r.name := by
  obtain ⟨h1, h2, h3⟩ := eventCreate_ok (now := now) hp hb
  unfold createEvent
  rcases create_spec (events_ok p) hi hl h1 h2 h3 with ⟨-, e⟩ | ⟨hnt, kv1, e, hi1, e1, e2⟩
  · rw [show eventCreate p now r kv = _ from e]; exact ⟨.refl _ _, fun ev hev => by cases hev⟩
  · rw [show eventCreate p now r kv = _ from e]
    have hns : (eventsC p).ns = .proj p .events := rfl
    rw [hns] at e e1 e2
    have hk1 : Kept p kv kv1 := by
      intro id v hv
      unfold nameAt at hv ⊢
      rw [e2]
      split
      · rename_i hid
        rw [Option.map_eq_some_iff] at hv
        obtain ⟨x, hx, -⟩ := hv
        have := (Inv.live_id hi hx).2.2.1
        rw [hns] at this
        omega
      · exact hv
    have hn1 : nameAt p kv1 (lastId kv (.proj p .events) + 1) = some r.name := by
      unfold nameAt
      rw [e2, if_pos rfl]
      rfl
    dsimp only
    cases e3 : dictGetOrCreate p kEvents kEvent (eventMk p now r (lastId kv (.proj p .events) + 1)).name kv1 with
    | error x => rw [show (eventMk p now r (lastId kv (eventsC p).ns + 1)).name = (eventMk p now r (lastId kv (.proj p .events) + 1)).name from rfl, e3]; exact ⟨hk1, fun ev hev => by cases hev⟩
    | ok y =>
      obtain ⟨x, kv2⟩ := y
      have hag : AgreeOn (.proj p .events) kv1 kv2 := Same.agree ((dict_touches kEvents_ok _ kv1 x kv2 e3).same (by
        intro k hk; rw [List.mem_singleton.mp hk]; simp))
      have g2 := (agree_names hag).2
      rw [show (eventMk p now r (lastId kv (eventsC p).ns + 1)).name = (eventMk p now r (lastId kv (.proj p .events) + 1)).name from rfl, e3]
      refine ⟨hk1.trans (.of_eq g2), fun ev hev => ?_⟩
      cases hev
      rw [g2]
      exact hn1

theorem getOrCreateEvent_kept {p : Nat} (hp : p < 2 ^ 64) {now : Time} {r : Event} (hb : r.createdBy < 2 ^ 64) {kv : Kv} (hi : (eventsC p).Inv Event.Valid kv)
    (hl : lastId kv (.proj p .events) + 1 < 2 ^ 64) :
    Kept p kv (getOrCreateEvent p now r kv).2 ∧
      ∀ ev, (getOrCreateEvent p now r kv).1 = .ok ev → nameAt p (getOrCreateEvent p now r kv).2 ev.id = some r.name := by
  unfold getOrCreateEvent
  split
  · rename_i ev e
    refine ⟨.refl _ _, fun ev' hev => ?_⟩
    cases hev
    rcases (getBy_eq hi (i := (.name, fun e => some e.name)) (by simp [eventsC]) r.name (.ok ev)).mp e with ⟨id, x, h1, h2, h3⟩ | ⟨-, h3⟩
    · cases h3
      have : ev.id = id := (Inv.live_id hi h1).1
      unfold nameAt
      rw [this, h1]
      exact h2
    · cases h3
  · exact createEvent_kept hp hb hi hl
  · exact ⟨.refl _ _, fun ev hev => by cases hev⟩

/-- One request. -/
theorem exec_kept {E : Env Q} {p : Nat} {r : Req Q} (hr : r.Ok) (hk : r.SparesEvents p) {kv : Kv} (hi : (eventsC p).Inv Event.Valid kv)
    (hl : lastId kv (.proj p .events) + 1 < 2 ^ 64) : Kept p kv (r.exec E kv) := by
  by_cases hc : Mod.coll (.proj p .events) ∈ r.mods
  · cases r <;> simp only [Req.mods, List.mem_cons, List.not_mem_nil, or_false, Mod.coll.injEq, reduceCtorEq, Ns.proj.injEq, or_self, and_true, and_false] at hc
    case eventCreate q now r => subst hc; exact (createEvent_kept hr.1 hr.2 hi hl).1
    case eventGetOrCreate q now r => subst hc; exact (getOrCreateEvent_kept hr.1 hr.2 hi hl).1
    case eventUpdate q id now u =>
      subst hc
      refine .of_eq (update_names hi (eventUpdate_ok hr) (t := u.apply now) fun r => ?_).2
      simp [EventUpd.apply, hk rfl]
    case eventAttach w q id x =>
      subst hc
      refine .of_eq (update_names hi (t := fun e => w.set e (some ((w.get e).getD [] ++ [x]))) (noix_ok _ ?_ ?_ ?_ ?_) fun r => by cases w <;> rfl).2
      · intro r r' e
        try dsimp only at e
        cases hg : w.get r with
        | none => rw [hg] at e; injection e with e; rw [← e]; rfl
        | some l =>
          rw [hg] at e
          try dsimp only at e
          split at e
          · cases e
          · injection e with e; rw [← e]; rfl
      · intro r; cases w <;> rfl
      · intro r h; exact w.set_valid h _
      · intro r i hi; simp [eventsC] at hi; rcases hi with rfl | rfl <;> cases w <;> rfl
    case eventDetach w q id x =>
      subst hc
      refine .of_eq (update_names hi (t := fun e => w.set e (some (((w.get e).getD []).filter (· ≠ x)))) (noix_ok _ ?_ ?_ ?_ ?_) fun r => by cases w <;> rfl).2
      · intro r r' e
        try dsimp only at e
        cases hg : w.get r with
        | none => rw [hg] at e; cases e
        | some l =>
          rw [hg] at e
          try dsimp only at e
          split at e
          · injection e with e; rw [← e]; rfl
          · cases e
      · intro r; cases w <;> rfl
      · intro r h; exact w.set_valid h _
      · intro r i hi; simp [eventsC] at hi; rcases hi with rfl | rfl <;> cases w <;> rfl
    case eventTryAttach q id ps =>
      subst hc
      refine .of_eq (update_names hi (t := fun e => { e with eventProperties := tryAttach e.eventProperties ps }) (noix_ok _ ?_ ?_ ?_ ?_) fun r => rfl).2
      · intro r r' e; injection e with e; exact e.symm
      · intro r; rfl
      · intro r h; exact ⟨h.head, h.proj⟩
      · intro r i hi; simp [eventsC] at hi; rcases hi with rfl | rfl <;> rfl
    case eventDelete q id => exact absurd hc.symm hk
    case propCreate q ty now r f => cases ty <;> simp [PropType.coll] at hc
    case propGetOrCreate q ty now r f => cases ty <;> simp [PropType.coll] at hc
    case propUpdate q ty id now u => cases ty <;> simp [PropType.coll] at hc
    case propDelete q ty id => cases ty <;> simp [PropType.coll] at hc
  · exact .of_eq (agree_names (Same.agree (exec_same E hr hc kv))).2

/-- Several requests. -/
theorem runs_kept {E : Env Q} {p n m : Nat} {kv kv' : Kv} (h : Hist E n kv) (hn : n + m < 2 ^ 62) (hr : Runs E (Req.SparesEvents p) kv m kv') : Kept p kv kv' := by
  induction hr with
  | refl => exact .refl _ _
  | @step m kv1 r hrun hr hp ih =>
    have hre := hist_events (hrun.hist h) (by omega) p
    exact (ih (by omega)).trans (exec_kept hr hp (hre.inv (events_ok p)) (hre.room (events_ok p)))

/-- No two events have the same name. -/
theorem nameAt_inj {p : Nat} {kv : Kv} (hi : (eventsC p).Inv Event.Valid kv) {i j : Nat} {v : Str} (h1 : nameAt p kv i = some v) (h2 : nameAt p kv j = some v) : i = j := by
  unfold nameAt at h1 h2
  rw [Option.map_eq_some_iff] at h1 h2
  obtain ⟨x, hx, rfl⟩ := h1
  obtain ⟨y, hy, e⟩ := h2
  have a := (getBy_eq hi (i := (.name, fun e => some e.name)) (by simp [eventsC]) x.name (.ok x)).mpr (.inl ⟨i, x, hx, rfl, rfl⟩)
  have b := (getBy_eq hi (i := (.name, fun e => some e.name)) (by simp [eventsC]) x.name (.ok y)).mpr (.inl ⟨j, y, hy, congrArg some e, rfl⟩)
  have hxy : x = y := Except.ok.inj (a.symm.trans b)
  have e1 : x.id = i := (Inv.live_id hi hx).1
  have e2 : y.id = j := (Inv.live_id hi hy).1
  rw [← e1, ← e2, hxy]

/-- What a search by name finds. -/
theorem getBy_nameAt {p : Nat} {kv : Kv} (hi : (eventsC p).Inv Event.Valid kv) {v : Str} {ev : Event} (h : (eventsC p).getBy .name v kv = .ok ev) :
    nameAt p kv ev.id = some v := by
  rcases (getBy_eq hi (i := (.name, fun e => some e.name)) (by simp [eventsC]) v (.ok ev)).mp h with ⟨id, x, h1, h2, h3⟩ | ⟨-, h3⟩
  · cases h3
    have : ev.id = id := (Inv.live_id hi h1).1
    unfold nameAt
    rw [this, h1]
    exact h2
  · cases h3

end OptiPrism.Meta
