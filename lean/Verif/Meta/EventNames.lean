import Verif.Meta.SystemReach
import Verif.Meta.Dicts

/-!
# The dictionary of the column `event`

An event's number is taken from the sequence of the events, the number of its name in the dictionary of the column
`event` from the sequence of the dictionary. The invariant here is that the two go in step.
-/

namespace OptiPrism.Meta

open OptiPrism.Storage (Bytes)

variable {Q : Type}

/-- The name of an event by its number. -/
def nameAt (p : Nat) (kv : Kv) (id : Nat) : Option Str := ((eventsC p).live kv id).map Event.name

structure InStep (p : Nat) (kv : Kv) : Prop where
  last : lastId kv (.proj p .events) = dictLast p kEvents kEvent kv
  name : ∀ id v, nameAt p kv id = some v → getK kv (.dictVal p kEvents kEvent v) = some (le64 id)
  all : ∀ v b, getK kv (.dictVal p kEvents kEvent v) = some b → ∃ id, nameAt p kv id = some v

theorem InStep.empty (p : Nat) : InStep p [] where
  last := by simp [lastId, dictLast, getK, Kv.get]
  name := by intro id v h; simp [nameAt, Coll.live, getK, Kv.get] at h
  all := by intro v b h; simp [getK, Kv.get] at h

theorem InStep.same {p : Nat} {kv kv' : Kv} (h : InStep p kv) (h1 : lastId kv' (.proj p .events) = lastId kv (.proj p .events))
    (h2 : ∀ j, nameAt p kv' j = nameAt p kv j) (h3 : Same (.dict p kEvents kEvent) kv kv') : InStep p kv' := by
  have hw : '/' ∉ kEvents ∧ '/' ∉ kEvent := kEvents_ok
  have e1 : dictLast p kEvents kEvent kv' = dictLast p kEvents kEvent kv := by
    unfold dictLast
    rw [h3 (.dictSeq p kEvents kEvent) hw rfl]
  have e2 : ∀ v, getK kv' (.dictVal p kEvents kEvent v) = getK kv (.dictVal p kEvents kEvent v) := fun v => h3 _ hw rfl
  refine ⟨by rw [h1, e1]; exact h.last, fun id v hv => by rw [h2] at hv; rw [e2]; exact h.name id v hv, fun v b hv => ?_⟩
  rw [e2] at hv
  obtain ⟨id, hid⟩ := h.all v b hv
  exact ⟨id, by rw [h2]; exact hid⟩

theorem agree_names {p : Nat} {kv kv' : Kv} (h : AgreeOn (.proj p .events) kv kv') :
    lastId kv' (.proj p .events) = lastId kv (.proj p .events) ∧ ∀ j, nameAt p kv' j = nameAt p kv j :=
  ⟨h.last, fun j => by unfold nameAt; rw [h.live (c := eventsC p) j]⟩

/-- An update that keeps the name. -/
theorem update_names {p id : Nat} {pairs : Event → List (Option Key × Option Key)} {f : Event → Except Err Event} {t : Event → Event} {kv : Kv}
    (hi : (eventsC p).Inv Event.Valid kv) (ok : (Op.update id pairs f t).Ok (eventsC p) Event.Valid) (hn : ∀ r, (t r).name = r.name) :
    lastId (runCall ((eventsC p).update id pairs f) kv).2 (.proj p .events) = lastId kv (.proj p .events) ∧
      ∀ j, nameAt p (runCall ((eventsC p).update id pairs f) kv).2 j = nameAt p kv j := by
  obtain ⟨h1, h2, h3, sel, h4, h5, h6, h7⟩ := ok
  have triv : lastId kv (.proj p .events) = lastId kv (.proj p .events) ∧ ∀ j, nameAt p kv j = nameAt p kv j := ⟨rfl, fun _ => rfl⟩
  rcases update_spec (events_ok p) hi h4 h5 h1 h6 h7 h2 h3 (id := id) with ⟨-, e⟩ | ⟨r, hr, ⟨-, e⟩ | ⟨-, ⟨_, -, e⟩ | ⟨-, kv', e, -, e1, e2⟩⟩⟩
  · rw [runCall, e]; exact triv
  · rw [runCall, e]; exact triv
  · rw [runCall, e]; exact triv
  · simp only [runCall, e]
    refine ⟨e1, fun j => ?_⟩
    unfold nameAt
    rw [e2]
    split
    · rename_i hj
      subst hj
      rw [hr]
      show some ((t r).norm.name) = some r.name
      rw [show (t r).norm.name = (t r).name from rfl, hn]
    · rfl

/-- Spec: the request leaves names of existing events of the project, and the dictionary of the column `event`, to the
creation of events. -/
def Req.KeepsNames (p : Nat) : Req Q → Prop
  | .eventDelete q _ => q ≠ p
  | .eventUpdate q _ _ u => q = p → u.name = none
  | .dictGet q t d _ => ¬ (q = p ∧ t = kEvents ∧ d = kEvent)
  | .dictPut q t d _ _ => ¬ (q = p ∧ t = kEvents ∧ d = kEvent)
  | _ => True

theorem createEvent_inStep {p : Nat} (hp : p < 2 ^ 64) {now : Time} {r : Event} (hb : r.createdBy < 2 ^ 64) {kv : Kv} (hi : (eventsC p).Inv Event.Valid kv)
    (hl : lastId kv (.proj p .events) + 1 < 2 ^ 64) (hd : DInv p kEvents kEvent kv) (h : InStep p kv) :
    InStep p (createEvent p now r kv).2 ∧ ∀ ev, (createEvent p now r kv).1 = .ok ev → nameAt p (createEvent p now r kv).2 ev.id = some r.name := by
  obtain ⟨h1, h2, h3⟩ := eventCreate_ok (now := now) hp hb
  unfold createEvent
  rcases create_spec (events_ok p) hi hl h1 h2 h3 with ⟨-, e⟩ | ⟨hnt, kv1, e, hi1, e1, e2⟩
  · rw [show eventCreate p now r kv = _ from e]; exact ⟨h, fun ev hev => by cases hev⟩
  · rw [show eventCreate p now r kv = _ from e]
    have hns : (eventsC p).ns = .proj p .events := rfl
    rw [hns] at e e1 e2 hnt
    have hw : '/' ∉ kEvents ∧ '/' ∉ kEvent := kEvents_ok
    have hsame : Same (.dict p kEvents kEvent) kv kv1 := (eventCreate_touches p now r kv _ kv1 e).same (by
      intro k hk; rw [List.mem_singleton.mp hk]; simp)
    obtain ⟨hd1, hl1⟩ := hd.same hw hsame
    have hfree : ∀ j, nameAt p kv j ≠ some r.name := by
      intro j hj
      unfold nameAt at hj
      rw [Option.map_eq_some_iff] at hj
      obtain ⟨x, hx, hxn⟩ := hj
      exact hnt ⟨(.name, fun e => some e.name), by simp [eventsC], r.name, j, x, rfl, hx, congrArg some hxn⟩
    have hdn : getK kv1 (.dictVal p kEvents kEvent r.name) = none := by
      rw [hsame (.dictVal p kEvents kEvent r.name) hw rfl]
      cases hx : getK kv (.dictVal p kEvents kEvent r.name) with
      | none => rfl
      | some b => obtain ⟨j, hj⟩ := h.all _ _ hx; exact absurd hj (hfree j)
    have hlast := h.last
    rcases dictGet_spec hw hd1 (by rw [hl1, ← hlast]; exact hl) r.name with ⟨k, hk, -⟩ | ⟨-, kv2, e3, -, e4, e5, e6⟩
    · rw [dictGetKey, hdn] at hk; cases hk
    · have hx : ∀ P : Except Err Event × Kv → Prop, P (.ok (eventMk p now r (lastId kv (.proj p .events) + 1)), kv2) →
          P (match dictGetOrCreate p kEvents kEvent r.name kv1 with
        | .error e => ((.error e : Except Err Event), kv1)
        | .ok (_, kv2) => (.ok (eventMk p now r (lastId kv (.proj p .events) + 1)), kv2)) := by
        intro P hP; rw [e3]; exact hP
      refine hx (fun y => InStep p y.2 ∧ ∀ ev, y.1 = .ok ev → nameAt p y.2 ev.id = some r.name) ?_
      dsimp only
      have hag : AgreeOn (.proj p .events) kv1 kv2 := Same.agree ((dict_touches hw r.name kv1 _ kv2 e3).same (by
        intro k hk; rw [List.mem_singleton.mp hk]; simp))
      obtain ⟨g1, g2⟩ := agree_names hag
      have names : ∀ j, nameAt p kv2 j = if j = lastId kv (.proj p .events) + 1 then some r.name else nameAt p kv j := by
        intro j
        rw [g2]
        unfold nameAt
        rw [e2]
        split
        · rfl
        · rfl
      have hnone : nameAt p kv (lastId kv (.proj p .events) + 1) = none := by
        cases hx : nameAt p kv (lastId kv (.proj p .events) + 1) with
        | none => rfl
        | some v =>
          unfold nameAt at hx
          rw [Option.map_eq_some_iff] at hx
          obtain ⟨x, hx, -⟩ := hx
          have : lastId kv (.proj p .events) + 1 ≤ lastId kv (.proj p .events) := (Inv.live_id hi hx).2.2.1
          omega
      refine ⟨⟨by rw [g1, e1, e4, hl1, hlast], fun j v hj => ?_, fun v b hb => ?_⟩, fun ev hev => ?_⟩
      · rw [names] at hj
        split at hj
        · rename_i hj'
          cases hj
          rw [e5, hj', hl1, hlast]
        · have hne : v ≠ r.name := by rintro rfl; exact hfree j hj
          rw [e6 v hne, hsame (.dictVal p kEvents kEvent v) hw rfl]
          exact h.name j v hj
      · by_cases hv : v = r.name
        · exact ⟨lastId kv (.proj p .events) + 1, by rw [names, if_pos rfl, hv]⟩
        · rw [e6 v hv, hsame (.dictVal p kEvents kEvent v) hw rfl] at hb
          obtain ⟨j, hj⟩ := h.all v b hb
          refine ⟨j, ?_⟩
          rw [names, if_neg]
          · exact hj
          · rintro rfl; rw [hnone] at hj; cases hj
      · cases hev
        rw [names]
        exact if_pos rfl

theorem getOrCreateEvent_inStep {p : Nat} (hp : p < 2 ^ 64) {now : Time} {r : Event} (hb : r.createdBy < 2 ^ 64) {kv : Kv} (hi : (eventsC p).Inv Event.Valid kv)
    (hl : lastId kv (.proj p .events) + 1 < 2 ^ 64) (hd : DInv p kEvents kEvent kv) (h : InStep p kv) :
    InStep p (getOrCreateEvent p now r kv).2 ∧
      ∀ ev, (getOrCreateEvent p now r kv).1 = .ok ev → nameAt p (getOrCreateEvent p now r kv).2 ev.id = some r.name := by
  unfold getOrCreateEvent
  split
  · rename_i ev e
    refine ⟨h, fun ev' hev => ?_⟩
    cases hev
    rcases (getBy_eq hi (i := (.name, fun e => some e.name)) (by simp [eventsC]) r.name (.ok ev)).mp e with ⟨id, x, h1, h2, h3⟩ | ⟨-, h3⟩
    · cases h3
      have : ev.id = id := (Inv.live_id hi h1).1
      unfold nameAt
      rw [this, h1]
      exact h2
    · cases h3
  · exact createEvent_inStep hp hb hi hl hd h
  · exact ⟨h, fun ev hev => by cases hev⟩

/-- One request. -/
theorem exec_inStep {E : Env Q} {p : Nat} {r : Req Q} (hr : r.Ok) (hk : r.KeepsNames p) {kv : Kv} (hi : (eventsC p).Inv Event.Valid kv)
    (hl : lastId kv (.proj p .events) + 1 < 2 ^ 64) (hd : DInv p kEvents kEvent kv) (h : InStep p kv) : InStep p (r.exec E kv) := by
  by_cases hm : Mod.dict p kEvents kEvent ∈ r.mods
  · cases r <;> simp [Req.mods] at hm
    case eventCreate q now r => subst hm; exact (createEvent_inStep hr.1 hr.2 hi hl hd h).1
    case eventGetOrCreate q now r =>
      subst hm
      exact (getOrCreateEvent_inStep hr.1 hr.2 hi hl hd h).1
    case dictGet q t d v => obtain ⟨rfl, rfl, rfl⟩ := hm; exact absurd ⟨rfl, rfl, rfl⟩ hk
    case dictPut q t d n v => obtain ⟨rfl, rfl, rfl⟩ := hm; exact absurd ⟨rfl, rfl, rfl⟩ hk
  · have hs : Same (.dict p kEvents kEvent) kv (r.exec E kv) := exec_same E hr hm kv
    suffices hn : lastId (r.exec E kv) (.proj p .events) = lastId kv (.proj p .events) ∧ ∀ j, nameAt p (r.exec E kv) j = nameAt p kv j from h.same hn.1 hn.2 hs
    by_cases hc : Mod.coll (.proj p .events) ∈ r.mods
    · cases r <;> simp only [Req.mods, List.mem_cons, List.not_mem_nil, or_false, Mod.coll.injEq, reduceCtorEq, Ns.proj.injEq, or_self, and_true, and_false] at hc
      case eventCreate q now r => subst hc; simp [Req.mods] at hm
      case eventGetOrCreate q now r => subst hc; simp [Req.mods] at hm
      case eventUpdate q id now u =>
        subst hc
        refine update_names hi (eventUpdate_ok hr) (t := u.apply now) fun r => ?_
        simp [EventUpd.apply, hk rfl]
      case eventAttach w q id x =>
        subst hc
        refine update_names hi (t := fun e => w.set e (some ((w.get e).getD [] ++ [x]))) (noix_ok _ ?_ ?_ ?_ ?_) fun r => by cases w <;> rfl
        · intro r r' e
          try dsimp only at e
          cases hg : w.get r with
          | none => rw [hg] at e; injection e with e; rw [← e]; rfl
          | some l =>
            rw [hg] at e
            try dsimp only at e
            split at e
            · cases e
            · injection e with e; rw [← e]; rfl
        · intro r; cases w <;> rfl
        · intro r h; exact w.set_valid h _
        · intro r i hi; simp [eventsC] at hi; rcases hi with rfl | rfl <;> cases w <;> rfl
      case eventDetach w q id x =>
        subst hc
        refine update_names hi (t := fun e => w.set e (some (((w.get e).getD []).filter (· ≠ x)))) (noix_ok _ ?_ ?_ ?_ ?_) fun r => by cases w <;> rfl
        · intro r r' e
          try dsimp only at e
          cases hg : w.get r with
          | none => rw [hg] at e; cases e
          | some l =>
            rw [hg] at e
            try dsimp only at e
            split at e
            · injection e with e; rw [← e]; rfl
            · cases e
        · intro r; cases w <;> rfl
        · intro r h; exact w.set_valid h _
        · intro r i hi; simp [eventsC] at hi; rcases hi with rfl | rfl <;> cases w <;> rfl
      case eventTryAttach q id ps =>
        subst hc
        refine update_names hi (t := fun e => { e with eventProperties := tryAttach e.eventProperties ps }) (noix_ok _ ?_ ?_ ?_ ?_) fun r => rfl
        · intro r r' e; injection e with e; exact e.symm
        · intro r; rfl
        · intro r h; exact ⟨h.head, h.proj⟩
        · intro r i hi; simp [eventsC] at hi; rcases hi with rfl | rfl <;> rfl
      case eventDelete q id => exact absurd hc.symm hk
      case propCreate q ty now r f => cases ty <;> simp [PropType.coll] at hc
      case propGetOrCreate q ty now r f => cases ty <;> simp [PropType.coll] at hc
      case propUpdate q ty id now u => cases ty <;> simp [PropType.coll] at hc
      case propDelete q ty id => cases ty <;> simp [PropType.coll] at hc
    · exact agree_names (Same.agree (exec_same E hr hc kv))

/-- Over histories. -/
theorem runs_inStep {E : Env Q} {p n : Nat} {kv : Kv} (h : Runs E (Req.KeepsNames p) [] n kv) (hn : n < 2 ^ 62) :
    InStep p kv ∧ DInv p kEvents kEvent kv ∧ (eventsC p).Inv Event.Valid kv := by
  have hist : ∀ {n kv}, Runs E (Req.KeepsNames p) [] n kv → Hist E n kv := fun h => by simpa using h.hist .start
  have nop : ∀ {n kv}, Runs E (Req.KeepsNames p) [] n kv → Runs E (Req.NoPut p kEvents kEvent) [] n kv := fun h => by
    induction h with
    | refl => exact .refl
    | step r _ hr hp ih => exact .step r ih hr (by cases r <;> first | trivial | exact hp)
  have hd : ∀ {n kv}, n < 2 ^ 62 → Runs E (Req.KeepsNames p) [] n kv → DInv p kEvents kEvent kv := fun hn h =>
    ((nop h).dict kEvents_ok (DInv.empty p _ _) (by simp only [dictLast, getK, Kv.get]; simp; omega)).1
  refine ⟨?_, hd hn h, (hist_events (hist h) hn p).inv (events_ok p)⟩
  induction h with
  | refl => exact .empty p
  | @step n kv r hrun hr hp ih =>
    have hn' : n < 2 ^ 62 := by omega
    have hre := hist_events (hist hrun) hn' p
    exact exec_inStep hr hp (hre.inv (events_ok p)) (hre.room (events_ok p)) (hd hn' hrun) (ih hn')

end OptiPrism.Meta
