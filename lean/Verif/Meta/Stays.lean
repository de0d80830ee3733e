import Verif.Meta.SystemReach
import Verif.Meta.Members
import Verif.Meta.UpdateProps

/-!
# Records stay until they are changed or deleted

For events, custom events, dashboards and properties: a request that is not one to update or delete a record leaves the record as
it is, whatever else the request does. (Attaching properties to an event changes its lists of properties only, and these are not stored.)
-/

namespace OptiPrism.Meta

variable {Q R : Type}

/-- The requests that update or delete an event. -/
def Req.RewritesEvent (p id : Nat) : Req Q → Prop
  | .eventUpdate p' id' .. => p' = p ∧ id' = id
  | .eventDelete p' id' => p' = p ∧ id' = id
  | _ => False

/-- The requests that update or delete a custom event. -/
def Req.RewritesCustom (p id : Nat) : Req Q → Prop
  | .customUpdate p' id' .. => p' = p ∧ id' = id
  | .customDelete p' id' => p' = p ∧ id' = id
  | _ => False

/-- The requests that update or delete a dashboard. -/
def Req.RewritesDashboard (p id : Nat) : Req Q → Prop
  | .dashboardUpdate p' id' .. => p' = p ∧ id' = id
  | .dashboardDelete p' id' => p' = p ∧ id' = id
  | _ => False

/-- The requests that update or delete a property. -/
def Req.RewritesProp (p : Nat) (ty : PropType) (id : Nat) : Req Q → Prop
  | .propUpdate p' ty' id' .. => p' = p ∧ ty' = ty ∧ id' = id
  | .propDelete p' ty' id' => p' = p ∧ ty' = ty ∧ id' = id
  | _ => False

/-- The same event but for the lists of its properties. -/
def Event.SameBut (r r' : Event) : Prop :=
  ∃ a b, r' = { r with eventProperties := a, userProperties := b }

theorem create_stays {c : Coll R} {norm : R → R} {Valid : R → Prop} (ok : c.Ok norm Valid) {kv : Kv} (inv : c.Inv Valid kv)
    (hl : lastId kv c.ns + 1 < 2 ^ 64) {keys : List (Option Key)} {mk : Nat → R} (ho : (Op.create keys mk).Ok c Valid) {id : Nat} {x : R}
    (hx : c.live kv id = some x) {a : R} {kv' : Kv} (e : c.create keys mk kv = .ok (a, kv')) : c.live kv' id = some x := by
  obtain ⟨-, h0, -, h3⟩ := create_done ok inv hl ho e
  rw [h3]
  split
  · rename_i hid
    rw [← hid, hx] at h0
    cases h0
  · exact hx

theorem update_stays {c : Coll R} {norm : R → R} {Valid : R → Prop} (ok : c.Ok norm Valid) {kv : Kv} (inv : c.Inv Valid kv)
    {id' : Nat} {pairs : R → List (Option Key × Option Key)} {f : R → Except Err R} {t : R → R} (ho : (Op.update id' pairs f t).Ok c Valid)
    {id : Nat} {x : R} (hne : id ≠ id') (hx : c.live kv id = some x) : c.live (runCall (c.update id' pairs f) kv).2 id = some x := by
  unfold runCall
  cases e : c.update id' pairs f kv with
  | error e => exact hx
  | ok a =>
    obtain ⟨a, kv'⟩ := a
    obtain ⟨r, -, -, -, h3⟩ := update_done ok inv ho e
    show c.live kv' id = some x
    rw [h3, if_neg hne]
    exact hx

theorem delete_stays {c : Coll R} {norm : R → R} {Valid : R → Prop} (ok : c.Ok norm Valid) {kv : Kv} (inv : c.Inv Valid kv)
    {id' id : Nat} {x : R} (hne : id ≠ id') (hx : c.live kv id = some x) : c.live (runCall (c.delete id') kv).2 id = some x := by
  unfold runCall
  rcases delete_spec ok inv id' with ⟨-, e⟩ | ⟨r, kv', -, e, -, -, h3⟩
  · rw [e]; exact hx
  · rw [e]
    show c.live kv' id = some x
    rw [h3, if_neg hne]
    exact hx

/-! ## Dashboards -/

theorem dashboard_step {E : Env Q} {n : Nat} {kv : Kv} (h : Hist E n kv) (hn : n < 2 ^ 62) {p id : Nat} {x : Dashboard}
    (hx : (dashboardsC p).live kv id = some x) {r : Req Q} (hr : r.Ok) (hl : ¬ r.RewritesDashboard p id) :
    (dashboardsC p).live (r.exec E kv) id = some x := by
  by_cases hm : Mod.coll (Ns.proj p .dashboards) ∈ r.mods
  case neg =>
    rw [AgreeOn.live (c := dashboardsC p) (exec_agree E hr hm kv)]
    exact hx
  have re := hist_dashboards h hn p
  have inv := re.inv (dashboards_ok p)
  cases r <;> simp only [Req.mods, List.mem_cons, List.not_mem_nil, or_false, Mod.coll.injEq, reduceCtorEq, Ns.proj.injEq, or_self, and_true, and_false] at hm
  case dashboardCreate p' now req =>
    subst hm
    show (dashboardsC p).live (runCall (dashboardCreate p now req) kv).2 id = _
    unfold runCall
    cases e : dashboardCreate p now req kv with
    | error e => exact hx
    | ok a =>
      exact create_stays (dashboards_ok p) inv (re.room (dashboards_ok p))
        (mk := fun id => { req with id := id, createdAt := now, updatedAt := none, updatedBy := none, projectId := p })
        (⟨fun _ => rfl, fun _ => rfl, fun id hid => ⟨⟨hid, hr.2.1, optOk_none⟩, hr.1, hr.2.2⟩⟩) hx e
  case dashboardUpdate p' id' now q =>
    subst hm
    refine update_stays (dashboards_ok p) inv (t := q.apply now) (noix_ok _ (fun r r' e => by injection e with e; exact e.symm)
      (fun _ => rfl) (fun r h => ?_) (by simp [dashboardsC])) (fun e => hl ⟨rfl, e.symm⟩) hx
    refine ⟨⟨h.head.id, h.head.createdBy, optOk_some hr.1⟩, h.proj, ?_⟩
    intro e he
    simp only [DashboardUpd.apply] at he
    cases hq : q.panels with
    | none => rw [hq] at he; exact h.panels e he
    | some l => rw [hq] at he; exact hr.2 l hq e he
  case dashboardDelete p' id' => subst hm; exact delete_stays (dashboards_ok p) inv (fun e => hl ⟨rfl, e.symm⟩) hx
  case propCreate p' ty now r f => cases ty <;> simp [PropType.coll] at hm
  case propGetOrCreate p' ty now r f => cases ty <;> simp [PropType.coll] at hm
  case propUpdate p' ty id now q => cases ty <;> simp [PropType.coll] at hm
  case propDelete p' ty id => cases ty <;> simp [PropType.coll] at hm

theorem dashboard_stays {E : Env Q} {n m : Nat} {kv kv' : Kv} (h : Hist E n kv) {p id : Nat} {x : Dashboard}
    (hx : (dashboardsC p).live kv id = some x) (hr : Runs E (fun r => ¬ r.RewritesDashboard p id) kv m kv') (hn : n + m < 2 ^ 62) :
    (dashboardsC p).live kv' id = some x := by
  induction hr with
  | refl => exact hx
  | step r hs ho hp ih => exact dashboard_step (hs.hist h) (by omega) (ih (by omega)) ho hp

/-! ## Custom events -/

theorem custom_step {E : Env Q} {n : Nat} {kv : Kv} (h : Hist E n kv) (hn : n < 2 ^ 62) {p id : Nat} {x : CustomEvent}
    (hx : (customC p).live kv id = some x) {r : Req Q} (hr : r.Ok) (hl : ¬ r.RewritesCustom p id) :
    (customC p).live (r.exec E kv) id = some x := by
  by_cases hm : Mod.coll (Ns.proj p .customEvents) ∈ r.mods
  case neg =>
    rw [AgreeOn.live (c := customC p) (exec_agree E hr hm kv)]
    exact hx
  have re := hist_customs h hn p
  have inv := re.inv (custom_ok p)
  cases r <;> simp only [Req.mods, List.mem_cons, List.not_mem_nil, or_false, Mod.coll.injEq, reduceCtorEq, Ns.proj.injEq, or_self, and_true, and_false] at hm
  case customCreate p' now req =>
    subst hm
    show (customC p).live (runCall (customCreate p now req) kv).2 id = _
    unfold runCall
    cases e : customCreate p now req kv with
    | error e => exact hx
    | ok a =>
      unfold customCreate at e
      split at e
      · cases e
      · split at e
        · cases e
        · exact create_stays (custom_ok p) inv (re.room (custom_ok p)) (customCreate_ok (now := now) hr) hx e
  case customUpdate p' id' now q =>
    subst hm
    exact update_stays (custom_ok p) inv (customUpdate_ok hr kv) (fun e => hl ⟨rfl, e.symm⟩) hx
  case customDelete p' id' => subst hm; exact delete_stays (custom_ok p) inv (fun e => hl ⟨rfl, e.symm⟩) hx
  case propCreate p' ty now r f => cases ty <;> simp [PropType.coll] at hm
  case propGetOrCreate p' ty now r f => cases ty <;> simp [PropType.coll] at hm
  case propUpdate p' ty id now q => cases ty <;> simp [PropType.coll] at hm
  case propDelete p' ty id => cases ty <;> simp [PropType.coll] at hm

theorem custom_stays {E : Env Q} {n m : Nat} {kv kv' : Kv} (h : Hist E n kv) {p id : Nat} {x : CustomEvent}
    (hx : (customC p).live kv id = some x) (hr : Runs E (fun r => ¬ r.RewritesCustom p id) kv m kv') (hn : n + m < 2 ^ 62) :
    (customC p).live kv' id = some x := by
  induction hr with
  | refl => exact hx
  | step r hs ho hp ih => exact custom_step (hs.hist h) (by omega) (ih (by omega)) ho hp

/-! ## Properties -/

theorem prop_step {E : Env Q} {n : Nat} {kv : Kv} (h : Hist E n kv) (hn : n < 2 ^ 62) {p : Nat} {ty : PropType} {id : Nat} {x : Property}
    (hx : (propsC p ty).live kv id = some x) {r : Req Q} (hr : r.Ok) (hl : ¬ r.RewritesProp p ty id) :
    (propsC p ty).live (r.exec E kv) id = some x := by
  by_cases hm : Mod.coll (Ns.proj p ty.coll) ∈ r.mods
  case neg =>
    rw [AgreeOn.live (c := propsC p ty) (exec_agree E hr hm kv)]
    exact hx
  have re := hist_props h hn p ty
  have inv := re.inv (props_ok p ty)
  have hne : ty.coll ≠ .events ∧ ty.coll ≠ .customEvents ∧ ty.coll ≠ .dashboards ∧ ty.coll ≠ .reports ∧ ty.coll ≠ .global := by
    cases ty <;> simp [PropType.coll]
  obtain ⟨h1, h2, h3, h4, h5⟩ := hne
  have new : ∀ (now : Time) (req : Property) (f : Except Err Unit) (a : Property) (kv' : Kv),
      p < 2 ^ 64 ∧ req.createdBy < 2 ^ 64 ∧ (∀ g, req.typ = .group g → g < 2 ^ 64) → propCreate E.sys p ty now req f kv = .ok (a, kv') →
      (propsC p ty).live kv' id = some x := by
    intro now req f a kv' hr e
    obtain ⟨o, kv1, ho, hnum, e1, hag⟩ := propCreate_inv e
    rw [AgreeOn.live (c := propsC p ty) hag]
    exact create_stays (props_ok p ty) inv (re.room (props_ok p ty)) (propCreate_ok ho hr.1 hr.2.1 hr.2.2 hnum) hx e1
  cases r <;> simp only [Req.mods, List.mem_cons, List.not_mem_nil, or_false, Mod.coll.injEq, reduceCtorEq, Ns.proj.injEq, or_self,
    h1, h2, h3, h4, h5, and_false] at hm
  case propCreate p' ty' now req f =>
    obtain ⟨rfl, hm⟩ := hm
    cases PropType.coll_inj hm
    show (propsC p ty).live (runCall (propCreate E.sys p ty now req f) kv).2 id = _
    unfold runCall
    cases e : propCreate E.sys p ty now req f kv with
    | error e => exact hx
    | ok a => exact new now req f _ _ hr e
  case propGetOrCreate p' ty' now req f =>
    obtain ⟨rfl, hm⟩ := hm
    cases PropType.coll_inj hm
    show (propsC p ty).live (runCall (propGetOrCreate E.sys p ty now req f) kv).2 id = _
    unfold runCall
    cases e : propGetOrCreate E.sys p ty now req f kv with
    | error e => exact hx
    | ok a =>
      unfold propGetOrCreate at e
      split at e
      · cases e; exact hx
      · exact new now req f _ _ hr e
      · cases e
  case propUpdate p' ty' id' now q =>
    obtain ⟨rfl, hm⟩ := hm
    cases PropType.coll_inj hm
    exact update_stays (props_ok p ty) inv (propUpdate_ok hr) (fun e => hl ⟨rfl, rfl, e.symm⟩) hx
  case propDelete p' ty' id' =>
    obtain ⟨rfl, hm⟩ := hm
    cases PropType.coll_inj hm
    exact delete_stays (props_ok p ty) inv (fun e => hl ⟨rfl, rfl, e.symm⟩) hx

theorem prop_stays {E : Env Q} {n m : Nat} {kv kv' : Kv} (h : Hist E n kv) {p : Nat} {ty : PropType} {id : Nat} {x : Property}
    (hx : (propsC p ty).live kv id = some x) (hr : Runs E (fun r => ¬ r.RewritesProp p ty id) kv m kv') (hn : n + m < 2 ^ 62) :
    (propsC p ty).live kv' id = some x := by
  induction hr with
  | refl => exact hx
  | step r hs ho hp ih => exact prop_step (hs.hist h) (by omega) (ih (by omega)) ho hp

/-! ## Events -/

theorem createEvent_stays {p id : Nat} {now : Time} {r : Event} {kv : Kv} {x : Event} (re : Reach (eventsC p) Event.Valid kv)
    (hp : p < 2 ^ 64) (hb : r.createdBy < 2 ^ 64) (hx : (eventsC p).live kv id = some x) :
    (eventsC p).live (createEvent p now r kv).2 id = some x := by
  unfold createEvent
  cases e1 : eventCreate p now r kv with
  | error e => exact hx
  | ok v =>
    obtain ⟨ev, kv1⟩ := v
    have h1 := create_stays (events_ok p) (re.inv (events_ok p)) (re.room (events_ok p)) (eventCreate_ok (now := now) hp hb) hx e1
    dsimp only
    cases e2 : dictGetOrCreate p kEvents kEvent ev.name kv1 with
    | error e => exact h1
    | ok v =>
      obtain ⟨y, kv2⟩ := v
      show (eventsC p).live kv2 id = some x
      rw [AgreeOn.live (c := eventsC p) (Same.agree ((dict_touches kEvents_ok ev.name kv1 y kv2 e2).same
        (by intro k hk; rw [List.mem_singleton.mp hk]; simp [eventsC])))]
      exact h1

/-- Stored events differ in nothing then, for their lists of properties are not stored. -/
theorem Event.SameBut.norm_eq {r r' : Event} (h : r.SameBut r') : r'.norm = r.norm := by
  obtain ⟨a, b, rfl⟩ := h
  rfl

/-- An update that changes nothing but the lists of properties. -/
theorem lists_step {p id id' : Nat} {kv : Kv} (re : Reach (eventsC p) Event.Valid kv) {f : Event → Except Err Event} {t : Event → Event}
    (h1 : ∀ r r', f r = .ok r' → r' = t r) (ht : ∀ r : Event, r.SameBut (t r)) {x : Event} (hx : (eventsC p).live kv id = some x) :
    (eventsC p).live (runCall ((eventsC p).update id' (fun _ => []) f) kv).2 id = some x := by
  have ho : (Op.update id' (fun _ => []) f t).Ok (eventsC p) Event.Valid := by
    refine noix_ok _ h1 ?_ ?_ ?_
    · intro r; obtain ⟨a, b, e⟩ := ht r; rw [e]; rfl
    · intro r h; obtain ⟨a, b, e⟩ := ht r; rw [e]; exact ⟨h.head, h.proj⟩
    · intro r i hi
      obtain ⟨a, b, e⟩ := ht r
      rw [e]
      simp only [eventsC, List.mem_cons, List.not_mem_nil, or_false] at hi
      rcases hi with rfl | rfl <;> rfl
  by_cases hid : id = id'
  · subst hid
    unfold runCall
    cases e : (eventsC p).update id (fun _ => []) f kv with
    | error e => exact hx
    | ok a =>
      obtain ⟨a, kv'⟩ := a
      obtain ⟨r, hr, -, -, h3⟩ := update_done (events_ok p) (re.inv (events_ok p)) ho e
      rw [hx] at hr
      cases hr
      show (eventsC p).live kv' id = _
      rw [h3, if_pos rfl, (ht x).norm_eq, re.fixed (events_ok p) Event.norm_norm hx]
  · exact update_stays (events_ok p) (re.inv (events_ok p)) ho hid hx

theorem PropList.set_same (w : PropList) (r : Event) (l : Option (List Nat)) : r.SameBut (w.set r l) := by
  cases w
  · exact ⟨l, r.userProperties, rfl⟩
  · exact ⟨r.eventProperties, l, rfl⟩

theorem event_step {E : Env Q} {n : Nat} {kv : Kv} (h : Hist E n kv) (hn : n < 2 ^ 62) {p id : Nat} {x : Event}
    (hx : (eventsC p).live kv id = some x) {r : Req Q} (hr : r.Ok) (hl : ¬ r.RewritesEvent p id) :
    (eventsC p).live (r.exec E kv) id = some x := by
  by_cases hm : Mod.coll (Ns.proj p .events) ∈ r.mods
  case neg =>
    rw [AgreeOn.live (c := eventsC p) (exec_agree E hr hm kv)]
    exact hx
  have re := hist_events h hn p
  have inv := re.inv (events_ok p)
  cases r <;> simp only [Req.mods, List.mem_cons, List.not_mem_nil, or_false, Mod.coll.injEq, reduceCtorEq, Ns.proj.injEq, or_self, and_true, and_false] at hm
  case eventCreate p' now r => subst hm; exact createEvent_stays re hr.1 hr.2 hx
  case eventGetOrCreate p' now r =>
    subst hm
    simp only [Req.exec, getOrCreateEvent]
    split
    · exact hx
    · exact createEvent_stays re hr.1 hr.2 hx
    · exact hx
  case eventUpdate p' id' now q =>
    subst hm
    exact update_stays (events_ok p) inv (eventUpdate_ok hr) (fun e => hl ⟨rfl, e.symm⟩) hx
  case eventAttach w p' id' a =>
    subst hm
    refine lists_step re (t := fun e => w.set e (some ((w.get e).getD [] ++ [a]))) ?_ (fun r => w.set_same r _) hx
    intro r r' e
    try dsimp only at e
    cases hg : w.get r with
    | none => rw [hg] at e; injection e with e; rw [← e]; rfl
    | some l =>
      rw [hg] at e
      try dsimp only at e
      split at e
      · cases e
      · injection e with e; rw [← e]; rfl
  case eventDetach w p' id' a =>
    subst hm
    refine lists_step re (t := fun e => w.set e (some (((w.get e).getD []).filter (· ≠ a)))) ?_ (fun r => w.set_same r _) hx
    intro r r' e
    try dsimp only at e
    cases hg : w.get r with
    | none => rw [hg] at e; cases e
    | some l =>
      rw [hg] at e
      try dsimp only at e
      split at e
      · injection e with e; rw [← e]; rfl
      · cases e
  case eventTryAttach p' id' ps =>
    subst hm
    exact lists_step re (t := fun e => { e with eventProperties := tryAttach e.eventProperties ps })
      (fun r r' e => by injection e with e; exact e.symm) (fun r => ⟨_, r.userProperties, rfl⟩) hx
  case eventDelete p' id' => subst hm; exact delete_stays (events_ok p) inv (fun e => hl ⟨rfl, e.symm⟩) hx
  case propCreate p' ty now r f => cases ty <;> simp [PropType.coll] at hm
  case propGetOrCreate p' ty now r f => cases ty <;> simp [PropType.coll] at hm
  case propUpdate p' ty id now q => cases ty <;> simp [PropType.coll] at hm
  case propDelete p' ty id => cases ty <;> simp [PropType.coll] at hm

theorem event_stays {E : Env Q} {n m : Nat} {kv kv' : Kv} (h : Hist E n kv) {p id : Nat} {x : Event}
    (hx : (eventsC p).live kv id = some x) (hr : Runs E (fun r => ¬ r.RewritesEvent p id) kv m kv') (hn : n + m < 2 ^ 62) :
    (eventsC p).live kv' id = some x := by
  induction hr with
  | refl => exact hx
  | step r hs ho hp ih => exact event_step (hs.hist h) (by omega) (ih (by omega)) ho hp

end OptiPrism.Meta
