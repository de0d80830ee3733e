import Verif.Platform.SchemaKindsProps
import Verif.Platform.SettingsApiProps
import Verif.Meta.AttachProps

/-!
# Where the schema API does not show what it was given, and cases that meet the hypotheses
-/

namespace OptiPrism.Platform

open OptiPrism.Meta (Str Time Kv Err Event PropType Env Req Hist Runs exAllKv exAll_hist exEnv eventsC)

variable {N : Type} {Q : Type}

/-- Numbers as mantissa and scale. -/
def scaledEnv : ReqEnv (Int × Nat) where
  dec n := some (BitVec.ofInt 128 n.1, n.2)
  num m s := some (m.toInt, s)
  under := none
  snake s := s

theorem exAdmin_sees (p : Nat) : Sees exAdmin p := ⟨⟨rfl, rfl, rfl, rfl⟩, ⟨rfl, rfl, rfl⟩, ⟨rfl, rfl, rfl⟩, ⟨rfl, rfl, rfl, rfl⟩⟩

/-- A custom event of purchases with a condition on the price. -/
def exBig (v : Option (List (JVal (Int × Nat)))) : JCustomNew (Int × Nat) :=
  ⟨none, "big".toList, none, .enabled, false, [⟨.regular "buy".toList, some [⟨.event "price".toList, .gt, v⟩]⟩]⟩

/-- The parts of the custom event in an answer. -/
def partsShown (x : Option (Except Refusal (Shown N)) × Kv) : Option (Nat × List (JCustomPart N)) :=
  match x.1 with
  | some (.ok (.custom j)) => some (j.id, j.events)
  | _ => none

theorem partsShown_of {x : Option (Except Refusal (Shown N)) × Kv} {i : Nat} {l : List (JCustomPart N)} (h : partsShown x = some (i, l)) :
    ∃ j, x = (some (.ok (.custom j)), x.2) ∧ j.id = i ∧ j.events = l := by
  obtain ⟨a, kv⟩ := x
  unfold partsShown at h
  split at h
  · rename_i j e
    cases h
    exact ⟨j, Prod.ext e rfl, rfl, rfl⟩
  · cases h

/-- A number in a filter of a custom event is answered as it was asked for, and shown as another one when the event is read: storage
keeps the digits and reads them with a scale of 16. -/
theorem C145_number_violated : ∃ (kv1 : Kv) (j a : JCustomDef (Int × Nat)),
    (SchemaCall.customCreate (exBig (some [.num (12, 0)]))).run scaledEnv exAdmin 1 ⟨0, 0⟩ exAllKv = (some (.ok (.custom j)), kv1) ∧
    j.events = (exBig (some [.num (12, 0)])).events ∧
    (SchemaCall.customGet j.id).run scaledEnv exAdmin 1 ⟨0, 0⟩ kv1 = (some (.ok (.custom a)), kv1) ∧
    a.events = (exBig (some [.num (12, 16)])).events ∧ a.events ≠ j.events := by
  have h1 : partsShown ((SchemaCall.customCreate (exBig (some [.num (12, 0)]))).run scaledEnv exAdmin 1 ⟨0, 0⟩ exAllKv) =
      some (2, (exBig (some [.num (12, 0)])).events) := by decide +kernel
  have h2 : partsShown ((SchemaCall.customGet 2).run scaledEnv exAdmin 1 ⟨0, 0⟩
      ((SchemaCall.customCreate (exBig (some [.num (12, 0)]))).run scaledEnv exAdmin 1 ⟨0, 0⟩ exAllKv).2) =
      some (2, (exBig (some [.num (12, 16)])).events) := by decide +kernel
  obtain ⟨j, e1, e2, e3⟩ := partsShown_of h1
  obtain ⟨a, e4, e5, e6⟩ := partsShown_of h2
  refine ⟨_, j, a, e1, e3, ?_, e6, ?_⟩
  · rw [e2]
    exact e4.trans (by rw [C145_reads _ _ _ _ _ _ rfl])
  · rw [e3, e6]; decide

/-- Every number in a filter of a custom event is read back with a scale of 16, whatever its scale was. -/
theorem C145_number_stored (R : ReqEnv N) {ev : JEventRef} {pr : JPropertyRef} {op : JOp} {n : N} {m : BitVec 128} {s : Nat} (hd : R.dec n = some (m, s))
    {c : Meta.CEvent} (hc : customPartIn R ⟨ev, some [⟨pr, op, some [.num n]⟩]⟩ = some c) {e : JCustomPart N} (he : customPartOut R c.norm = some e) :
    ∃ k, R.num (m.setWidth 64) 16 = some k ∧ e = ⟨ev, some [⟨pr, op, some [.num k]⟩]⟩ := by
  have hq : c = ⟨eventIn ev, some [⟨propIn pr, opIn op, some [.decimal (some m) reqPrecision s]⟩]⟩ := by
    simp [customPartIn, keepEmpty, filterIn, dropEmpty, jsonToScalar, hd] at hc
    exact hc.symm
  subst hq
  cases hk : R.num (m.setWidth 64) 16 with
  | none =>
    exfalso
    simp [customPartOut, Meta.CEvent.norm, Meta.PropFilter.norm, Meta.Scalar.norm, Meta.normList, keepEmpty, filterOut, scalarToJson, hk] at he
  | some k =>
    refine ⟨k, rfl, ?_⟩
    simp [customPartOut, Meta.CEvent.norm, Meta.PropFilter.norm, Meta.Scalar.norm, Meta.normList, keepEmpty, filterOut, scalarToJson, hk] at he
    cases ev <;> cases pr <;> cases op <;> simp_all [eventOut, eventIn, propOut, propIn, opOut, opIn]

/-- A filter without a value is shown with an empty list of values. -/
theorem C145_absent_violated : ∃ (kv1 : Kv) (j a : JCustomDef (Int × Nat)),
    (SchemaCall.customCreate (exBig none)).run scaledEnv exAdmin 1 ⟨0, 0⟩ exAllKv = (some (.ok (.custom j)), kv1) ∧
    j.events = (exBig none).events ∧
    (SchemaCall.customGet j.id).run scaledEnv exAdmin 1 ⟨0, 0⟩ kv1 = (some (.ok (.custom a)), kv1) ∧
    a.events = (exBig (some [])).events ∧ a.events ≠ j.events := by
  have h1 : partsShown ((SchemaCall.customCreate (exBig none)).run scaledEnv exAdmin 1 ⟨0, 0⟩ exAllKv) =
      some (2, (exBig none).events) := by decide +kernel
  have h2 : partsShown ((SchemaCall.customGet 2).run scaledEnv exAdmin 1 ⟨0, 0⟩
      ((SchemaCall.customCreate (exBig none)).run scaledEnv exAdmin 1 ⟨0, 0⟩ exAllKv).2) =
      some (2, (exBig (some [])).events) := by decide +kernel
  obtain ⟨j, e1, e2, e3⟩ := partsShown_of h1
  obtain ⟨a, e4, e5, e6⟩ := partsShown_of h2
  refine ⟨_, j, a, e1, e3, ?_, e6, ?_⟩
  · rw [e2]
    exact e4.trans (by rw [C145_reads _ _ _ _ _ _ rfl])
  · rw [e3, e6]; decide

/-- No event is ever shown with properties. -/
theorem C145_event_properties (R : ReqEnv N) {ctx : Ctx} {p id : Nat} {now : Time} {kv kv' : Kv} {j : JEventDef}
    (h : (SchemaCall.eventGet id).run R ctx p now kv = (some (.ok (.event j)), kv')) : j.eventProperties = none ∧ j.userProperties = none := by
  have ha := run_allowed h
  have hs : shownAs (fun r => some (.event (eventDefOut r))) ((eventsC p).getById id kv) = some (.ok (Shown.event (N := N) j)) :=
    congrArg Prod.fst ha
  cases e : (eventsC p).getById id kv with
  | error x => rw [e] at hs; cases hs
  | ok r =>
    rw [e] at hs
    cases hs
    have := Meta.event_read_norm e
    rw [← this]
    exact ⟨rfl, rfl⟩

/-- The properties of the event in an answer. -/
def propsShown (x : Option (Except Refusal (Shown N)) × Kv) : Option (Option (List Nat) × Option (List Nat)) :=
  match x.1 with
  | some (.ok (.event j)) => some (j.eventProperties, j.userProperties)
  | _ => none

/-- Attaching a property is answered with the property, which is not there when the event is read. -/
theorem C145_attached_violated :
    propsShown ((SchemaCall.eventAttach 1 1).run scaledEnv exAdmin 1 ⟨0, 0⟩ exAllKv) = some (some [1], none) ∧
    propsShown ((SchemaCall.eventGet 1).run scaledEnv exAdmin 1 ⟨0, 0⟩ ((SchemaCall.eventAttach 1 1).run scaledEnv exAdmin 1 ⟨0, 0⟩ exAllKv).2) =
      some (none, none) := by
  decide +kernel

/-- What is answered to a request for a group does not depend on the display name. -/
theorem C145_group_display_violated (R : ReqEnv N) (ctx : Ctx) (p : Nat) (now : Time) (kv : Kv) (name d d' : Str) :
    ((SchemaCall.groupCreate (N := N) name d).run R ctx p now kv).1 = ((SchemaCall.groupCreate (N := N) name d').run R ctx p now kv).1 := by
  unfold SchemaCall.run
  show (if ProjOp.allowed .groupCreate ctx p = true then _ else _ : _ × Kv).1 = (if ProjOp.allowed .groupCreate ctx p = true then _ else _ : _ × Kv).1
  split
  · show shownAs _ (Meta.runCall (Meta.getOrCreateGroup p name d) kv).1 = shownAs _ (Meta.runCall (Meta.getOrCreateGroup p name d') kv).1
    unfold Meta.runCall Meta.getOrCreateGroup
    cases Meta.getK kv (.groupName p name) with
    | some b => rfl
    | none =>
      cases Meta.nextZeroSeq (.groupNamesSeq p) kv with
      | error e => rfl
      | ok x =>
        obtain ⟨id, kv1⟩ := x
        dsimp only
        by_cases h : 5 ≤ id
        · rw [if_pos h, if_pos h]
        · rw [if_neg h, if_neg h]; rfl
  · rfl

/-! ## The routes of the properties of groups -/

/-- `put` and `delete` reach the property of the path. -/
theorem C145_route (R : ReqEnv N) (ctx : Ctx) (p : Nat) (now : Time) {g : Nat} (hg : g < 5) (i : Nat) (q : JPropUpd) (kv : Kv) :
    routed R ctx p now (groupPropRoute .put g i q) kv = (SchemaCall.propUpdate (.group g) i q).run R ctx p now kv ∧
    routed R ctx p now (groupPropRoute .delete g i q) kv = (SchemaCall.propDelete (.group g) i).run R ctx p now kv := by
  unfold groupPropRoute
  simp [hg, routed]

/-- `get` reaches the property whose number is that of the group, of the group whose number is that of the property. -/
theorem C145_route_get_partial (R : ReqEnv N) (ctx : Ctx) (p : Nat) (now : Time) (g i : Nat) (q : JPropUpd) (kv : Kv) :
    routed R ctx p now (groupPropRoute .get g i q) kv =
      if i < 5 then (SchemaCall.propGet (.group i) g).run R ctx p now kv else (none, kv) := by
  unfold groupPropRoute
  by_cases h : i < 5 <;> simp [h, routed]

/-- A property of a group. -/
def exGroupKv : Kv := Meta.runReqs exEnv (Meta.exAll ++ [Meta.exP3]) []

/-- The numbers of the properties in an answer; `none` when it panicked. -/
def numsShown (x : Option (Except Refusal (Shown N)) × Kv) : Option (List Nat) :=
  match x.1 with
  | some (.ok (.prop j)) => some [j.id]
  | some (.ok (.props l)) => some (l.map JPropDef.id)
  | some _ => some []
  | none => none

/-- A property which is in the list, and which can be updated and deleted, is not found by `get`, and with a larger number the call panics. -/
theorem C145_route_violated :
    numsShown ((SchemaCall.propList (.group 0)).run scaledEnv exAdmin 1 ⟨0, 0⟩ exGroupKv) = some [1] ∧
    numsShown (routed scaledEnv exAdmin 1 ⟨0, 0⟩ (groupPropRoute .get 0 1 {}) exGroupKv) = some [] ∧
    numsShown (routed scaledEnv exAdmin 1 ⟨0, 0⟩ (groupPropRoute .get 0 7 {}) exGroupKv) = none ∧
    numsShown (routed scaledEnv exAdmin 1 ⟨0, 0⟩ (groupPropRoute .delete 0 1 {}) exGroupKv) = some [1] := by
  decide +kernel

/-! ## Cases that meet the hypotheses -/

/-- The number of the record in an answer. -/
def numShown (x : Option (Except Refusal (Shown N)) × Kv) : Option Nat :=
  match x.1 with
  | some (.ok (.event j)) => some j.id
  | some (.ok (.custom j)) => some j.id
  | some (.ok (.dashboard j)) => some j.id
  | some (.ok (.prop j)) => some j.id
  | some (.ok (.group j)) => some j.id
  | _ => none

/-- A dashboard is made, another one and the event are deleted and an event is made: the dashboard is still there. -/
example : ∃ (j : JDashboard) (kv1 kv2 : Kv),
    (SchemaCall.dashboardCreate ⟨some ["t".toList], "mine".toList, none, [⟨1, 2, 3, 4, 5⟩]⟩).run scaledEnv exAdmin 1 ⟨9, 4⟩ exAllKv =
      (some (.ok (.dashboard j)), kv1) ∧ Runs exEnv (fun r => ¬ r.RewritesDashboard 1 j.id) kv1 2 kv2 ∧
    ∃ a, (SchemaCall.dashboardGet j.id).run scaledEnv exAdmin 1 ⟨0, 0⟩ kv2 = (some (.ok (.dashboard a)), kv2) ∧ a.panels = [⟨1, 2, 3, 4, 5⟩] ∧
      a.createdAt = ⟨9, 0⟩ := by
  have h : numShown ((SchemaCall.dashboardCreate ⟨some ["t".toList], "mine".toList, none, [⟨1, 2, 3, 4, 5⟩]⟩).run scaledEnv exAdmin 1 ⟨9, 4⟩ exAllKv) =
      some 2 := by decide +kernel
  have hk : ∀ x, (SchemaCall.dashboardCreate ⟨some ["t".toList], "mine".toList, none, [⟨1, 2, 3, 4, 5⟩]⟩).run scaledEnv exAdmin 1 ⟨9, 4⟩ exAllKv = x →
      ∃ j : JDashboard, x.1 = some (.ok (.dashboard j)) ∧ j.id = 2 := by
    intro x e
    rw [e] at h
    have ha : (writing (fun r => some (.dashboard (dashboardOut r))) _) = x := e
    obtain ⟨y, kv⟩ := x
    rw [writing] at ha
    revert ha
    generalize Meta.runCall _ _ = z
    intro ha
    obtain ⟨z, kv'⟩ := z
    cases ha
    cases z with
    | error e => cases h
    | ok r => exact ⟨dashboardOut r, rfl, by simpa [numShown, shownAs] using h⟩
  obtain ⟨j, e, hj⟩ := hk _ rfl
  have hc : (SchemaCall.dashboardCreate ⟨some ["t".toList], "mine".toList, none, [⟨1, 2, 3, 4, 5⟩]⟩).run scaledEnv exAdmin 1 ⟨9, 4⟩ exAllKv =
      (some (.ok (.dashboard j)), ((SchemaCall.dashboardCreate ⟨some ["t".toList], "mine".toList, none, [⟨1, 2, 3, 4, 5⟩]⟩).run scaledEnv exAdmin 1 ⟨9, 4⟩ exAllKv).2) := Prod.ext e rfl
  have hr := (Runs.refl (E := exEnv) (P := fun r => ¬ r.RewritesDashboard 1 j.id) (kv := ((SchemaCall.dashboardCreate ⟨some ["t".toList], "mine".toList, none, [⟨1, 2, 3, 4, 5⟩]⟩).run scaledEnv exAdmin 1 ⟨9, 4⟩ exAllKv).2)).step
    (.dashboardDelete 1 1) trivial (by rintro ⟨-, h⟩; rw [hj] at h; cases h) |>.step (.eventDelete 1 1) trivial (by intro h; exact h)
  obtain ⟨a, h1, -, h3⟩ := C145_dashboard scaledEnv exAll_hist (ctx' := exAdmin) (now' := ⟨0, 0⟩) (by decide) (by decide)
    (by intro x hx; simp at hx; subst hx; exact ⟨by decide, by decide, by decide, by decide, by decide⟩) hc hr (by decide) rfl
  exact ⟨j, _, _, hc, hr, a, h1, h3.panels, h3.created⟩

/-- The answers of the other kinds in a store. -/
example : numShown ((SchemaCall.eventCreate ⟨none, "sell".toList, none, none, .enabled, false⟩).run scaledEnv exAdmin 1 ⟨0, 0⟩ exAllKv) = some 2 ∧
    numShown ((SchemaCall.eventUpdate 1 { status := some .disabled }).run scaledEnv exAdmin 1 ⟨0, 0⟩ exAllKv) = some 1 ∧
    numShown ((SchemaCall.dashboardUpdate 1 { name := some "x".toList }).run scaledEnv exAdmin 1 ⟨0, 0⟩ exAllKv) = some 1 ∧
    numShown ((SchemaCall.propUpdate .event 1 { displayName := some (some "x".toList) }).run scaledEnv exAdmin 1 ⟨0, 0⟩ exAllKv) = some 1 ∧
    numShown ((SchemaCall.customUpdate 1 { name := some "x".toList, events := some (exBig (some [.bool true])).events }).run scaledEnv exAdmin 1 ⟨0, 0⟩ exAllKv) = some 1 ∧
    numShown ((SchemaCall.groupCreate "company".toList "Company".toList).run scaledEnv exAdmin 1 ⟨0, 0⟩ exAllKv) = some 0 ∧
    (exBig (some [.str "x".toList])).events.all (fun e => (customPartIn scaledEnv e).isSome) = true := by
  decide +kernel

/-- A part that is kept as it is. -/
example : ∀ e ∈ (exBig (some [.str "x".toList, .bool true])).events, StoredPart e ∧ e.Fits scaledEnv := by
  intro e he
  simp only [exBig, List.mem_singleton] at he
  subst he
  refine ⟨?_, ?_⟩
  · intro l hl
    cases hl
    refine ⟨by simp, ?_⟩
    intro f hf
    simp only [List.mem_singleton] at hf
    subst hf
    exact ⟨_, rfl, by simp⟩
  · intro c hc
    simp [customPartIn, keepEmpty, filterIn, dropEmpty, jsonToScalar] at hc
    subst hc
    refine ⟨trivial, ?_⟩
    intro f hf
    simp only [Option.getD_some, List.mem_singleton] at hf
    subst hf
    refine ⟨trivial, ?_⟩
    intro v hv
    simp at hv
    rcases hv with rfl | rfl <;> trivial

end OptiPrism.Platform
