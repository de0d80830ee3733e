import Verif.Platform.SchemaApiSpec
import Verif.Platform.RequestLemmas
import Verif.Meta.Stays
import Verif.Meta.ListingProps
import Verif.Meta.GroupTypesProps

/-!
# C145: The schema API shows what is kept and keeps what it is given
-/

namespace OptiPrism.Platform

open OptiPrism.Meta (Str Time Kv Err Env Req Hist Runs Event CustomEvent Dashboard Panel Property PropType Group Coll Call runCall Honours HonoursList
  eventsC customC dashboardsC propsC getById_eq getBy_eq create_done events_ok custom_ok dashboards_ok props_ok hist_events hist_customs
  hist_dashboards hist_props normList event_stays custom_stays dashboard_stays prop_stays list_spec delete_spec)

variable {N Q : Type}

/-! ## Permissions -/

/-- A caller without the permission of the endpoint is refused and nothing changes. -/
theorem C145_refused (R : ReqEnv N) (ctx : Ctx) (p : Nat) (now : Time) (c : SchemaCall N) (kv : Kv) (h : c.op.allowed ctx p = false) :
    c.run R ctx p now kv = (some (.error .forbidden), kv) := by
  simp [SchemaCall.run, h]

/-- The calls that read change nothing. -/
theorem C145_reads (R : ReqEnv N) (ctx : Ctx) (p : Nat) (now : Time) (c : SchemaCall N) (kv : Kv) (h : c.op.writes = false) :
    (c.run R ctx p now kv).2 = kv := by
  unfold SchemaCall.run
  split
  · cases c <;> first | rfl | (simp [SchemaCall.op, ProjOp.writes] at h)
  · rfl

/-- What a call asks for: looking at the schema, changing it, deleting from it, looking at dashboards, changing them. -/
theorem C145_permission (ctx : Ctx) (p id id' : Nat) (n n' : Str) (ty : PropType) (e : JEventNew) (eu : JEventUpd) (c : JCustomNew N) (cu : JCustomUpd N)
    (d : JDashboardNew) (du : JDashboardUpd) (pu : JPropUpd) :
    (∀ x ∈ ([.eventGet id, .eventByName n, .eventList, .customGet id, .customList, .groupList, .propGet ty id, .propByName ty n, .propList ty] : List (SchemaCall N)),
      x.op.allowed ctx p = ctx.checkProject ctx.organizationId p .viewSchema) ∧
    (∀ x ∈ ([.eventCreate e, .eventUpdate id eu, .eventAttach id id', .eventDetach id id', .customCreate c, .customUpdate id cu, .groupCreate n n',
        .propUpdate ty id pu] : List (SchemaCall N)), x.op.allowed ctx p = ctx.checkProject ctx.organizationId p .manageSchema) ∧
    (∀ x ∈ ([.eventDelete id, .customDelete id, .propDelete ty id] : List (SchemaCall N)),
      x.op.allowed ctx p = ctx.checkProject ctx.organizationId p .deleteSchema) ∧
    (∀ x ∈ ([.dashboardGet id, .dashboardList] : List (SchemaCall N)), x.op.allowed ctx p = ctx.checkProject ctx.organizationId p .exploreReports) ∧
    (∀ x ∈ ([.dashboardCreate d, .dashboardUpdate id du, .dashboardDelete id] : List (SchemaCall N)),
      x.op.allowed ctx p = ctx.checkProject ctx.organizationId p .manageReports) := by
  refine ⟨?_, ?_, ?_, ?_, ?_⟩ <;> intro x hx <;> simp only [List.mem_cons, List.not_mem_nil, or_false] at hx
  · rcases hx with rfl | rfl | rfl | rfl | rfl | rfl | rfl | rfl | rfl <;> rfl
  · rcases hx with rfl | rfl | rfl | rfl | rfl | rfl | rfl | rfl <;> rfl
  · rcases hx with rfl | rfl | rfl <;> rfl
  · rcases hx with rfl | rfl <;> rfl
  · rcases hx with rfl | rfl | rfl <;> rfl

theorem run_allowed {R : ReqEnv N} {ctx : Ctx} {p : Nat} {now : Time} {c : SchemaCall N} {kv kv' : Kv} {x : Shown N}
    (h : c.run R ctx p now kv = (some (.ok x), kv')) : c.act R ctx.accountId p now kv = (some (.ok x), kv') := by
  unfold SchemaCall.run at h
  split at h
  · exact h
  · simp at h

theorem run_of {R : ReqEnv N} {ctx : Ctx} {p : Nat} {now : Time} {c : SchemaCall N} {kv : Kv} (h : c.op.allowed ctx p = true) :
    c.run R ctx p now kv = c.act R ctx.accountId p now kv := by
  simp [SchemaCall.run, h]

theorem writing_ok {α : Type} {f : α → Option (Shown N)} {r : Except Err α × Kv} {x : Shown N} {kv' : Kv}
    (h : writing f r = (some (.ok x), kv')) : ∃ a, r = (.ok a, kv') ∧ f a = some x := by
  obtain ⟨a, kv⟩ := r
  unfold writing at h
  injection h with h1 h2
  cases h2
  cases a with
  | error e => simp [shownAs] at h1
  | ok a =>
    simp only [shownAs, Option.map_eq_some_iff] at h1
    obtain ⟨y, hy, e⟩ := h1
    cases e
    exact ⟨a, rfl, hy⟩

theorem apiCall_ok {α : Type} {f : Call α} {kv kv' : Kv} {a : α} (h : runCall f kv = (.ok a, kv')) : f kv = .ok (a, kv') := by
  unfold runCall at h
  cases e : f kv with
  | error e' => rw [e] at h; cases h
  | ok v => rw [e] at h; cases h; rfl

theorem get_live {c : Coll α} {Valid : α → Prop} {kv : Kv} (h : c.Inv Valid kv) {id : Nat} {r : α} (hl : c.live kv id = some r) :
    c.getById id kv = .ok r := by
  rw [getById_eq h, hl]

theorem live_get {c : Coll α} {Valid : α → Prop} {kv : Kv} (h : c.Inv Valid kv) {id : Nat} {r : α} (hg : c.getById id kv = .ok r) :
    c.live kv id = some r := by
  rw [getById_eq h] at hg
  cases hl : c.live kv id with
  | none => rw [hl] at hg; cases hg
  | some x => rw [hl] at hg; cases hg; rfl

/-! ## Dashboards -/

theorem panels_back {l : List JPanel} (h : ∀ j ∈ l, j.Fits) : ((l.map panelIn).map Panel.norm).map panelOut = l := by
  rw [List.map_map, List.map_map]
  conv => rhs; rw [← List.map_id l]
  refine List.map_congr_left fun j hj => ?_
  obtain ⟨-, h1, h2, h3, h4⟩ := h j hj
  simp [panelIn, panelOut, Panel.norm, Nat.mod_eq_of_lt h1, Nat.mod_eq_of_lt h2, Nat.mod_eq_of_lt h3, Nat.mod_eq_of_lt h4]

theorem dashboard_get (R : ReqEnv N) {ctx : Ctx} {p : Nat} {now : Time} {kv : Kv} (hg : ProjOp.allowed .dashboardGet ctx p = true)
    {id : Nat} {r : Dashboard} (h : (dashboardsC p).getById id kv = .ok r) :
    (SchemaCall.dashboardGet id).run R ctx p now kv = (some (.ok (.dashboard (dashboardOut r))), kv) := by
  rw [run_of (c := .dashboardGet id) hg]
  show (shownAs _ ((dashboardsC p).getById id kv), kv) = _
  rw [h]
  rfl

/-- A dashboard that was created and answered for is shown as it was asked for, whatever has happened since, if nothing has
updated or deleted it. -/
theorem C145_dashboard (R : ReqEnv N) {E : Env Q} {n m : Nat} {kv kv1 kv2 : Kv} (h : Hist E n kv) {ctx ctx' : Ctx} {p : Nat}
    (hp : p < 2 ^ 64) (ha : ctx.accountId < 2 ^ 64) {now now' : Time} {q : JDashboardNew} (hf : ∀ x ∈ q.panels, x.Fits) {j : JDashboard}
    (hc : (SchemaCall.dashboardCreate q).run R ctx p now kv = (some (.ok (.dashboard j)), kv1))
    (hr : Runs E (fun r => ¬ r.RewritesDashboard p j.id) kv1 m kv2) (hn : n + m + 1 < 2 ^ 62)
    (hg : ProjOp.allowed .dashboardGet ctx' p = true) :
    ∃ a, (SchemaCall.dashboardGet j.id).run R ctx' p now' kv2 = (some (.ok (.dashboard a)), kv2) ∧ a.id = j.id ∧
      DashboardAsked ctx.accountId p now q a := by
  obtain ⟨r, e, er⟩ := writing_ok (run_allowed hc)
  cases er
  have hok : (Req.dashboardCreate p now (dashboardNewIn ctx.accountId p now q) : Req Q).Ok := by
    refine ⟨hp, ha, fun x hx => ?_⟩
    obtain ⟨y, hy, rfl⟩ := List.mem_map.mp hx
    exact (hf y hy).1
  have re := hist_dashboards h (by omega) p
  have inv := re.inv (dashboards_ok p)
  have h1 := h.step _ hok
  rw [show Req.exec E (.dashboardCreate p now (dashboardNewIn ctx.accountId p now q)) kv = kv1 from congrArg Prod.snd e] at h1
  obtain ⟨rfl, -, -, hl⟩ := create_done (dashboards_ok p) inv (re.room (dashboards_ok p))
    (mk := fun id => { dashboardNewIn ctx.accountId p now q with id := id, createdAt := now, updatedAt := none, updatedBy := none, projectId := p })
    (⟨fun _ => rfl, fun _ => rfl, fun id hid => ⟨⟨hid, hok.2.1, Meta.optOk_none⟩, hok.1, hok.2.2⟩⟩) (apiCall_ok e)
  have hl := hl (Meta.lastId kv (dashboardsC p).ns + 1)
  rw [if_pos rfl] at hl
  have hl2 := dashboard_stays h1 hl hr (by omega)
  have inv2 := (hist_dashboards (hr.hist h1) (by omega) p).inv (dashboards_ok p)
  refine ⟨_, dashboard_get R hg (get_live inv2 hl2), rfl, ?_⟩
  exact ⟨rfl, rfl, Meta.normList_getD _, panels_back hf, rfl, rfl, rfl, rfl, rfl⟩

/-- A dashboard that was changed and answered for is shown with what was mentioned as asked for and all else as before, whatever has
happened since, if nothing has updated or deleted it; the other dashboards are shown as before. -/
theorem C145_dashboard_update (R : ReqEnv N) {E : Env Q} {n m : Nat} {kv kv1 kv2 : Kv} (h : Hist E n kv) {ctx ctx' : Ctx} {p id : Nat}
    (ha : ctx.accountId < 2 ^ 64) {now now' : Time} {q : JDashboardUpd} (hf : ∀ l, q.panels = some l → ∀ x ∈ l, x.Fits) {j : JDashboard}
    (hc : (SchemaCall.dashboardUpdate id q).run R ctx p now kv = (some (.ok (.dashboard j)), kv1))
    (hr : Runs E (fun r => ¬ r.RewritesDashboard p id) kv1 m kv2) (hn : n + m + 1 < 2 ^ 62)
    (hg : ProjOp.allowed .dashboardGet ctx' p = true) :
    (∃ old a, (SchemaCall.dashboardGet id).run R ctx' p now' kv = (some (.ok (.dashboard old)), kv) ∧
      (SchemaCall.dashboardGet id).run R ctx' p now' kv2 = (some (.ok (.dashboard a)), kv2) ∧
      DashboardChanged ctx.accountId now q old a) ∧
    ∀ i, i ≠ id → ((SchemaCall.dashboardGet i).run R ctx' p now' kv1).1 = ((SchemaCall.dashboardGet i).run R ctx' p now' kv).1 := by
  obtain ⟨r, e, er⟩ := writing_ok (run_allowed hc)
  cases er
  have hok : (Req.dashboardUpdate p id now (dashboardUpdIn ctx.accountId q) : Req Q).Ok := by
    refine ⟨ha, fun l hl x hx => ?_⟩
    obtain ⟨l', hl', rfl⟩ := Option.map_eq_some_iff.mp hl
    obtain ⟨y, hy, rfl⟩ := List.mem_map.mp hx
    exact (hf l' hl' y hy).1
  have h1 := h.step _ hok
  rw [show Req.exec E (.dashboardUpdate p id now (dashboardUpdIn ctx.accountId q)) kv = kv1 from congrArg Prod.snd e] at h1
  obtain ⟨old, g1, n1, i1, rfl, g2, g3⟩ := Meta.update_stored (dashboards_ok p) Meta.Dashboard.norm_norm (hist_dashboards h (by omega) p)
    (t := (dashboardUpdIn ctx.accountId q).apply now) (Meta.noix_ok _ (fun r r' e => by injection e with e; exact e.symm) (fun _ => rfl)
    (fun r h => by
      refine ⟨⟨h.head.id, h.head.createdBy, Meta.optOk_some hok.1⟩, h.proj, ?_⟩
      intro e he
      simp only [Meta.DashboardUpd.apply] at he
      cases hq : (dashboardUpdIn ctx.accountId q).panels with
      | none => rw [hq] at he; exact h.panels e he
      | some l => rw [hq] at he; exact hok.2 l hq e he) (by simp [dashboardsC])) e
  have inv1 := (hist_dashboards h1 (by omega) p).inv (dashboards_ok p)
  have hl2 := dashboard_stays h1 (live_get inv1 g2) hr (by omega)
  have inv2 := (hist_dashboards (hr.hist h1) (by omega) p).inv (dashboards_ok p)
  refine ⟨⟨_, _, dashboard_get R hg g1, dashboard_get R hg (get_live inv2 hl2), ?_⟩, fun i hi => ?_⟩
  · refine ⟨rfl, Meta.honours_getD _ _, Meta.honours_getD _ _, Meta.honoursList_getD _ (congrArg Dashboard.tags n1), ?_, rfl, rfl,
      (congrArg Dashboard.createdAt n1 :), rfl, rfl⟩
    show Honours q.panels (old.panels.map panelOut) ((((q.panels.map (·.map panelIn)).getD old.panels).map Panel.norm).map panelOut)
    cases hq : q.panels with
    | none => exact ⟨by simp, fun _ => congrArg (List.map panelOut) (congrArg Dashboard.panels n1)⟩
    | some l => exact ⟨fun v hv => by cases hv; exact panels_back (hf l hq), by simp⟩
  · rw [run_of (c := .dashboardGet i) hg, run_of (c := .dashboardGet i) hg]
    show shownAs _ ((dashboardsC p).getById i kv1) = shownAs _ ((dashboardsC p).getById i kv)
    rw [g3 i hi]

/-! ## Reading, listing and deleting -/

/-- For one kind of records: what is shown by number, in the list, and after a deletion. -/
structure KindServed (R : ReqEnv N) (ctx : Ctx) (p : Nat) (now : Time) {J : Type} (one : J → Shown N) (many : List J → Shown N)
    (num : J → Nat) (get del : Nat → SchemaCall N) (lst : SchemaCall N) (kv : Kv) : Prop where
  /-- A record is shown by its number, or there is none (or the conversion of what is kept panics). -/
  shown : ∀ id, ((get id).run R ctx p now kv).1 = some (.error (.failed .notFound)) ∨ ((get id).run R ctx p now kv).1 = none ∨
    ∃ j, num j = id ∧ ((get id).run R ctx p now kv).1 = some (.ok (one j))
  /-- The list has exactly what is shown by number, each once. -/
  listed : (∃ l, (lst.run R ctx p now kv).1 = some (.ok (many l)) ∧ (l.map num).Nodup ∧
      ∀ j, j ∈ l ↔ ((get (num j)).run R ctx p now kv).1 = some (.ok (one j))) ∨
    ((lst.run R ctx p now kv).1 = none ∧ ∃ id, ((get id).run R ctx p now kv).1 = none)
  /-- What is deleted is shown once more and then no longer; the others stay. -/
  deleted : ∀ id, ((del id).run R ctx p now kv).1 = ((get id).run R ctx p now kv).1 ∧
    ∀ i, ((get i).run R ctx p now ((del id).run R ctx p now kv).2).1 =
      if i = id then some (.error (.failed .notFound)) else ((get i).run R ctx p now kv).1

theorem mapM_out {A J : Type} {out : A → Option J} (l : List A) :
    (∃ js, l.mapM out = some js ∧ ∀ j, j ∈ js ↔ ∃ a ∈ l, out a = some j) ∨ (l.mapM out = none ∧ ∃ a ∈ l, out a = none) := by
  induction l with
  | nil => exact Or.inl ⟨[], by simp, by simp⟩
  | cons a l ih =>
    cases ha : out a with
    | none => exact Or.inr ⟨by simp [ha], a, by simp, ha⟩
    | some j =>
      rcases ih with ⟨js, h1, h2⟩ | ⟨h1, x, hx, h2⟩
      · refine Or.inl ⟨j :: js, by simp [ha, h1], fun j' => ?_⟩
        rw [List.mem_cons, h2]
        constructor
        · rintro (rfl | ⟨b, hb, e⟩)
          · exact ⟨a, by simp, ha⟩
          · exact ⟨b, by simp [hb], e⟩
        · rintro ⟨b, hb, e⟩
          rcases List.mem_cons.mp hb with rfl | hb
          · rw [ha] at e; cases e; exact Or.inl rfl
          · exact Or.inr ⟨b, hb, e⟩
      · exact Or.inr ⟨by simp [ha, h1], x, by simp [hx], h2⟩

theorem mapM_num {A J : Type} {out : A → Option J} {num : J → Nat} {id : A → Nat} (hnum : ∀ a j, out a = some j → num j = id a) :
    ∀ {l : List A} {js : List J}, l.mapM out = some js → js.map num = l.map id := by
  intro l
  induction l with
  | nil => intro js h; simp at h; subst h; rfl
  | cons a l ih =>
    intro js h
    simp only [List.mapM_cons, Option.bind_eq_bind, Option.pure_def, Option.bind_eq_some_iff] at h
    obtain ⟨j, hj, js', hjs, e⟩ := h
    cases e
    rw [List.map_cons, List.map_cons, ih hjs, hnum a j hj]

theorem served {A J : Type} {c : Coll A} {norm : A → A} {Valid : A → Prop} (ok : c.Ok norm Valid) {kv : Kv} (hc : Meta.Clean kv)
    (inv : c.Inv Valid kv) {R : ReqEnv N} {ctx : Ctx} {p : Nat} {now : Time} {one : J → Shown N} {many : List J → Shown N} {num : J → Nat}
    {get del : Nat → SchemaCall N} {lst : SchemaCall N} {out : A → Option J} (hone : ∀ a b, one a = one b → a = b)
    (hnum : ∀ a j, out a = some j → num j = c.id a)
    (hg : ∀ id kv, (get id).run R ctx p now kv = reading (fun r => (out r).map one) (c.getById id kv) kv)
    (hl : ∀ kv, lst.run R ctx p now kv = reading (fun l => (l.mapM out).map many) (c.list kv) kv)
    (hd : ∀ id kv, (del id).run R ctx p now kv = writing (fun r => (out r).map one) (runCall (c.delete id) kv)) :
    KindServed R ctx p now one many num get del lst kv := by
  have hgl : ∀ kv', c.Inv Valid kv' → ∀ id, ((get id).run R ctx p now kv').1 = match c.live kv' id with
      | none => some (.error (.failed .notFound))
      | some r => ((out r).map one).map .ok := by
    intro kv' inv' id
    rw [hg]
    show shownAs _ (c.getById id kv') = _
    rw [getById_eq inv']
    cases c.live kv' id <;> rfl
  have hid : ∀ {id : Nat} {r : A}, c.live kv id = some r → c.id r = id := fun h => (Meta.Inv.live_id inv h).1
  refine ⟨fun id => ?_, ?_, fun id => ?_⟩
  · rw [hgl kv inv id]
    cases e : c.live kv id with
    | none => exact Or.inl rfl
    | some r =>
      cases eo : out r with
      | none => exact Or.inr (Or.inl (by dsimp only; rw [eo]; rfl))
      | some j => exact Or.inr (Or.inr ⟨j, by rw [hnum r j eo]; exact hid e, by dsimp only; rw [eo]; rfl⟩)
  · obtain ⟨l, h1, h2, h3⟩ := list_spec hc inv
    rw [hl]
    have e : (reading (fun l => (l.mapM out).map many) (c.list kv) kv).1 = ((l.mapM out).map many).map .ok := by
      show shownAs _ (c.list kv) = _
      rw [h1]; rfl
    rw [e]
    rcases mapM_out (out := out) l with ⟨js, hj, hm⟩ | ⟨hj, a, ha, hn⟩
    · refine Or.inl ⟨js, by rw [hj]; rfl, by rw [mapM_num hnum hj]; exact h3, fun j => ?_⟩
      rw [hm, hgl kv inv]
      constructor
      · rintro ⟨a, ha, e⟩
        obtain ⟨id, hlive⟩ := (h2 a).mp ha
        rw [hnum a j e, hid hlive, hlive]
        dsimp only
        rw [e]; rfl
      · intro e
        cases hlive : c.live kv (num j) with
        | none => rw [hlive] at e; simp at e
        | some a =>
          rw [hlive] at e
          refine ⟨a, (h2 a).mpr ⟨_, hlive⟩, ?_⟩
          dsimp only at e
          cases eo : out a with
          | none => rw [eo] at e; simp at e
          | some j' =>
            rw [eo] at e
            simp only [Option.map_some, Option.some.injEq, Except.ok.injEq] at e
            rw [hone _ _ e]
    · refine Or.inr ⟨by rw [hj]; rfl, ?_⟩
      obtain ⟨id, hlive⟩ := (h2 a).mp ha
      exact ⟨id, by rw [hgl kv inv, hlive]; dsimp only; rw [hn]; rfl⟩
  · rw [hd, hgl kv inv id]
    rcases delete_spec ok inv id with ⟨h0, e⟩ | ⟨r, kv', h0, e, inv', -, h3⟩
    · unfold writing runCall
      rw [e, h0]
      refine ⟨rfl, fun i => ?_⟩
      show ((get i).run R ctx p now kv).1 = _
      split
      · next hi => rw [hi, hgl kv inv, h0]
      · rfl
    · unfold writing runCall
      rw [e, h0]
      refine ⟨rfl, fun i => ?_⟩
      show ((get i).run R ctx p now kv').1 = _
      rw [hgl kv' inv', h3]
      by_cases hi : i = id
      · rw [if_pos hi, if_pos hi]
      · rw [if_neg hi, if_neg hi, hgl kv inv]

/-- Who may read, list and delete everything of a project. -/
structure Sees (ctx : Ctx) (p : Nat) : Prop where
  event : ProjOp.allowed .eventGet ctx p = true ∧ ProjOp.allowed .eventGetByName ctx p = true ∧ ProjOp.allowed .eventList ctx p = true ∧
    ProjOp.allowed .eventDelete ctx p = true
  custom : ProjOp.allowed .customGet ctx p = true ∧ ProjOp.allowed .customList ctx p = true ∧ ProjOp.allowed .customDelete ctx p = true
  dashboard : ProjOp.allowed .dashboardGet ctx p = true ∧ ProjOp.allowed .dashboardList ctx p = true ∧
    ProjOp.allowed .dashboardDelete ctx p = true
  prop : ProjOp.allowed .propGet ctx p = true ∧ ProjOp.allowed .propGetByName ctx p = true ∧ ProjOp.allowed .propList ctx p = true ∧
    ProjOp.allowed .propDelete ctx p = true

theorem mapM_some {A J : Type} (f : A → J) (l : List A) : l.mapM (fun a => some (f a)) = some (l.map f) := by
  induction l with
  | nil => rfl
  | cons a l ih => simp [ih]

theorem customDefOut_id {R : ReqEnv N} {r : CustomEvent} {j : JCustomDef N} (h : customDefOut R r = some j) : j.id = r.id := by
  simp only [customDefOut, Option.bind_eq_bind, Option.pure_def, Option.bind_eq_some_iff] at h
  obtain ⟨_, _, e⟩ := h
  cases e
  rfl

/-- In every history, for every kind of records: what is shown by number has that number, the list has exactly what is shown by
number, and what is deleted is shown no longer while the others stay. -/
theorem C145_served (R : ReqEnv N) {E : Env Q} {n : Nat} {kv : Kv} (h : Hist E n kv) (hn : n < 2 ^ 62) {ctx : Ctx} {p : Nat} (hs : Sees ctx p)
    (now : Time) :
    KindServed R ctx p now .event .events JEventDef.id .eventGet .eventDelete .eventList kv ∧
    KindServed R ctx p now .custom .customs JCustomDef.id .customGet .customDelete .customList kv ∧
    KindServed R ctx p now .dashboard .dashboards JDashboard.id .dashboardGet .dashboardDelete .dashboardList kv ∧
    ∀ ty, KindServed R ctx p now .prop .props JPropDef.id (.propGet ty) (.propDelete ty) (.propList ty) kv := by
  refine ⟨?_, ?_, ?_, fun ty => ?_⟩
  · refine served (events_ok p) h.clean ((hist_events h hn p).inv (events_ok p)) (out := fun r => some (eventDefOut r)) (fun a b e => by cases e; rfl)
      (fun a j e => by cases e; rfl) (fun id kv => run_of (c := .eventGet id) hs.event.1) (fun kv => ?_)
      (fun id kv => run_of (c := .eventDelete id) hs.event.2.2.2)
    rw [run_of (c := .eventList) hs.event.2.2.1]
    simp only [mapM_some]; rfl
  · exact served (custom_ok p) h.clean ((hist_customs h hn p).inv (custom_ok p)) (out := customDefOut R) (fun a b e => by cases e; rfl)
      (fun a j e => customDefOut_id e) (fun id kv => run_of (c := .customGet id) hs.custom.1)
      (fun kv => run_of (c := .customList) hs.custom.2.1) (fun id kv => run_of (c := .customDelete id) hs.custom.2.2)
  · refine served (dashboards_ok p) h.clean ((hist_dashboards h hn p).inv (dashboards_ok p)) (out := fun r => some (dashboardOut r))
      (fun a b e => by cases e; rfl) (fun a j e => by cases e; rfl) (fun id kv => run_of (c := .dashboardGet id) hs.dashboard.1) (fun kv => ?_)
      (fun id kv => run_of (c := .dashboardDelete id) hs.dashboard.2.2)
    rw [run_of (c := .dashboardList) hs.dashboard.2.1]
    simp only [mapM_some]; rfl
  · refine served (props_ok p ty) h.clean ((hist_props h hn p ty).inv (props_ok p ty)) (out := fun r => some (propDefOut r))
      (fun a b e => by cases e; rfl) (fun a j e => by cases e; rfl) (fun id kv => run_of (c := .propGet ty id) hs.prop.1) (fun kv => ?_)
      (fun id kv => run_of (c := .propDelete ty id) hs.prop.2.2.2)
    rw [run_of (c := .propList ty) hs.prop.2.2.1]
    simp only [mapM_some]; rfl

end OptiPrism.Platform
