import Verif.Platform.ServeBase
import Verif.Platform.RequestDemo
import Verif.Platform.ReportApiProps

/-!
# C151: whole requests
-/

namespace OptiPrism.Platform

open OptiPrism.Meta

variable {N : Type}

/-! ## What a request goes through -/

/-- A request that reaches no handler changes nothing. -/
theorem serve_cases (W : WebEnv N) (d : Draw) (r : HttpReq N) (kv : Kv) : (serve W d r kv).2 = kv ∨
    ∃ h args, dispatch W.D (caller d r kv).toOption.isSome r.meth r.path = .run h args ∧
      serve W d r kv = (callOf d r h args).run W d h args (caller d r kv) kv := by
  unfold serve
  split
  · exact .inl rfl
  · exact .inl rfl
  · exact .inl rfl
  · exact .inl rfl
  · exact .inl rfl
  · next h args e => exact .inr ⟨h, args, e, rfl⟩

theorem serve_run {W : WebEnv N} {d : Draw} {r : HttpReq N} {kv : Kv} {h : Handler} {args : List Arg}
    (e : dispatch W.D (caller d r kv).toOption.isSome r.meth r.path = .run h args) :
    serve W d r kv = (callOf d r h args).run W d h args (caller d r kv) kv := by
  unfold serve
  rw [e]

/-- The method of a handler that runs. -/
theorem run_meth {D : Decode} {token : Bool} {m : Meth} {p : List Str} {h : Handler} {args : List Arg} (e : dispatch D token m p = .run h args) :
    m = (address h).1 ∨ (address h).1 = .get ∧ m = .head := by
  rcases C150_only_partial e with ⟨_, a, _⟩ | ⟨_, _, _, _, _, a⟩ <;> exact a.1

/-! ## What requests change -/

/-- `GET` and `HEAD` change nothing. -/
theorem C151_safe (W : WebEnv N) (d : Draw) (r : HttpReq N) (kv : Kv) (hm : r.meth = .get ∨ r.meth = .head) : (serve W d r kv).2 = kv := by
  rcases serve_cases W d r kv with e | ⟨h, args, e, s⟩
  · exact e
  · rw [s]
    refine callOf_idle ?_ _ _ _ _ _ _
    have g : (address h).1 = .get := by
      rcases run_meth e with x | ⟨x, -⟩
      · rcases hm with y | y
        · rw [← x, y]
        · exact absurd (x.symm.trans y) (address_meth h)
      · exact x
    revert g
    cases h <;> first | exact fun _ => rfl | (intro g; cases g)

/-- The handlers that answer without changing anything although they are not for `GET`: tokens, charts, records and values. -/
def Asks (h : Handler) : Prop :=
  h = .logIn ∨ h = .refresh ∨ h = .switchOrg ∨ h = .eventSearch ∨ h = .groupSearch ∨ h = .segmentation ∨ h = .funnel ∨ h = .propValues

/-- What changes the metadata is a request to a handler that is neither for `GET` nor one of those. -/
theorem C151_changes (W : WebEnv N) (d : Draw) (r : HttpReq N) (kv : Kv) (hc : (serve W d r kv).2 ≠ kv) :
    ∃ h args, dispatch W.D (caller d r kv).toOption.isSome r.meth r.path = .run h args ∧ (address h).1 ≠ .get ∧ ¬ Asks h := by
  rcases serve_cases W d r kv with e | ⟨h, args, e, s⟩
  · exact absurd e hc
  · have hw : h.changing = true := by
      cases x : h.changing with
      | true => rfl
      | false => rw [s] at hc; exact absurd (callOf_idle x _ _ _ _ _ _) hc
    refine ⟨h, args, e, ?_⟩
    revert hw
    cases h <;> simp [Handler.changing, address, Asks]

/-- Who cannot be made out can only sign up, or send to the ingester. -/
theorem C151_closed (W : WebEnv N) (d : Draw) (r : HttpReq N) (kv : Kv) {e : AErr} (hc : caller d r kv = .error e) (hw : (serve W d r kv).2 ≠ kv) :
    ∃ h args, dispatch W.D false r.meth r.path = .run h args ∧ (h = .signUp ∨ h = .track ∨ h = .identify) := by
  obtain ⟨h, args, x, -, n⟩ := C151_changes W d r kv hw
  rw [hc] at x
  refine ⟨h, args, x, ?_⟩
  rcases C150_open x with y | y | y | y
  · exact .inl y
  · exact absurd (.inl y) n
  · exact .inr (.inl y)
  · exact .inr (.inr y)

/-- A request that gets a status of 400 or more has changed nothing, except in the ingester and in the making of projects. -/
theorem C151_refused_partial (W : WebEnv N) {Q : Type} {E : Env Q} {n : Nat} {kv : Kv} (hh : Hist E n kv) {st : Settings} (hs : loadSettings kv = .ok st) (d : Draw)
    (r : HttpReq N) {s : Nat} {x : Content N} (e : (serve W d r kv).1 = some (s, x)) (h4 : 400 ≤ s)
    (ho : ∀ h args, dispatch W.D (caller d r kv).toOption.isSome r.meth r.path = .run h args → h ≠ .track ∧ h ≠ .identify ∧ h ≠ .projectCreate) :
    (serve W d r kv).2 = kv := by
  rcases serve_cases W d r kv with y | ⟨h, args, g, y⟩
  · exact y
  · rw [y] at e ⊢
    have n1 : callOf d r h args ≠ .rest := fun z => by
      obtain ⟨a, b, c⟩ := ho h args g
      rcases callOf_rest z with z | z | z <;> contradiction
    revert e n1
    generalize callOf d r h args = c
    intro e n1
    cases c with
    | badBody => rfl
    | noGroup => rfl
    | api c => exact api_error hh hs e h4
    | query => exact idle_query _ _ _ _ _ _
    | rest => exact absurd rfl n1

/-! ## Histories -/

/-- What is left open acts on the metadata by at most seven requests. -/
def WebEnv.Open (W : WebEnv N) (E : Env CReportQuery) : Prop := ∀ h args who kv, Few E kv (W.rest h args who kv).2

/-- A request does to the metadata what at most seven requests of the model of the metadata do. -/
theorem C151_requests (W : WebEnv N) {E : Env CReportQuery} (hE : E.bc = W.A.bc) (hW : W.Open E) {n : Nat} {kv : Kv} (hh : Hist E n kv) (hn : n < 2 ^ 62)
    (d : Draw) (r : HttpReq N) (hb : r.body.Ok W.A) :
    ∃ rs : List (Req CReportQuery), rs.length ≤ 7 ∧ (∀ x ∈ rs, x.Ok) ∧ (serve W d r kv).2 = runReqs E rs kv := by
  rcases serve_cases W d r kv with e | ⟨h, args, e, s⟩
  · exact ⟨[], by simp, by simp, e⟩
  · rw [s]
    exact web_few hE hh hn (callOf_bound hb (dispatch_small e)) fun _ => hW _ _ _ _

/-- The replies to requests one after the other, and the store in the end. -/
def serveAll (W : WebEnv N) : List (Draw × HttpReq N) → Kv → List (HttpReply N) × Kv
  | [], kv => ([], kv)
  | (d, r) :: l, kv => (fun x => (fun y => (x.1 :: y.1, y.2)) (serveAll W l x.2)) (serve W d r kv)

/-- After any requests the store is one that is reached by requests to the metadata, so that what is proved of those holds of it. -/
theorem C151_history (W : WebEnv N) {E : Env CReportQuery} (hE : E.bc = W.A.bc) (hW : W.Open E) (l : List (Draw × HttpReq N))
    (hl : ∀ x ∈ l, x.2.body.Ok W.A) : ∀ {n : Nat} {kv : Kv}, Hist E n kv → n + 7 * l.length < 2 ^ 62 →
    ∃ m, n ≤ m ∧ m ≤ n + 7 * l.length ∧ Hist E m (serveAll W l kv).2 := by
  induction l with
  | nil => intro n kv h _; exact ⟨n, Nat.le_refl _, by simp, h⟩
  | cons x l ih =>
    intro n kv h hn
    obtain ⟨d, r⟩ := x
    simp only [List.length_cons] at hn ⊢
    obtain ⟨rs, l1, l2, l3⟩ := C151_requests W hE hW h (by omega) d r (hl _ (List.mem_cons_self ..))
    have h1 := runReqs_append' rs h l2
    rw [← l3] at h1
    obtain ⟨m, m1, m2, m3⟩ := ih (fun x hx => hl x (List.mem_cons_of_mem _ hx)) h1 (by omega)
    exact ⟨m, by omega, by omega, m3⟩

/-! ## Replies without a caller -/

theorem serve_unauthorized {W : WebEnv N} {d : Draw} {r : HttpReq N} {kv : Kv} {h : Handler} {args : List Arg} (a : Addressed W.D h r.meth r.path args)
    (ho : ¬ openTo h) {e : AErr} (hc : caller d r kv = .error e) : serve W d r kv = (e.status.map fun s => (s, .none), kv) := by
  obtain ⟨mem, hh, hm, hs, first⟩ := own h
  obtain ⟨ps, ds, tp, hd, hr⟩ := of_spelled hs a.2
  have t : Takes r.path r.meth (ownRoute h) := ⟨mem, by rw [hm]; exact (meth_route (address_meth h)).2 a.1, by rw [fits, tp]; rfl,
    fun r' hr' f => first r' hr' (compat_of tp hd hr f)⟩
  have nt : h.needsToken = true := by
    cases x : h.needsToken with
    | true => rfl
    | false => exact absurd ((openTo_iff h).1 x) ho
  unfold serve
  rw [hc, dispatch_takes t, hh, nt]
  rfl

/-- A request for something that is not open, without a token or with one that is not signed with the key, has run out, or is a refresh token: 401. -/
theorem C151_unauthorized_partial {W : WebEnv N} {d : Draw} {r : HttpReq N} {kv : Kv} {h : Handler} {args : List Arg}
    (a : Addressed W.D h r.meth r.path args) (ho : ¬ openTo h)
    (ht : r.token = none ∨ ∃ t s, r.token = some t ∧ loadSettings kv = .ok s ∧ (t.key ≠ s.accessToken ∨ t.exp < d.now - 60 ∨ t.org = none)) :
    serve W d r kv = (some (401, .none), kv) := by
  refine serve_unauthorized (e := .badToken) a ho ?_
  unfold caller
  rcases ht with ht | ⟨t, s, ht, hs, hb⟩
  · rw [ht]
  · rw [ht]
    show authorize d.now t kv = _
    unfold authorize
    rw [hs]
    dsimp only
    have : parseAccess s.accessToken d.now t = none := by
      unfold parseAccess
      split
      · next v =>
        unfold Tok.valid leeway at v
        simp only [Bool.and_eq_true, decide_eq_true_eq, Bool.not_eq_true', decide_eq_false_iff_not] at v
        rcases hb with hb | hb | hb
        · exact absurd v.1 hb
        · exact absurd hb v.2
        · rw [hb]; rfl
      · rfl
    rw [this]

/-- A token of an account that is no longer there is answered with 404. -/
theorem C151_gone {W : WebEnv N} {d : Draw} {r : HttpReq N} {kv : Kv} {h : Handler} {args : List Arg} (a : Addressed W.D h r.meth r.path args) (ho : ¬ openTo h)
    {t : Tok} {s : Settings} {o : Nat} (ht : r.token = some t) (hs : loadSettings kv = .ok s) (hk : t.valid s.accessToken d.now = true) (hor : t.org = some o)
    (hg : accountsC.getById t.account kv = .error .notFound) : serve W d r kv = (some (404, .none), kv) := by
  refine serve_unauthorized (e := .store .notFound) a ho ?_
  unfold caller
  rw [ht]
  show authorize d.now t kv = _
  unfold authorize parseAccess
  rw [hs]
  dsimp only
  rw [if_pos hk, hor]
  dsimp only [Option.map_some]
  unfold contextOf
  rw [hg]

/-! ## Getting one thing -/

/-- A request of somebody known to what has an address reaches it. -/
theorem serve_reach {W : WebEnv N} {d : Draw} {r : HttpReq N} {kv : Kv} {h : Handler} {args : List Arg} {ctx : Ctx} (n : h ≠ .eventByName)
    (g : h ≠ .groupPropGet) (a : Addressed W.D h r.meth r.path args) (hc : caller d r kv = .ok ctx) :
    serve W d r kv = (callOf d r h args).run W d h args (.ok ctx) kv := by
  rw [← hc]
  exact serve_run (C150_reach_partial n g a (.inl (by rw [hc]; rfl)))

theorem caller_token {d : Draw} {r : HttpReq N} {kv : Kv} {ctx : Ctx} (hc : caller d r kv = .ok ctx) : ∃ t, r.token = some t ∧ authorize d.now t kv = .ok ctx := by
  unfold caller at hc
  split at hc
  · cases hc
  · next t e => exact ⟨t, e, hc⟩

/-- The reply to a request for one thing: 403, 404, or the thing. -/
def item {R : Type} (may : Bool) (thing : Option R) (f : R → Content N) : HttpReply N :=
  match may, thing with
  | false, _ => some (403, .none)
  | true, none => some (404, .none)
  | true, some x => some (200, f x)

theorem admin_item {W : WebEnv N} {d : Draw} {t : Tok} {kv : Kv} {ctx : Ctx} (hc : authorize d.now t kv = .ok ctx) {h : Handler} (hs : h.success = 200)
    (args : List Arg) (who : Except AErr Ctx) {c : AdminCall N} {R : Type} {f : R → AdminShown N} {x : Except Err R} {o : Option R}
    (ha : c.act W.A ctx d.stamp kv = (told (fun r => some (f r)) x, kv))
    (hx : x = match o with | none => .error .notFound | some r => .ok r) :
    (WebCall.api (.admin t c)).run W d h args who kv = (item (c.allowed ctx) o fun r => .admin (f r), kv) := by
  simp only [WebCall.run, ApiCall.run, asCaller, hc, AdminCall.run]
  cases hb : c.allowed ctx with
  | false => rfl
  | true =>
    simp only [if_true]
    rw [ha, hx]
    cases o with
    | none => rfl
    | some r =>
      show (some (h.success, sentBody h.success _), kv) = _
      rw [hs]
      rfl

theorem schema_item {W : WebEnv N} {d : Draw} {t : Tok} {kv : Kv} {ctx : Ctx} (hc : authorize d.now t kv = .ok ctx) {h : Handler} (hs : h.success = 200)
    (args : List Arg) (who : Except AErr Ctx) {p : Nat} {c : SchemaCall N} {R : Type} {f : R → Shown N} {x : Except Err R} {o : Option R}
    (ha : c.act W.A.R ctx.accountId p d.stamp kv = reading (fun r => some (f r)) x kv)
    (hx : x = match o with | none => .error .notFound | some r => .ok r) :
    (WebCall.api (.schema t p c)).run W d h args who kv = (item (c.op.allowed ctx p) o fun r => .schema (f r), kv) := by
  simp only [WebCall.run, ApiCall.run, asCaller, hc, SchemaCall.run]
  cases hb : c.op.allowed ctx p with
  | false => rfl
  | true =>
    simp only [if_true]
    rw [ha, hx]
    cases o with
    | none => rfl
    | some r =>
      show (some (h.success, sentBody h.success _), kv) = _
      rw [hs]
      rfl

section item

variable {Q : Type} {W : WebEnv N} {E : Env Q} {n : Nat} {kv : Kv} {d : Draw} {r : HttpReq N} {ctx : Ctx}

/-- An account: for the administrators of the installation, and found exactly if it is there. -/
theorem C151_account (hh : Hist E n kv) (hn : n < 2 ^ 62) (hc : caller d r kv = .ok ctx) {i : Nat} (a : Addressed W.D .accountGet r.meth r.path [.num i]) :
    serve W d r kv = (item (decide (ctx.role = some .admin)) (accountsC.live kv i) fun x => .admin (.account (accountOut x)), kv) := by
  obtain ⟨t, ht, hc'⟩ := caller_token hc
  rw [serve_reach (by nofun) (by nofun) a hc, show callOf d r .accountGet [.num i] = .api (.admin t (.accountGet i)) by simp [callOf, openCall, ht, plainCall],
    admin_item hc' rfl _ _ rfl (getById_eq ((hist_accounts hh hn).inv accounts_ok) i)]
  rw [show (AdminCall.accountGet i : AdminCall N).allowed ctx = decide (ctx.role = some .admin) from Bool.eq_iff_iff.2 ((C71_root ctx _).trans (by simp))]

/-- An organization: for its owners as well. -/
theorem C151_org (hh : Hist E n kv) (hn : n < 2 ^ 62) (hc : caller d r kv = .ok ctx) {i : Nat} (a : Addressed W.D .orgGet r.meth r.path [.num i]) :
    ∃ may, (may = true ↔ ctx.role = some .admin ∨ HasRole ctx.organizations i .owner) ∧
      serve W d r kv = (item may (orgsC.live kv i) fun x => .admin (.org (orgOut x)), kv) := by
  obtain ⟨t, ht, hc'⟩ := caller_token hc
  refine ⟨(AdminCall.orgGet i : AdminCall N).allowed ctx, (C71_organization ctx .orgGet i).trans (by simp), ?_⟩
  rw [serve_reach (by nofun) (by nofun) a hc, show callOf d r .orgGet [.num i] = .api (.admin t (.orgGet i)) by simp [callOf, openCall, ht, plainCall],
    admin_item hc' rfl _ _ rfl (getById_eq ((hist_orgs hh hn).inv orgs_ok) i)]

/-- A backup. -/
theorem C151_backup (hh : Hist E n kv) (hn : n < 2 ^ 62) (hc : caller d r kv = .ok ctx) {i : Nat} (a : Addressed W.D .backupGet r.meth r.path [.num i]) :
    serve W d r kv = (item (decide (ctx.role = some .admin)) (backupsC.live kv i) fun x => .admin (.backup (backupOut x)), kv) := by
  obtain ⟨t, ht, hc'⟩ := caller_token hc
  rw [serve_reach (by nofun) (by nofun) a hc, show callOf d r .backupGet [.num i] = .api (.admin t (.backupGet i)) by simp [callOf, openCall, ht, plainCall],
    admin_item hc' rfl _ _ rfl (getById_eq ((hist_backups hh hn).inv backups_ok) i)]
  rw [show (AdminCall.backupGet i : AdminCall N).allowed ctx = decide (ctx.role = some .admin) from Bool.eq_iff_iff.2 ((C71_root ctx _).trans (by simp))]

/-- A project. -/
theorem C151_project (hh : Hist E n kv) (hc : caller d r kv = .ok ctx) {i : Nat} (a : Addressed W.D .projectGet r.meth r.path [.num i]) :
    serve W d r kv = (item (ctx.checkProject ctx.organizationId i .viewProject) (projectsC.getById i kv).toOption
      fun x => .admin (.project (projectOut x)), kv) := by
  obtain ⟨t, ht, hc'⟩ := caller_token hc
  rw [serve_reach (by nofun) (by nofun) a hc, show callOf d r .projectGet [.num i] = .api (.admin t (.projectGet i)) by simp [callOf, openCall, ht, plainCall],
    admin_item (o := (projectsC.getById i kv).toOption) hc' rfl _ _ rfl ?_]
  · rfl
  · have := hist_projectsOk hh i
    unfold Coll.getById
    split
    · rfl
    · next v hv =>
      obtain ⟨x, h1, -⟩ := this v hv
      rw [show projectsC.dec v = some x from h1]
      rfl

/-- An event of a project, for those who see its schema. -/
theorem C151_event (hh : Hist E n kv) (hn : n < 2 ^ 62) (hc : caller d r kv = .ok ctx) {p i : Nat} (a : Addressed W.D .eventGet r.meth r.path [.num p, .num i]) :
    serve W d r kv = (item (ctx.checkProject ctx.organizationId p .viewSchema) ((eventsC p).live kv i) fun x => .schema (.event (eventDefOut x)), kv) := by
  obtain ⟨t, ht, hc'⟩ := caller_token hc
  rw [serve_reach (by nofun) (by nofun) a hc, show callOf d r .eventGet [.num p, .num i] = .api (.schema t p (.eventGet i)) by simp [callOf, openCall, ht, plainCall],
    schema_item hc' rfl _ _ rfl (getById_eq ((hist_events hh hn p).inv (events_ok p)) i)]
  rfl

/-- A property of the events of a project. -/
theorem C151_prop (hh : Hist E n kv) (hn : n < 2 ^ 62) (hc : caller d r kv = .ok ctx) {p i : Nat}
    (a : Addressed W.D .eventPropGet r.meth r.path [.num p, .num i]) :
    serve W d r kv = (item (ctx.checkProject ctx.organizationId p .viewSchema) ((propsC p .event).live kv i) fun x => .schema (.prop (propDefOut x)), kv) := by
  obtain ⟨t, ht, hc'⟩ := caller_token hc
  rw [serve_reach (by nofun) (by nofun) a hc, show callOf d r .eventPropGet [.num p, .num i] = .api (.schema t p (.propGet .event i)) by simp [callOf, openCall, ht, plainCall],
    schema_item hc' rfl _ _ rfl (getById_eq ((hist_props hh hn p .event).inv (props_ok p .event)) i)]
  rfl

/-- A dashboard of a project, for those who explore its reports. -/
theorem C151_dashboard (hh : Hist E n kv) (hn : n < 2 ^ 62) (hc : caller d r kv = .ok ctx) {p i : Nat}
    (a : Addressed W.D .dashboardGet r.meth r.path [.num p, .num i]) :
    serve W d r kv = (item (ctx.checkProject ctx.organizationId p .exploreReports) ((dashboardsC p).live kv i)
      fun x => .schema (.dashboard (dashboardOut x)), kv) := by
  obtain ⟨t, ht, hc'⟩ := caller_token hc
  rw [serve_reach (by nofun) (by nofun) a hc, show callOf d r .dashboardGet [.num p, .num i] = .api (.schema t p (.dashboardGet i)) by simp [callOf, openCall, ht, plainCall],
    schema_item hc' rfl _ _ rfl (getById_eq ((hist_dashboards hh hn p).inv (dashboards_ok p)) i)]
  rfl

/-! ## Making and deleting -/

/-- Making an account and getting it: 201 and a number, and after any requests to the metadata that leave the account alone, 200 and what was asked for. -/
theorem C151_created (hh : Hist E n kv) (hc : caller d r kv = .ok ctx) (a : Addressed W.D .accountCreate r.meth r.path []) {q : JAccountNew}
    (hb : r.body = .accountNew q) (hq : (ReqBody.accountNew q : ReqBody N).Ok W.A) {s : Nat} {j : JAccount} {kv1 kv2 : Kv}
    (e : serve W d r kv = (some (s, .admin (.account j)), kv1)) {m : Nat} (hr : Runs E (fun r => ¬ r.RewritesAccount j.id) kv1 m kv2) (hn : n + m + 1 < 2 ^ 62)
    {d' : Draw} {r' : HttpReq N} {ctx' : Ctx} (hc' : caller d' r' kv2 = .ok ctx') (ha : ctx'.role = some .admin)
    (a' : Addressed W.D .accountGet r'.meth r'.path [.num j.id]) :
    s = 201 ∧ ∃ x, serve W d' r' kv2 = (some (200, .admin (.account x)), kv2) ∧ x.id = j.id ∧ AccountAsked ctx.accountId d.stamp q x := by
  obtain ⟨t, ht, h1⟩ := caller_token hc
  obtain ⟨t', ht', h2⟩ := caller_token hc'
  have g : RootOp.accountGet.allowed ctx' = true := (C71_root ctx' _).mpr ha
  rw [serve_reach (by nofun) (by nofun) a hc, show callOf d r .accountCreate [] = .api (.admin t (.accountCreate d.salt q)) by
    simp [callOf, openCall, ht, plainCall, bodyCall, hb]] at e
  rw [serve_reach (by nofun) (by nofun) a' hc', show callOf d' r' .accountGet [.num j.id] = .api (.admin t' (.accountGet j.id)) by
    simp [callOf, openCall, ht', plainCall]]
  simp only [WebCall.run, ApiCall.run, asCaller, h1, h2] at e ⊢
  obtain ⟨⟨x, y⟩, z⟩ : ∃ z, (AdminCall.accountCreate d.salt q).run W.A ctx d.stamp kv = z := ⟨_, rfl⟩
  rw [z] at e
  injection e with e1 e2
  dsimp only at e1 e2
  subst e2
  cases x with
  | none => cases e1
  | some x => cases x with
    | error x => cases x with
      | forbidden => cases e1
      | failed x => cases x <;> cases e1
    | ok x =>
      cases e1
      obtain ⟨w, w1, w2, w3⟩ := C147_account W.A hh (caller_lt h1) hq z hr hn (now' := d'.stamp) g
      rw [w1]
      exact ⟨rfl, w, rfl, w2, w3⟩

/-- Deleting an account that is there: 200, and whoever asks for it then, if let in, gets 404; all other accounts are as before. -/
theorem C151_deleted (hh : Hist E n kv) (hn : n + 1 < 2 ^ 62) (hc : caller d r kv = .ok ctx) (ha : ctx.role = some .admin) {i : Nat}
    (a : Addressed W.D .accountDelete r.meth r.path [.num i]) :
    ((accountsC.live kv i).isSome = true → ∃ x kv', serve W d r kv = (some (200, .admin (.account x)), kv') ∧
      accountsC.live kv' i = none ∧ ∀ k, k ≠ i → accountsC.live kv' k = accountsC.live kv k) ∧
    (accountsC.live kv i = none → serve W d r kv = (some (404, .none), kv)) := by
  obtain ⟨t, ht, h1⟩ := caller_token hc
  have g : (AdminCall.accountDelete i : AdminCall N).allowed ctx = true := (C71_root ctx _).mpr ha
  rw [serve_reach (by nofun) (by nofun) a hc, show callOf d r .accountDelete [.num i] = .api (.admin t (.accountDelete i)) by
    simp [callOf, openCall, ht, plainCall]]
  simp only [WebCall.run, ApiCall.run, asCaller, h1, act_of g, AdminCall.act]
  rcases delete_spec accounts_ok ((hist_accounts hh (by omega)).inv accounts_ok) i with ⟨h0, e⟩ | ⟨x, kv', h0, e, -, -, h3⟩
  · refine ⟨fun h => (by rw [h0] at h; cases h), fun _ => ?_⟩
    rw [runCall, e]
    rfl
  · refine ⟨fun _ => ⟨accountOut x, kv', ?_, by rw [h3, if_pos rfl], fun k hk => by rw [h3, if_neg hk]⟩, fun h => (by rw [h0] at h; cases h)⟩
    rw [runCall, e]
    rfl

end item

/-! ## What replies have in them -/

/-- There is nothing in a refusal but its status. -/
theorem C151_content (W : WebEnv N) (d : Draw) (r : HttpReq N) (kv : Kv) {s : Nat} {x : Content N} (e : (serve W d r kv).1 = some (s, x)) (h4 : 400 ≤ s) :
    x = .none := by
  have of : ∀ {o : Option Nat}, (o.map fun s => (s, (Content.none : Content N))) = some (s, x) → x = .none := by
    intro o h
    cases o with
    | none => cases h
    | some o => cases h; rfl
  have re : ∀ {ε α : Type} {h : Handler} {status : ε → Option Nat} {f : α → Content N} {y : Except ε α}, replyOf h status f y = some (s, x) → x = .none := by
    intro ε α h status f y hy
    obtain ⟨e', rfl⟩ := replyOf_error hy h4
    exact of hy
  unfold serve at e
  split at e
  · cases e; rfl
  · cases e; rfl
  · dsimp only at e
    split at e
    · exact of e
    · cases e
  · cases e; rfl
  · cases e; rfl
  · next h args _ =>
    revert e
    generalize callOf d r h args = c
    intro e
    cases c with
    | badBody => cases e; rfl
    | noGroup => cases e
    | api c =>
      change ApiReply.http h _ = some (s, x) at e
      revert e
      generalize (c.run W.C W.A d.now d.stamp d.salt kv).1 = y
      intro e
      cases y with
      | refused y => exact of e
      | auth y => exact re e
      | settings y => exact re e
      | schema y => cases y with
        | none => cases e
        | some y => exact re (y := y) e
      | report y => cases y with
        | none => cases e
        | some y => exact re (y := y) e
      | admin y => cases y with
        | none => cases e
        | some y => exact re (y := y) e
    | query =>
      unfold WebCall.run at e
      dsimp only at e
      split at e
      · exact of e
      · cases e
    | rest => exact of e

/-- The provider did what it was asked to. -/
def ApiReply.Done : ApiReply N → Prop
  | .refused _ => False
  | .auth r => ∃ x, r = .ok x
  | .settings r => ∃ x, r = .ok x
  | .schema r => ∃ x, r = some (.ok x)
  | .report r => ∃ x, r = some (.ok x)
  | .admin r => ∃ x, r = some (.ok x)

theorem Err.status_fail (e : Err) {s : Nat} (h : Err.status e = some s) : 400 ≤ s := by cases e <;> cases h <;> decide

theorem Refusal.status_fail (e : Refusal) {s : Nat} (h : e.status = some s) : 400 ≤ s := by
  cases e with
  | forbidden => cases h; decide
  | failed e => exact Err.status_fail e h

theorem AErr.status_fail (e : AErr) {s : Nat} (h : e.status = some s) : 400 ≤ s := by
  cases e with
  | store e => exact Err.status_fail e h
  | _ => cases h; decide

/-- Replies below 400 are those of providers that did what they were asked to. -/
theorem C151_success (h : Handler) (y : ApiReply N) : (∃ s x, y.http h = some (s, x) ∧ s < 400) ↔ y.Done := by
  have re : ∀ {ε α : Type} {status : ε → Option Nat} {f : α → Content N} {y : Except ε α}, (∀ e s, status e = some s → 400 ≤ s) →
      ((∃ s x, replyOf h status f y = some (s, x) ∧ s < 400) ↔ ∃ x, y = .ok x) := by
    intro ε α status f y hs
    constructor
    · rintro ⟨s, x, e, l⟩
      cases y with
      | ok a => exact ⟨a, rfl⟩
      | error a =>
        obtain ⟨t, ht, e⟩ := Option.map_eq_some_iff.mp e
        cases e
        have := hs a _ ht
        omega
    · rintro ⟨a, rfl⟩
      exact ⟨_, _, rfl, success_lt h⟩
  have op : ∀ {ε α : Type} {status : ε → Option Nat} {f : α → Content N} {y : Option (Except ε α)}, (∀ e s, status e = some s → 400 ≤ s) →
      ((∃ s x, y.bind (replyOf h status f) = some (s, x) ∧ s < 400) ↔ ∃ x, y = some (.ok x)) := by
    intro ε α status f y hs
    cases y with
    | none => exact ⟨fun ⟨_, _, e, _⟩ => (by cases e), fun ⟨_, e⟩ => (by cases e)⟩
    | some y => exact (re (f := f) (y := y) hs).trans ⟨fun ⟨x, e⟩ => ⟨x, by rw [e]⟩, fun ⟨x, e⟩ => ⟨x, by cases e; rfl⟩⟩
  cases y with
  | refused e =>
    constructor
    · rintro ⟨s, x, e', l⟩
      obtain ⟨t, ht, e'⟩ := Option.map_eq_some_iff.mp e'
      cases e'
      have := AErr.status_fail e ht
      exact absurd l (by omega)
    · exact False.elim
  | auth y => exact re AErr.status_fail
  | settings y => exact re AErr.status_fail
  | schema y => exact op Refusal.status_fail
  | report y => exact op Refusal.status_fail
  | admin y => exact op Refusal.status_fail

/-- The statuses of what goes wrong in the metadata tell one kind from another, and the fault of the caller from that of the server. -/
theorem C151_statuses (e e' : Err) : (Err.status e = Err.status e' → e = e' ∨ (∀ x ∈ [e, e'], x = .internal ∨ x = .codec)) ∧
    ((∃ s, Err.status e = some s ∧ 400 ≤ s ∧ s < 500) ↔ e ∈ [.notFound, .alreadyExists, .badRequest, .forbidden]) ∧
    (Err.status e = some 404 ↔ e = .notFound) ∧ (Err.status e = some 409 ↔ e = .alreadyExists) ∧ (Err.status e = some 403 ↔ e = .forbidden) := by
  refine ⟨fun h => ?_, ⟨?_, ?_⟩, ?_, ?_, ?_⟩
  · cases e <;> cases e' <;> first | (cases h; done) | exact .inl rfl | exact .inr (by decide)
  · rintro ⟨s, h, h1, h2⟩
    cases e <;> first | (cases h; done) | (cases h; omega) | decide
  · intro h
    cases e <;> first | exact ⟨_, rfl, by decide, by decide⟩ | exact absurd h (by decide)
  all_goals cases e <;> decide

/-- Whoever has a backup made learns nothing about it. -/
theorem C151_backup_violated {W : WebEnv N} {d : Draw} {r : HttpReq N} {kv : Kv} (a : Addressed W.D .backupMake r.meth r.path [])
    {s : Nat} {x : Content N} (e : (serve W d r kv).1 = some (s, x)) : x = .none := by
  by_cases h4 : 400 ≤ s
  · exact C151_content W d r kv e h4
  · cases hc : caller d r kv with
    | error y =>
      rw [serve_unauthorized a (by unfold openTo; nofun) hc] at e
      dsimp only at e
      cases z : y.status with
      | none => rw [z] at e; cases e
      | some z' => rw [z] at e; cases e; rfl
    | ok ctx =>
      obtain ⟨t, ht, h1⟩ := caller_token hc
      rw [serve_reach (by nofun) (by nofun) a hc, show callOf d r .backupMake [] = .api (.admin t .backup) by simp [callOf, openCall, ht, plainCall]] at e
      simp only [WebCall.run, ApiCall.run, asCaller, h1] at e
      revert e
      generalize ((AdminCall.backup : AdminCall N).run W.A ctx d.stamp kv).1 = y
      intro e
      cases y with
      | none => cases e
      | some y => cases y with
        | ok y => cases e; rfl
        | error y => cases z : y.status with
          | none => change (y.status.map fun s => (s, (Content.none : Content N))) = _ at e; rw [z] at e; cases e
          | some z' => change (y.status.map fun s => (s, (Content.none : Content N))) = _ at e; rw [z] at e; cases e; rfl

/-- The properties of each of the five kinds of groups (`GROUPS_COUNT`, common/src/lib.rs 16) are listed by their path. -/
theorem C151_groups {W : WebEnv N} {d : Draw} {r : HttpReq N} {kv : Kv} {p g : Nat} {t : Tok} {ctx : Ctx} (a : Addressed W.D .groupPropList r.meth r.path [.num p, .num g])
    (ht : r.token = some t) (hc : caller d r kv = .ok ctx) (hg : g ∈ [0, 1, 2, 3, 4]) :
    (serve W d r kv).1 = ((ApiCall.schema t p (.propList (.group g))).run W.C W.A d.now d.stamp d.salt kv).1.http .groupPropList := by
  have hl : g < 5 := by simp at hg; omega
  rw [serve_reach (by nofun) (by nofun) a hc,
    show callOf d r .groupPropList [.num p, .num g] = .api (.schema t p (.propList (.group g))) by simp [callOf, openCall, ht, plainCall, ofGroup, hl]]
  rfl

/-- For another number of a group there is no answer at all (the index is out of bounds, http/properties.rs 79), where one would expect a 404. -/
theorem C151_groups_violated {W : WebEnv N} {d : Draw} {r : HttpReq N} {kv : Kv} {p g : Nat} {ctx : Ctx} (a : Addressed W.D .groupPropList r.meth r.path [.num p, .num g])
    (hc : caller d r kv = .ok ctx) (hg : g ∉ [0, 1, 2, 3, 4]) : serve W d r kv = (none, kv) := by
  have hl : ¬ g < 5 := by simp at hg; omega
  obtain ⟨t, ht, -⟩ := caller_token hc
  rw [serve_reach (by nofun) (by nofun) a hc,
    show callOf d r .groupPropList [.num p, .num g] = .noGroup by simp [callOf, openCall, ht, plainCall, ofGroup, hl]]
  rfl

/-! ## Secrets -/

/-- What is left open does not look at secrets. -/
def WebEnv.Blind (W : WebEnv N) : Prop := ∀ h args kv kv', Twin kv kv' → (∀ ctx, W.query h args ctx kv = W.query h args ctx kv') ∧
  ∀ who, SameReply (W.rest h args who kv) (W.rest h args who kv')

/-- The password a request has in it. -/
def ReqBody.guess : ReqBody N → Option Str
  | .logIn _ pw | .email _ pw | .password pw _ => some pw
  | _ => none

theorem bound_ok {A : AdminEnv N} {c : ApiCall N} (h : c.Bound A) : c.Ok := by
  cases c with
  | auth c => exact h
  | admin t c => cases c <;> first | exact h | trivial
  | schema t p c => trivial
  | report t p c => trivial
  | settingsGet t => trivial
  | settingsSet t q => trivial

theorem callOf_guess (d : Draw) (r : HttpReq N) (h : Handler) (args : List Arg) :
    ∀ c, callOf d r h args = .api c → ∀ pw, c.guess = some pw → r.body.guess = some pw := by
  by_cases ho : h.outside = true
  · intro c e
    cases h <;> first | (cases ho; done) | cases e
  · refine callOf_cases (P := fun w => ∀ c, w = .api c → ∀ pw, c.guess = some pw → r.body.guess = some pw) (Bool.eq_false_iff.mpr ho) (fun c e => by cases e) ?_ ?_ ?_
    · intro w e c hw pw hp
      subst hw
      unfold openCall at e
      split at e <;> first | (cases e; done) | skip
      · cases e; cases hp
      · next hb => cases e; rw [hb]; exact hp
    · intro t w _ e c hw pw hp
      subst hw
      unfold plainCall ofGroup at e
      split at e <;> first | (cases e; done) | (cases e; cases hp; done) | (split at e <;> first | (cases e; cases hp; done) | (cases e; done))
    · intro t w _ e c hw pw hp
      subst hw
      unfold bodyCall ofGroup at e
      split at e <;> first | (cases e; done) | (cases e; cases hp; done) | (next hb => cases e; rw [hb]; exact hp) |
        (dsimp only at e; split at e <;> first | (cases e; cases hp; done) | (cases e; done)) | (obtain ⟨y, -, e⟩ := Option.map_eq_some_iff.1 e; cases e; cases hp; done)

/-- Two stores that differ in secrets only are answered alike, and left differing in secrets only, if a password in the request is right or wrong for the
same accounts in both. -/
theorem C151_secrets {W : WebEnv N} (hW : W.Blind) (d : Draw) {r : HttpReq N} (hb : r.body.Ok W.A) {kv kv' : Kv} (h : Twin kv kv')
    (hg : ∀ pw, r.body.guess = some pw → SameCheck W.C pw kv kv') : SameReply (serve W d r kv) (serve W d r kv') := by
  have hc : caller d r kv = caller d r kv' := by
    unfold caller
    split
    · rfl
    · exact authorize_twin h
  unfold serve
  rw [← hc]
  split
  · exact ⟨rfl, h⟩
  · exact ⟨rfl, h⟩
  · exact ⟨rfl, h⟩
  · exact ⟨rfl, h⟩
  · exact ⟨rfl, h⟩
  · next hd args e =>
    have bd := callOf_bound (d := d) (h := hd) hb (dispatch_small e)
    have gs := callOf_guess d r hd args
    revert bd gs
    generalize callOf d r hd args = c
    intro bd gs
    cases c with
    | badBody => exact ⟨rfl, h⟩
    | noGroup => exact ⟨rfl, h⟩
    | api c => exact SameReply.of (f := ApiReply.http hd) (C146_call W.C W.A d.now d.stamp d.salt (bound_ok bd) h fun pw x => hg pw (gs c rfl pw x))
    | query =>
      unfold WebCall.run
      dsimp only
      split
      · exact ⟨by rw [((hW hd args kv kv' h).1 _)], h⟩
      · exact ⟨rfl, h⟩
    | rest => exact SameReply.of (f := fun o : Option Nat => o.map fun s => (s, (Content.none : Content N))) ((hW hd args kv kv' h).2 (caller d r kv).toOption)

/-! ## Requests -/

/-- Some encoding of queries. -/
noncomputable def exBincode : Bincode CReportQuery := Classical.choice bincode_exists

/-- Hashes are the passwords, what is left open succeeds and does nothing. -/
noncomputable def exWeb : WebEnv Int := ⟨⟨exReqEnv, exBincode, fun p _ => p⟩, exAuth, exVerbatim, fun _ _ _ _ => some 200, fun _ _ _ kv => (some 200, kv), fun _ _ => 200⟩

theorem exWeb_open (E : Env CReportQuery) : exWeb.Open E := fun _ _ _ _ => .same

theorem exWeb_blind : exWeb.Blind := fun _ _ _ _ h => ⟨fun _ => rfl, fun _ => ⟨rfl, h⟩⟩

def exDraw : Draw := ⟨0, ⟨7200, 0⟩, 0, "b".toList⟩

/-- The token of the administrator of the store of the examples. -/
def exRoot : Tok := ⟨"aaaa".toList, 3600, 1, some 1⟩

def exAsk (m : Meth) (p : List String) (t : Option Tok) (b : ReqBody Int := .other) : HttpReq Int := ⟨m, p.map String.toList, t, b, none, none⟩

def exCode (r : HttpReply Int × Kv) : Option Nat := r.1.map (·.1)

set_option maxRecDepth 100000 in
/-- An account asked for by the administrator, by its owner, without and with a bad token; one that is not there, one that has no number, a wrong method. -/
example : exCode (serve exWeb exDraw (exAsk .get ["api", "v1", "accounts", "2"] (some exRoot)) exWorld.kv) = some 200 ∧
    exCode (serve exWeb exDraw (exAsk .get ["api", "v1", "accounts", "2"] (some exAcc2)) exWorld.kv) = some 403 ∧
    exCode (serve exWeb exDraw (exAsk .get ["api", "v1", "accounts", "2"] none) exWorld.kv) = some 401 ∧
    exCode (serve exWeb exDraw (exAsk .get ["api", "v1", "accounts", "2"] (some exRef2)) exWorld.kv) = some 401 ∧
    exCode (serve exWeb exDraw (exAsk .get ["api", "v1", "accounts", "9"] (some exRoot)) exWorld.kv) = some 404 ∧
    exCode (serve exWeb exDraw (exAsk .get ["api", "v1", "accounts", "x"] (some exRoot)) exWorld.kv) = some 400 ∧
    exCode (serve exWeb exDraw (exAsk .delete ["api", "v1", "accounts"] (some exRoot)) exWorld.kv) = some 405 := by
  refine ⟨?_, ?_, ?_, ?_, ?_, ?_, ?_⟩ <;> decide +kernel

/-- Hypotheses of `C151_account` and of those like it. -/
example : Hist exEnv 5 exWorld.kv ∧ (caller exDraw (exAsk .get ["api", "v1", "accounts", "2"] (some exRoot)) exWorld.kv).toOption.isSome = true ∧
    (accountsC.live exWorld.kv 2).isSome = true ∧
    Addressed exWeb.D .accountGet (exAsk .get ["api", "v1", "accounts", "2"] (some exRoot)).meth (exAsk .get ["api", "v1", "accounts", "2"] (some exRoot)).path [.num 2] :=
  ⟨Hist.of_run exEnv exStore exStore_ok, by decide +kernel, by decide +kernel,
    .inl rfl, .fix (.fix (.fix (.num (by decide) rfl (by decide +kernel) .nil)))⟩

/-- The store after account 2 was deleted. -/
noncomputable def exGone : Kv := (serve exWeb exDraw (exAsk .delete ["api", "v1", "accounts", "2"] (some exRoot)) exWorld.kv).2

set_option maxRecDepth 100000 in
/-- Not all who cannot be made out are told so: the token of account 2 was good, the account was deleted, and its profile is answered with 404. -/
theorem C151_gone_violated : ∃ (W : WebEnv Int) (d : Draw) (r : HttpReq Int) (kv : Kv) (s : Settings) (t : Tok),
    Addressed W.D .profile r.meth r.path [] ∧ ¬ openTo .profile ∧ r.token = some t ∧ loadSettings kv = .ok s ∧ t.valid s.accessToken d.now = true ∧
    (caller d r kv).toOption = none ∧ exCode (serve W d r kv) = some 404 := by
  refine ⟨exWeb, exDraw, exAsk .get ["api", "v1", "profile"] (some exAcc2), exGone, (loadSettings exGone).toOption.getD sampleSettings, exAcc2,
    ⟨.inl rfl, .fix (.fix (.fix .nil))⟩, by unfold openTo; nofun, rfl, ?_, by decide +kernel, by decide +kernel, by decide +kernel⟩
  have h : (loadSettings exGone).toOption.isSome = true := by decide +kernel
  cases e : loadSettings exGone with
  | error x => rw [e] at h; cases h
  | ok x => rfl

set_option maxRecDepth 100000 in
/-- As in `C151_deleted`: the account was there, is deleted once, and is not there then. -/
example : exCode (serve exWeb exDraw (exAsk .delete ["api", "v1", "accounts", "2"] (some exRoot)) exWorld.kv) = some 200 ∧
    exCode (serve exWeb exDraw (exAsk .delete ["api", "v1", "accounts", "2"] (some exRoot)) exGone) = some 404 ∧
    exCode (serve exWeb exDraw (exAsk .get ["api", "v1", "accounts", "2"] (some exRoot)) exGone) = some 404 := by
  refine ⟨?_, ?_, ?_⟩ <;> decide +kernel

/-- The store of the examples, with backups in a directory. -/
def exKeeping : Kv := runReqs exEnv (.settings { sampleSettings with backupEnabled := true, provider := .localDir } :: exStore.tail) []

set_option maxRecDepth 100000 in
/-- As in `C151_backup_violated`: a backup is made, and answered with 204. -/
example : exCode (serve exWeb exDraw (exAsk .post ["api", "v1", "admin", "backups", "backup"] (some exRoot)) exKeeping) = some 204 ∧
    (backupsC.live (serve exWeb exDraw (exAsk .post ["api", "v1", "admin", "backups", "backup"] (some exRoot)) exKeeping).2 1).isSome = true := by
  refine ⟨?_, ?_⟩ <;> decide +kernel

/-- Somebody signs up, signs up again with the same address, and looks at the profile. -/
def exTalk : List (Draw × HttpReq Int) :=
  [(exDraw, exAsk .post ["api", "v1", "auth", "signup"] none (.signUp "c".toList "ccc".toList none)),
   (exDraw, exAsk .post ["api", "v1", "auth", "signup"] none (.signUp "c".toList "ccc".toList none)),
   (exDraw, exAsk .post ["api", "v1", "auth", "signup"] none .other),
   (exDraw, exAsk .put ["api", "v1", "profile", "name"] (some exAcc2) (.name "Bee".toList)),
   (exDraw, exAsk .get ["api", "v1", "profile"] (some exAcc2))]

set_option maxRecDepth 100000 in
/-- As in `C151_history` and `C151_refused_partial`: made, refused, not understood, changed, shown. -/
example : (∀ x ∈ exTalk, x.2.body.Ok exWeb.A) ∧ (serveAll exWeb exTalk exWorld.kv).1.map (·.map (·.1)) = [some 201, some 409, some 400, some 200, some 200] := by
  refine ⟨fun x hx => ?_, by decide +kernel⟩
  simp only [exTalk, List.mem_cons, List.not_mem_nil, or_false] at hx
  rcases hx with rfl | rfl | rfl | rfl | rfl <;> exact trivial

/-- As in `C151_secrets`: the profile of an account, whatever its hash. -/
example (a : Account) (ha : a.Valid) (h : Str) : SameReply
    (serve exWeb exDraw (exAsk .get ["api", "v1", "profile"] (some exAcc2)) (putK exWorld.kv (.data (.top .accounts) 2) a.enc))
    (serve exWeb exDraw (exAsk .get ["api", "v1", "profile"] (some exAcc2)) (putK exWorld.kv (.data (.top .accounts) 2) { a with passwordHash := h }.enc)) :=
  C151_secrets exWeb_blind _ (r := exAsk .get ["api", "v1", "profile"] (some exAcc2)) trivial (twin_account _ _ ha h) nofun

end OptiPrism.Platform
