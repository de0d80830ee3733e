import Verif.Platform.RequestLemmas
import Verif.Platform.RequestDemo
import Verif.Meta.SystemReach
import Verif.Meta.Members
import Verif.Meta.UpdateProps

/-!
# C123: A saved report is given back as it was saved
-/

namespace OptiPrism.Platform

open OptiPrism.Meta (Str Time Kv Err Env Req Hist Runs Report ReportType ReportUpd Bincode runCall reportsC reportCreate
  reportUpdate reports_ok hist_reports getById_eq create_done optOk_none optOk_some noix_ok AgreeOn exec_agree Mod Ns PColl
  Coll create_spec update_spec delete_spec Op normList)

variable {N : Type}

/-! ## The conversions alone -/

/-- A query turned into what is kept and back is the same query exactly if it is `Tidy`: its values are booleans, texts and
numbers that survive, its aggregates are among the five there are, its optional lists are not empty where that is not kept, it
has one group of filters at most and no range of excluded steps. -/
theorem C123_query_partial (R : ReqEnv N) (q : JReportQuery N) :
    (∃ c, reportQueryIn R q = some c ∧ reportQueryOut R c = some q) ↔ Tidy R q := by
  rw [← back_reportQuery R q, Option.bind_eq_some_iff]

/-! ## Through the store -/

/-- A request to the metadata that neither changes nor deletes the given report. -/
def LeavesReport {Q : Type} (p id : Nat) : Req Q → Prop
  | .reportUpdate p' id' .. => ¬ (p' = p ∧ id' = id)
  | .reportDelete p' id' => ¬ (p' = p ∧ id' = id)
  | _ => True

theorem leaves_step {Q : Type} {E : Env Q} {n : Nat} {kv : Kv} (h : Hist E n kv) (hn : n < 2 ^ 62) {p id : Nat} {x : Report Q}
    (hx : (reportsC E.bc p).live kv id = some x) {r : Req Q} (hr : r.Ok) (hl : LeavesReport p id r) :
    (reportsC E.bc p).live (r.exec E kv) id = some x := by
  by_cases hm : Mod.coll (Ns.proj p .reports) ∈ r.mods
  case neg =>
    rw [AgreeOn.live (c := reportsC E.bc p) (exec_agree E hr hm kv)]
    exact hx
  have re := hist_reports h hn p
  have inv := re.inv (reports_ok E.bc p)
  cases r <;> simp only [Req.mods, List.mem_cons, List.not_mem_nil, or_false, Mod.coll.injEq, reduceCtorEq, Ns.proj.injEq, or_self, and_true, and_false] at hm
  case reportCreate p' now req =>
    subst hm
    show (reportsC E.bc p).live (runCall (reportCreate E.bc p now req) kv).2 id = _
    unfold runCall reportCreate
    rcases create_spec (reports_ok E.bc p) inv (re.room (reports_ok E.bc p)) (keys := []) (mk := fun id =>
      { req with id := id, createdAt := now, updatedAt := none, updatedBy := none, projectId := p })
      (fun _ => rfl) (fun _ => rfl) (fun id hid => ⟨⟨hid, hr.2, optOk_none⟩, hr.1⟩) with ⟨-, e⟩ | ⟨-, kv1, e, -, -, h3⟩
    · rw [e]; exact hx
    · rw [e]
      show (reportsC E.bc p).live kv1 id = some x
      rw [h3]
      split
      · rename_i hid
        exfalso
        unfold Coll.live at hx
        obtain ⟨v, hv, -⟩ := Option.bind_eq_some_iff.mp hx
        obtain ⟨-, -, -, -, hle, -⟩ := inv.data id v hv
        omega
      · exact hx
  case reportUpdate p' id' now q =>
    subst hm
    have hne : ¬ id' = id := fun e => hl ⟨rfl, e⟩
    show (reportsC E.bc p).live (runCall (reportUpdate E.bc p id' now q) kv).2 id = _
    unfold runCall
    cases e : reportUpdate E.bc p id' now q kv with
    | error e => exact hx
    | ok a =>
      obtain ⟨a, kv'⟩ := a
      obtain ⟨r, -, -, -, h3⟩ := Meta.update_done (reports_ok E.bc p) inv (t := q.apply now)
        (noix_ok _ (fun r r' e => by injection e with e; exact e.symm) (fun _ => rfl)
          (fun r h => ⟨⟨h.head.id, h.head.createdBy, optOk_some hr⟩, h.proj⟩) (by simp [reportsC])) e
      show (reportsC E.bc p).live kv' id = some x
      rw [h3, if_neg fun e => hne e.symm]
      exact hx
  case reportDelete p' id' =>
    subst hm
    have hne : ¬ id' = id := fun e => hl ⟨rfl, e⟩
    show (reportsC E.bc p).live (runCall ((reportsC E.bc p).delete id') kv).2 id = _
    unfold runCall
    rcases delete_spec (reports_ok E.bc p) inv id' with ⟨-, e⟩ | ⟨r, kv', -, e, -, -, h3⟩
    · rw [e]; exact hx
    · rw [e]
      show (reportsC E.bc p).live kv' id = some x
      rw [h3, if_neg fun e => hne e.symm]
      exact hx
  case propCreate p' ty now r f => cases ty <;> simp [Meta.PropType.coll] at hm
  case propGetOrCreate p' ty now r f => cases ty <;> simp [Meta.PropType.coll] at hm
  case propUpdate p' ty id now q => cases ty <;> simp [Meta.PropType.coll] at hm
  case propDelete p' ty id => cases ty <;> simp [Meta.PropType.coll] at hm

theorem leaves_runs {Q : Type} {E : Env Q} {n m : Nat} {kv kv' : Kv} (h : Hist E n kv) {p id : Nat} {x : Report Q}
    (hx : (reportsC E.bc p).live kv id = some x) (hr : Runs E (LeavesReport p id) kv m kv') (hn : n + m < 2 ^ 62) :
    (reportsC E.bc p).live kv' id = some x := by
  induction hr with
  | refl => exact hx
  | step r hs ho hp ih => exact leaves_step (hs.hist h) (by omega) (ih (by omega)) ho hp

theorem reportOut_some {R : ReqEnv N} {r : Report CReportQuery} {j : JReport N} (h : reportOut R r = some j) :
    reportQueryOut R r.query = some j.query ∧ j.id = r.id ∧ j.name = r.name ∧ j.description = r.description ∧ j.typ = r.typ ∧
      j.tags = r.tags ∧ j.projectId = r.projectId ∧ j.createdBy = r.createdBy := by
  simp only [reportOut, Option.bind_eq_bind, Option.pure_def, Option.bind_eq_some_iff] at h
  obtain ⟨q, hq, e⟩ := h
  cases e
  exact ⟨hq, rfl, rfl, rfl, rfl, rfl, rfl, rfl⟩

theorem reportOut_of {R : ReqEnv N} (r : Report CReportQuery) {q : JReportQuery N} (h : reportQueryOut R r.query = some q) :
    ∃ j, reportOut R r = some j ∧ j.query = q := by
  simp [reportOut, h]

/-- A report that was created and answered for is shown, after whatever else has happened, with the name, description and type
it was given; its query is the one that was sent exactly if that was `Tidy`. -/
theorem C123_partial (R : ReqEnv N) {E : Env CReportQuery} {n m : Nat} {kv kv1 kv2 : Kv} (h : Hist E n kv)
    {p account : Nat} (hp : p < 2 ^ 64) (ha : account < 2 ^ 64) {now : Time} {req : JReportNew N} {j : JReport N}
    (hc : apiReportCreate R E.bc p account now req kv = (some (.ok j), kv1))
    (hr : Runs E (LeavesReport p j.id) kv1 m kv2) (hn : n + m + 1 < 2 ^ 62) :
    ∃ ans, apiReportGet R E.bc p j.id kv2 = some (.ok ans) ∧ ans.id = j.id ∧ ans.name = req.name ∧
      ans.description = req.description ∧ ans.typ = req.typ ∧ ans.projectId = p ∧ ans.createdBy = account ∧
      (ans.query = req.query ↔ Tidy R req.query) := by
  unfold apiReportCreate at hc
  cases hq : reportQueryIn R req.query with
  | none => rw [hq] at hc; simp at hc
  | some q =>
    rw [hq] at hc
    dsimp only at hc
    injection hc with hc hkv
    have re := hist_reports h (by omega) p
    have inv := re.inv (reports_ok E.bc p)
    generalize hreq : (⟨0, now, account, none, none, 0, req.tags, req.name, req.description, req.typ, q⟩ : Report CReportQuery) = rq at hc hkv
    have hok : (Req.reportCreate p now rq : Req CReportQuery).Ok := by subst hreq; exact ⟨hp, ha⟩
    have h1 := h.step _ hok
    have hx : Req.exec E (.reportCreate p now rq) kv = kv1 := hkv
    rw [hx] at h1
    unfold runCall at hc hkv
    cases e : reportCreate E.bc p now rq kv with
    | error e' => rw [e] at hc; simp [reportAnswer] at hc
    | ok a =>
      obtain ⟨r, kvx⟩ := a
      rw [e] at hc hkv
      dsimp only at hc hkv
      subst hkv
      simp only [reportAnswer, Option.map_eq_some_iff] at hc
      obtain ⟨j', ho, ej⟩ := hc
      cases ej
      obtain ⟨ho1, ho2, -⟩ := reportOut_some ho
      obtain ⟨er, -, inv1, hlive⟩ := create_done (reports_ok E.bc p) inv (re.room (reports_ok E.bc p))
        (keys := []) (mk := fun id => { rq with id := id, createdAt := now, updatedAt := none, updatedBy := none, projectId := p })
        ⟨fun _ => rfl, fun _ => rfl, fun id hid => ⟨⟨hid, hok.2, optOk_none⟩, hok.1⟩⟩ e
      have hid : j.id = Meta.lastId kv (reportsC E.bc p).ns + 1 := by rw [ho2, er]
      have hl := hlive j.id
      rw [if_pos hid] at hl
      have hl2 := leaves_runs h1 hl hr (by omega)
      have inv2 := (hist_reports (hr.hist h1) (by omega) p).inv (reports_ok E.bc p)
      unfold apiReportGet
      rw [getById_eq inv2, hl2]
      subst hreq
      have hqr : r.query = q := by rw [er]
      rw [hqr] at ho1
      obtain ⟨ans, ha1, ha2⟩ := reportOut_of (R := R) (Report.norm
        ⟨j.id, now, account, none, none, p, req.tags, req.name, req.description, req.typ, q⟩) (q := j.query) ho1
      obtain ⟨-, a2, a3, a4, a5, -, a6, a7⟩ := reportOut_some ha1
      refine ⟨ans, ?_, a2, a3, a4, a5, a6, a7, ?_⟩
      · simp only [reportAnswer]
        rw [ha1]
        rfl
      · rw [ha2, ← C123_query_partial R req.query]
        constructor
        · intro e; exact ⟨q, hq, by rw [ho1, e]⟩
        · rintro ⟨c, hc1, hc2⟩
          rw [hq] at hc1
          cases hc1
          rw [ho1] at hc2
          exact Option.some.inj hc2

/-- Every `Tidy` query is accepted and at once answered as it was sent. -/
theorem C123_accepted_partial (R : ReqEnv N) {E : Env CReportQuery} {n : Nat} {kv : Kv} (h : Hist E n kv) (hn : n < 2 ^ 62)
    {p account : Nat} (hp : p < 2 ^ 64) (ha : account < 2 ^ 64) (now : Time) {req : JReportNew N} (ht : Tidy R req.query) :
    ∃ j, (apiReportCreate R E.bc p account now req kv).1 = some (.ok j) ∧ j.query = req.query := by
  obtain ⟨q, hq, hq'⟩ := (C123_query_partial R req.query).mpr ht
  have re := hist_reports h hn p
  have inv := re.inv (reports_ok E.bc p)
  unfold apiReportCreate
  rw [hq]
  dsimp only
  unfold runCall reportCreate
  rcases create_spec (reports_ok E.bc p) inv (re.room (reports_ok E.bc p)) (keys := []) (mk := fun id =>
    (⟨id, now, account, none, none, p, req.tags, req.name, req.description, req.typ, q⟩ : Report CReportQuery))
    (fun _ => rfl) (fun _ => rfl) (fun id hid => ⟨⟨hid, ha, optOk_none⟩, hp⟩) with ⟨⟨i, hi, -⟩, -⟩ | ⟨-, kv1, e, -, -, -⟩
  · simp [reportsC] at hi
  · rw [e]
    obtain ⟨j, hj, hj'⟩ := reportOut_of (R := R) (⟨Meta.lastId kv (reportsC E.bc p).ns + 1, now, account, none, none, p, req.tags, req.name,
      req.description, req.typ, q⟩ : Report CReportQuery) hq'
    exact ⟨j, by simp [reportAnswer, hj], hj'⟩

/-- A report whose query was changed, and answered for, is shown, after whatever else has happened, with a query that is the one
sent exactly if that was `Tidy`; a name that was sent is shown too. -/
theorem C123_update_partial (R : ReqEnv N) {E : Env CReportQuery} {n m : Nat} {kv kv1 kv2 : Kv} (h : Hist E n kv)
    {p id account : Nat} (ha : account < 2 ^ 64) {now : Time} {req : JReportUpd N} {j : JReport N} {q : JReportQuery N}
    (hq : req.query = some q) (hu : apiReportUpdate R E.bc p account id now req kv = (some (.ok j), kv1))
    (hr : Runs E (LeavesReport p id) kv1 m kv2) (hn : n + m + 1 < 2 ^ 62) :
    ∃ ans, apiReportGet R E.bc p id kv2 = some (.ok ans) ∧ ans.id = id ∧ (∀ name, req.name = some name → ans.name = name) ∧
      (∀ d, req.description = some d → ans.description = d) ∧ (ans.query = q ↔ Tidy R q) := by
  unfold apiReportUpdate at hu
  rw [hq] at hu
  cases hc : reportQueryIn R q with
  | none => simp [optConv, hc] at hu
  | some c =>
    simp only [optConv, hc, Option.map_some] at hu
    injection hu with hu hkv
    generalize hupd : (⟨account, req.tags, req.name, req.description, some c, req.typ⟩ : ReportUpd CReportQuery) = upd at hu hkv
    have hok : (Req.reportUpdate p id now upd : Req CReportQuery).Ok := by subst hupd; exact ha
    have h1 := h.step _ hok
    have hx : Req.exec E (.reportUpdate p id now upd) kv = kv1 := hkv
    rw [hx] at h1
    cases e : runCall (reportUpdate E.bc p id now upd) kv with
    | mk a kvx =>
      rw [e] at hu hkv
      dsimp only at hu hkv
      subst hkv
      cases a with
      | error e' => simp [reportAnswer] at hu
      | ok a =>
        simp only [reportAnswer, Option.map_eq_some_iff] at hu
        obtain ⟨j', ho, ej⟩ := hu
        cases ej
        obtain ⟨old, -, hno, hid, rfl, hnew, -⟩ := Meta.update_stored (reports_ok E.bc p) Report.norm_norm (hist_reports h (by omega) p)
          (t := upd.apply now)
          (noix_ok _ (fun r r' e => by injection e with e; exact e.symm) (fun _ => rfl)
            (fun r h => ⟨⟨h.head.id, h.head.createdBy, optOk_some hok⟩, h.proj⟩) (by simp [reportsC])) e
        obtain ⟨ho1, -⟩ := reportOut_some ho
        subst hupd
        have inv1 := (hist_reports h1 (by omega) p).inv (reports_ok E.bc p)
        rw [getById_eq inv1] at hnew
        cases hl : (reportsC E.bc p).live kvx id with
        | none => rw [hl] at hnew; cases hnew
        | some x =>
          rw [hl] at hnew
          injection hnew with hnew
          have hl2 := leaves_runs h1 hl hr (by omega)
          have inv2 := (hist_reports (hr.hist h1) (by omega) p).inv (reports_ok E.bc p)
          unfold apiReportGet
          rw [getById_eq inv2, hl2]
          have hxq : x.query = c := by rw [hnew]; rfl
          have ho1 : reportQueryOut R c = some j.query := ho1
          obtain ⟨ans, ha1, ha2⟩ := reportOut_of (R := R) x (q := j.query) (by rw [hxq]; exact ho1)
          obtain ⟨-, a2, a3, a4, -⟩ := reportOut_some ha1
          refine ⟨ans, ?_, ?_, fun name e => ?_, fun d e => ?_, ?_⟩
          · simp only [reportAnswer]
            rw [ha1]
            rfl
          · rw [a2, hnew]; exact hid
          · rw [a3, hnew]; show req.name.getD old.name = name; rw [e]; rfl
          · rw [a4, hnew]; show req.description.getD old.description = d; rw [e]; rfl
          · rw [ha2, ← C123_query_partial R q]
            constructor
            · intro e; exact ⟨c, hc, by rw [ho1, e]⟩
            · rintro ⟨c', hc1, hc2⟩
              rw [hc] at hc1
              cases hc1
              rw [ho1] at hc2
              exact Option.some.inj hc2

/-- A `Tidy` query is accepted for every report there is, and at once answered as it was sent. -/
theorem C123_update_accepted_partial (R : ReqEnv N) {E : Env CReportQuery} {n : Nat} {kv : Kv} (h : Hist E n kv) (hn : n < 2 ^ 62)
    {p id account : Nat} (ha : account < 2 ^ 64) (now : Time) {req : JReportUpd N} {q : JReportQuery N} (hq : req.query = some q)
    (ht : Tidy R q) {old : JReport N} (hold : apiReportGet R E.bc p id kv = some (.ok old)) :
    ∃ j, (apiReportUpdate R E.bc p account id now req kv).1 = some (.ok j) ∧ j.query = q := by
  obtain ⟨c, hc, hc'⟩ := (C123_query_partial R q).mpr ht
  have re := hist_reports h hn p
  have inv := re.inv (reports_ok E.bc p)
  unfold apiReportUpdate
  rw [hq]
  simp only [optConv, hc, Option.map_some]
  unfold runCall reportUpdate
  generalize hupd : (⟨account, req.tags, req.name, req.description, some c, req.typ⟩ : ReportUpd CReportQuery) = upd
  have hub : upd.updatedBy < 2 ^ 64 := by subst hupd; exact ha
  rcases update_spec (reports_ok E.bc p) inv (id := id) (pairs := fun _ => []) (f := fun r => .ok (upd.apply now r)) (sel := [])
    (target := upd.apply now) (by simp) (by simp) (fun r r' e => by injection e with e; exact e.symm) (fun _ => rfl)
    (by simp [reportsC]) (fun _ => rfl) (fun r h => ⟨⟨h.head.id, h.head.createdBy, optOk_some hub⟩, h.proj⟩)
    with ⟨hl, -⟩ | ⟨r, -, ⟨ht, -⟩ | ⟨-, ⟨x, hx, -⟩ | ⟨-, kv', e, -⟩⟩⟩
  · unfold apiReportGet at hold
    rw [getById_eq inv, hl] at hold
    simp [reportAnswer] at hold
  · obtain ⟨i, hi, -⟩ := ht
    simp [reportsC] at hi
  · cases hx
  · rw [e]
    subst hupd
    obtain ⟨j, hj, hj'⟩ := reportOut_of (R := R) (ReportUpd.apply ⟨account, req.tags, req.name, req.description, some c, req.typ⟩ now r) (q := q) hc'
    exact ⟨j, by simp [reportAnswer, hj], hj'⟩

/-! ## What is not given back -/

/-- A library environment: numbers are integers and kept exactly. -/
def exReqEnv : ReqEnv Int where
  dec n := some (BitVec.ofInt 128 n, 0)
  num m _ := some m.toInt
  under := none
  snake s := s

def exFunnel (N : Type) : JFunnel N where
  time := .last 7 .day
  group := 0
  steps := [⟨[⟨.regular "a".toList, none⟩], .exact⟩, ⟨[⟨.regular "b".toList, none⟩], .exact⟩]
  timeWindow := ⟨1, .day⟩
  chartType := .steps
  count := .unique
  filter := none
  touch := none
  holdingConstants := none
  exclude := none
  breakdowns := none
  segments := none
  filters := none

/-- The same with an event excluded between two steps. -/
def exExcluding (N : Type) (f t : Nat) : JReportQuery N :=
  .funnel { exFunnel N with exclude := some [⟨.regular "c".toList, none, some (.between f t)⟩] }

/-- The steps an event is excluded between come back one lower than they were sent, in every environment; so each time a
report is read and saved they move by one. -/
theorem C123_excluded_steps_violated (R : ReqEnv N) (f t : Nat) :
    (reportQueryIn R (exExcluding N (f + 1) (t + 1))).bind (reportQueryOut R) = some (exExcluding N f t) := by
  simp [reportQueryIn, exExcluding, funnelIn, exFunnel, keepEmpty, excludeIn, optConv, exStepsIn, pred, fGroupedIn, reportQueryOut,
    funnelOut, excludeOut, groupedOut, exStepsOut, List.mapM_cons, stepIn, fEventIn, stepOut, fEventOut]

/-- Reading a report and saving what was read `k` times. -/
def resave (R : ReqEnv N) : Nat → JReportQuery N → Option (JReportQuery N)
  | 0, q => some q
  | k + 1, q => ((reportQueryIn R q).bind (reportQueryOut R)).bind (resave R k)

theorem C123_drift_violated (R : ReqEnv N) (k f t : Nat) :
    resave R k (exExcluding N (f + k) (t + k)) = some (exExcluding N f t) := by
  induction k with
  | zero => rfl
  | succ k ih =>
    rw [resave, ← Nat.add_assoc, ← Nat.add_assoc, C123_excluded_steps_violated, Option.bind_some, ih]

def exSeg (N : Type) : JSegReq N where
  time := .last 30 .day
  group := 0
  intervalUnit := .day
  chartType := .line
  analysis := .linear
  compare := none
  events := [⟨.regular "a".toList, none, none, [.countEvents]⟩]
  filters := none
  breakdowns := none
  segments := none

def exEq (N : Type) (v : JVal N) : JFilter N := ⟨.event "x".toList, .eq, some [v]⟩

def exGroups (N : Type) (g : List (JGroup N)) : JReportQuery N := .eventSegmentation { exSeg N with filters := some ⟨none, g⟩ }

/-- The full claim. -/
def C123_full (N : Type) (R : ReqEnv N) : Prop :=
  ∀ q c, reportQueryIn R q = some c → reportQueryOut R c = some q

/-- Of several groups of filters only the first is kept. -/
theorem C123_groups_violated : ¬ C123_full Int exReqEnv := by
  intro h
  have := h (exGroups Int [⟨false, [exEq Int (.bool true)]⟩, ⟨false, [exEq Int (.bool false)]⟩]) _ rfl
  revert this
  decide +kernel

/-- A list of filters that is empty comes back absent. -/
theorem C123_empty_violated : ∃ r : JSegReq Int, r.breakdowns = some [] ∧ ∃ c r', segReqIn exReqEnv r = some c ∧
    segReqOut exReqEnv c = some r' ∧ r'.breakdowns = none :=
  ⟨{ exSeg Int with breakdowns := some [] }, rfl, _, _, rfl, rfl, rfl⟩

/-- A comparison with null makes the call that saves the report panic. -/
theorem C123_null_violated (R : ReqEnv N) (bc : Bincode CReportQuery) (p a : Nat) (now : Time) (kv : Kv) :
    ∃ req : JReportNew N, apiReportCreate R bc p a now req kv = (none, kv) := by
  refine ⟨⟨none, [], none, .eventSegmentation, exGroups N [⟨false, [exEq N .null]⟩]⟩, ?_⟩
  simp [apiReportCreate, reportQueryIn, segReqIn, exGroups, exSeg, groupedIn, dropEmpty, filterIn, exEq, jsonToScalar, List.mapM_cons, esEventIn,
    queryIn]

/-! ## Examples -/

/-- A query with filters of every tidy kind, a breakdown and a segment is tidy. -/
def exTidy : JReportQuery Int := .eventSegmentation
  { exSeg Int with
    filters := some ⟨none, [⟨false, [exEq Int (.num 12), exEq Int (.str "de".toList), exEq Int (.bool true)]⟩]⟩
    breakdowns := some [.group "country".toList 0]
    segments := some [⟨"s".toList, [[.did (.regular "a".toList) none (.count .gte 2 (.last 7 .day))]]⟩] }

theorem exTidy_tidy : Tidy exReqEnv exTidy := by
  rw [← C123_query_partial]
  exact ⟨_, rfl, by decide +kernel⟩

theorem exEmpty_hist (bc : Bincode CReportQuery) : Hist (⟨bc, id⟩ : Env CReportQuery) 0 [] := .start

/-- There is a store in which it has been saved, and it is read as it was sent after another report has been saved. -/
example : ∃ (E : Env CReportQuery) (j : JReport Int) (kv1 kv2 : Kv), Hist E 0 [] ∧
    apiReportCreate exReqEnv E.bc 1 1 ⟨0, 0⟩ ⟨none, "r".toList, none, .eventSegmentation, exTidy⟩ [] = (some (.ok j), kv1) ∧
    Runs E (LeavesReport 1 j.id) kv1 1 kv2 ∧
    ∃ ans, apiReportGet exReqEnv E.bc 1 j.id kv2 = some (.ok ans) ∧ ans.query = exTidy := by
  obtain ⟨bc⟩ := bincode_exists
  refine ⟨⟨bc, id⟩, ?_⟩
  have h0 := exEmpty_hist bc
  obtain ⟨j, hj, -⟩ := C123_accepted_partial exReqEnv h0 (by decide) (p := 1) (account := 1) (by decide) (by decide) ⟨0, 0⟩
    (req := ⟨none, "r".toList, none, .eventSegmentation, exTidy⟩) exTidy_tidy
  have hr := Runs.step (E := (⟨bc, id⟩ : Env CReportQuery)) (P := LeavesReport 1 j.id)
    (.reportCreate 1 ⟨0, 0⟩ ⟨0, ⟨0, 0⟩, 1, none, none, 0, none, [], none, .funnel, .funnel
      ⟨.last 1 .day, 0, [], ⟨1, .day⟩, .steps, .unique, none, none, none, none, none, none, none⟩⟩)
    (.refl (kv := (apiReportCreate exReqEnv bc 1 1 ⟨0, 0⟩ ⟨none, "r".toList, none, .eventSegmentation, exTidy⟩ []).2))
    ⟨by decide, by decide⟩ trivial
  refine ⟨j, _, _, h0, Prod.ext hj rfl, hr, ?_⟩
  obtain ⟨ans, h1, -, -, -, -, -, -, h2⟩ := C123_partial exReqEnv h0 (p := 1) (account := 1) (by decide) (by decide)
    (Prod.ext hj rfl) hr (by decide)
  exact ⟨ans, h1, h2.mpr exTidy_tidy⟩

/-- The same after an update with it. -/
example : ∃ (E : Env CReportQuery) (j : JReport Int) (kv kv1 : Kv), Hist E 1 kv ∧
    apiReportUpdate exReqEnv E.bc 1 1 1 ⟨0, 0⟩ { query := some exTidy } kv = (some (.ok j), kv1) ∧
    ∃ ans, apiReportGet exReqEnv E.bc 1 1 kv1 = some (.ok ans) ∧ ans.query = exTidy := by
  obtain ⟨bc⟩ := bincode_exists
  refine ⟨⟨bc, id⟩, ?_⟩
  have h0 := exEmpty_hist bc
  obtain ⟨j, hj, -⟩ := C123_accepted_partial exReqEnv h0 (by decide) (p := 1) (account := 1) (by decide) (by decide) ⟨0, 0⟩
    (req := ⟨none, "r".toList, none, .eventSegmentation, exTidy⟩) exTidy_tidy
  have hid : j.id = 1 := by
    have : (apiReportCreate exReqEnv bc 1 1 ⟨0, 0⟩ ⟨none, "r".toList, none, .eventSegmentation, exTidy⟩ []).1.bind
      (fun r => r.toOption.map JReport.id) = some 1 := rfl
    have hj : (apiReportCreate exReqEnv bc 1 1 ⟨0, 0⟩ ⟨none, "r".toList, none, .eventSegmentation, exTidy⟩ []).1 = some (.ok j) := hj
    rw [hj] at this
    exact Option.some.inj this
  obtain ⟨old, hold, -⟩ := C123_partial exReqEnv h0 (p := 1) (account := 1) (by decide) (by decide) (Prod.ext hj rfl) .refl (by decide)
  rw [hid] at hold
  have h1 : Hist (⟨bc, id⟩ : Env CReportQuery) 1 _ := h0.step (.reportCreate 1 ⟨0, 0⟩
    ⟨0, ⟨0, 0⟩, 1, none, none, 0, none, "r".toList, none, .eventSegmentation, ((reportQueryIn exReqEnv exTidy).get rfl)⟩) ⟨by decide, by decide⟩
  obtain ⟨j', hj', -⟩ := C123_update_accepted_partial exReqEnv h1 (by decide) (account := 1) (by decide) ⟨0, 0⟩
    (req := { query := some exTidy }) rfl exTidy_tidy hold
  obtain ⟨ans, h2, -, -, -, h3⟩ := C123_update_partial exReqEnv h1 (account := 1) (by decide) rfl (Prod.ext hj' rfl) .refl (by decide)
  exact ⟨j', _, _, h1, Prod.ext hj' rfl, ans, h2, h3.mpr exTidy_tidy⟩

/-- A report whose second group of filters matters is saved and answered for, and read back without it. -/
example (bc : Bincode CReportQuery) : ∃ (q : JReportQuery Int) (j : JReport Int),
    (apiReportCreate exReqEnv bc 1 1 ⟨0, 0⟩ ⟨none, [], none, .eventSegmentation, q⟩ []).1 = some (.ok j) ∧ j.query ≠ q :=
  ⟨exGroups Int [⟨false, [exEq Int (.bool true)]⟩, ⟨false, [exEq Int (.bool false)]⟩], _, rfl, by decide +kernel⟩

end OptiPrism.Platform
