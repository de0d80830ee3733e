import Verif.Platform.Serve
import Verif.Platform.RoutesProps
import Verif.Platform.SecretProps
import Verif.Platform.SchemaKindsProps
import Verif.Platform.StartBase
import Verif.Ingest.Calls

/-!
# Calls of the API as requests to the metadata

Helpers for C151: what a call changes is what some requests of Meta/System.lean change; a call that is refused changes nothing.
-/

namespace OptiPrism.Platform

open OptiPrism.Meta

variable {N Q : Type}

/-! ## Refused calls -/

theorem runCall_error {α : Type} {c : Call α} {kv : Kv} {e : Err} (h : (runCall c kv).1 = .error e) : (runCall c kv).2 = kv := by
  unfold runCall at h ⊢
  split at h
  · cases h
  · rfl

theorem writing_error {α : Type} {f : α → Option (Shown N)} {r : Except Err α × Kv} {e : Refusal} (h : (writing f r).1 = some (.error e)) :
    ∃ e', r.1 = .error e' := by
  unfold writing shownAs at h
  dsimp only at h
  split at h
  · next e' x => exact ⟨_, x⟩
  · cases h' : f _ with
    | none => rw [h'] at h; cases h
    | some x => rw [h'] at h; cases h

theorem telling_error {α : Type} {f : α → Option (AdminShown N)} {r : Except Err α × Kv} {e : Refusal} (h : (telling f r).1 = some (.error e)) :
    ∃ e', r.1 = .error e' := by
  unfold telling told at h
  dsimp only at h
  split at h
  · next e' x => exact ⟨_, x⟩
  · cases h' : f _ with
    | none => rw [h'] at h; cases h
    | some x => rw [h'] at h; cases h

theorem hist_u64 {E : Env Q} {n : Nat} {kv : Kv} (h : Hist E n kv) : Ingest.ReadsU64 kv := by
  induction h with
  | start => intro k b _ _ hg; cases hg
  | step r _ hr ih => exact Ingest.exec_u64 hr ih

theorem createEvent_error {p : Nat} {now : Time} {r : Event} {kv : Kv} (hu : Ingest.ReadsU64 kv) {e : Err} (h : (createEvent p now r kv).1 = .error e) :
    (createEvent p now r kv).2 = kv := by
  unfold createEvent at h ⊢
  split at h
  · next x => rfl
  · next ev kv1 x =>
    have h1 : Ingest.ReadsU64 kv1 := by
      intro k b hw hk hg
      refine hu k b hw hk ?_
      rw [← hg]
      symm
      refine ((eventCreate_touches p now r) kv _ kv1 x).same (m := k.mod) ?_ k hw rfl
      intro k' hk' e'
      simp at hk'
      cases k <;> simp only [Ingest.Key.IsU64] at hk <;> simp_all [Key.mod]
    obtain ⟨m, kv2, e2⟩ := Ingest.dict_succeeds h1 (p := p) kEvents_ok ev.name
    rw [e2] at h
    cases h

theorem schema_error {R : ReqEnv N} {ctx : Ctx} {p : Nat} {now : Time} {c : SchemaCall N} {kv : Kv} (hu : Ingest.ReadsU64 kv) {e : Refusal}
    (h : (c.run R ctx p now kv).1 = some (.error e)) : (c.run R ctx p now kv).2 = kv := by
  unfold SchemaCall.run at h ⊢
  split at h
  · next g =>
    rw [if_pos g]
    cases c with
    | eventCreate q => obtain ⟨e', x⟩ := writing_error h; exact createEvent_error hu x
    | customCreate q =>
      unfold SchemaCall.act at h ⊢
      dsimp only at h ⊢
      split at h
      · cases h
      · obtain ⟨e', x⟩ := writing_error h; exact runCall_error x
    | customUpdate id q =>
      unfold SchemaCall.act at h ⊢
      dsimp only at h ⊢
      split at h
      · cases h
      · obtain ⟨e', x⟩ := writing_error h; exact runCall_error x
    | _ => first | rfl | (obtain ⟨e', x⟩ := writing_error h; exact runCall_error x)
  · next g => rw [if_neg g]

theorem oneReport_error {R : ReqEnv N} {r : Except Err (Report CReportQuery)} {e : Refusal} (h : oneReport (reportAnswer R r) = some (.error e)) :
    ∃ e', r = .error e' := by
  cases r with
  | error e' => exact ⟨_, rfl⟩
  | ok r =>
    unfold oneReport reportAnswer at h
    dsimp only at h
    cases h' : reportOut R r with
    | none => rw [h'] at h; cases h
    | some x => rw [h'] at h; cases h

theorem report_error {A : AdminEnv N} {ctx : Ctx} {p : Nat} {now : Time} {c : ReportCall N} {kv : Kv} {e : Refusal}
    (h : (c.run A ctx p now kv).1 = some (.error e)) : (c.run A ctx p now kv).2 = kv := by
  unfold ReportCall.run at h ⊢
  split at h
  · next g => rw [if_pos g]
  · next g =>
    rw [if_neg g]
    cases c with
    | create q =>
      dsimp only at h ⊢
      unfold apiReportCreate at h ⊢
      split at h
      · cases h
      · obtain ⟨e', x⟩ := oneReport_error h; exact runCall_error x
    | update id q =>
      dsimp only at h ⊢
      unfold apiReportUpdate at h ⊢
      split at h
      · cases h
      · obtain ⟨e', x⟩ := oneReport_error h; exact runCall_error x
    | delete id => obtain ⟨e', x⟩ := oneReport_error h; exact runCall_error x
    | _ => rfl

theorem admin_error {A : AdminEnv N} {ctx : Ctx} {now : Time} {c : AdminCall N} {kv : Kv} {e : Refusal}
    (h : (c.run A ctx now kv).1 = some (.error e)) : (c.run A ctx now kv).2 = kv := by
  unfold AdminCall.run at h ⊢
  split at h
  · next g =>
    rw [if_pos g]
    cases c with
    | backup =>
      unfold AdminCall.act makeBackup at h ⊢
      dsimp only at h ⊢
      split at h
      · rfl
      · split at h
        · next g => rw [if_pos g]
        · next g => rw [if_neg g]; obtain ⟨e', x⟩ := telling_error h; exact runCall_error x
    | projectUpdate id q =>
      obtain ⟨e', x⟩ := telling_error h
      show (updateProject _ _ _ _).2 = kv
      unfold updateProject at x ⊢
      split at x
      · next y => rw [← runCall_error (congrArg Prod.fst y), y]
      · cases x
    | bookmarkCreate p name q =>
      unfold AdminCall.act at h ⊢
      dsimp only at h ⊢
      split at h
      · cases h
      · obtain ⟨e', x⟩ := telling_error h; exact runCall_error x
    | _ => first | rfl | (obtain ⟨e', x⟩ := telling_error h; exact runCall_error x)
  · next g => rw [if_neg g]

theorem reply_error {α : Type} {c : Call α} {f : α → Kv → Answer} {kv : Kv} {e : AErr} (hf : ∀ a, ∃ ts, f a (runCall c kv).2 = .ok ts)
    (h : (reply (runCall c kv) f).1 = .error e) : (reply (runCall c kv) f).2 = kv := by
  rw [reply_kv]
  cases x : (runCall c kv).1 with
  | error e' => exact runCall_error x
  | ok a =>
    unfold reply at h
    rw [x] at h
    obtain ⟨ts, y⟩ := hf a
    dsimp only at h
    rw [y] at h
    cases h

theorem makeTokens_some {C : AuthEnv} {now : Int} {a o : Nat} {kv : Kv} {s : Settings} (h : loadSettings kv = .ok s) :
    ∃ ts, makeTokens C now a o kv = .ok ts := by
  unfold makeTokens
  rw [h]
  exact ⟨_, rfl⟩

theorem update_load {E : Env Q} {id : Nat} {stamp : Time} {q : AccountUpd} (hq : (Req.accountUpdate id stamp q : Req Q).Ok) {kv : Kv} {s : Settings}
    (h : loadSettings kv = .ok s) : loadSettings (runCall (accountUpdate id stamp q) kv).2 = .ok s := by
  rw [← h]
  exact load_same (exec_same E hq (m := .config) (by simp [Req.mods]) kv)

theorem changeSelf_error {C : AuthEnv} {E : Env Q} {now : Int} {stamp : Time} {ctx : Ctx} {acc : Account} {q : AccountUpd}
    (hq : (Req.accountUpdate ctx.accountId stamp q : Req Q).Ok) {kv : Kv} {s : Settings} (hs : loadSettings kv = .ok s) {e : AErr}
    (h : (changeSelf C now stamp ctx acc q kv).1 = .error e) : (changeSelf C now stamp ctx acc q kv).2 = kv :=
  reply_error (fun _ => makeTokens_some (update_load (E := E) hq hs)) h

/-- Calls of `Auth.lean` that are refused change nothing, as long as there are settings. -/
theorem auth_error {C : AuthEnv} (E : Env Q) {now : Int} {stamp : Time} {salt : Nat} {c : AuthCall} {kv : Kv} {s : Settings} (hs : loadSettings kv = .ok s)
    {e : AErr} (h : (c.run C now stamp salt kv).1 = .error e) : (c.run C now stamp salt kv).2 = kv := by
  cases c with
  | signUp em pw n =>
    change (signUp C now stamp salt em pw n kv).1 = _ at h
    show (signUp C now stamp salt em pw n kv).2 = kv
    unfold signUp at h ⊢
    split at h
    · next g => rw [if_pos g]
    · next g =>
      rw [if_neg g]
      split at h
      · next g => rw [if_pos g]
      · next g =>
        rw [if_neg g]
        refine reply_error (fun a => makeTokens_some (s := s) ?_) h
        rw [← hs]
        exact load_same (exec_same E (r := .accountCreate stamp (signUpAccount em (C.hash pw salt) n))
          ⟨by show adminId < 2 ^ 64; decide, by simp [signUpAccount], by simp [signUpAccount], by simp [signUpAccount]⟩ (m := .config) (by simp [Req.mods]) kv)
  | updateName t n =>
    change (updateName now stamp t n kv).1 = _ at h
    show (updateName now stamp t n kv).2 = kv
    unfold updateName at h ⊢
    split at h
    · rfl
    · split at h
      · next g => rw [if_pos g]
      · next g => rw [if_neg g]; exact reply_error (fun _ => ⟨_, rfl⟩) h
  | updateEmail t em pw =>
    change (updateEmail C now stamp t em pw kv).1 = _ at h
    show (updateEmail C now stamp t em pw kv).2 = kv
    unfold updateEmail at h ⊢
    split at h
    · rfl
    · next ctx hc =>
      split at h
      · next g => rw [if_pos g]
      · next g =>
        rw [if_neg g]
        split at h
        · rfl
        · split at h
          · next g => rw [if_pos g]
          · next g => rw [if_neg g]; exact changeSelf_error (E := E) ⟨caller_lt hc, by simp, by simp, by simp⟩ hs h
  | updatePassword t pw new =>
    change (updatePassword C now stamp salt t pw new kv).1 = _ at h
    show (updatePassword C now stamp salt t pw new kv).2 = kv
    unfold updatePassword at h ⊢
    split at h
    · rfl
    · next ctx hc =>
      split at h
      · rfl
      · split at h
        · next g => rw [if_pos g]
        · next g =>
          rw [if_neg g]
          split at h
          · next g => rw [if_pos g]
          · next g => rw [if_neg g]; exact changeSelf_error (E := E) ⟨caller_lt hc, by simp, by simp, by simp⟩ hs h
  | setPassword t new =>
    change (setPassword C now stamp salt t new kv).1 = _ at h
    show (setPassword C now stamp salt t new kv).2 = kv
    unfold setPassword at h ⊢
    split at h
    · rfl
    · next ctx hc =>
      split at h
      · rfl
      · split at h
        · next g => rw [if_pos g]
        · next g =>
          rw [if_neg g]
          split at h
          · next g => rw [if_pos g]
          · next g => rw [if_neg g]; exact changeSelf_error (E := E) ⟨caller_lt hc, by simp, by simp, by simp⟩ hs h
  | setEmail t em =>
    change (setEmail C now stamp t em kv).1 = _ at h
    show (setEmail C now stamp t em kv).2 = kv
    unfold setEmail at h ⊢
    split at h
    · rfl
    · next ctx hc =>
      split at h
      · rfl
      · split at h
        · next g => rw [if_pos g]
        · next g => rw [if_neg g]; exact changeSelf_error (E := E) ⟨caller_lt hc, by simp, by simp, by simp⟩ hs h
  | adminCreate t pw r =>
    change (adminCreate C now stamp salt t pw r kv).1 = _ at h
    show (adminCreate C now stamp salt t pw r kv).2 = kv
    unfold adminCreate at h ⊢
    split at h
    · rfl
    · split at h
      · next g => rw [if_pos g]
      · next g => rw [if_neg g]; exact reply_error (fun _ => ⟨_, rfl⟩) h
  | adminUpdate t id pw q =>
    change (adminUpdate C now stamp salt t id pw q kv).1 = _ at h
    show (adminUpdate C now stamp salt t id pw q kv).2 = kv
    unfold adminUpdate at h ⊢
    split at h
    · rfl
    · split at h
      · next g => rw [if_pos g]
      · next g => rw [if_neg g]; exact reply_error (fun _ => ⟨_, rfl⟩) h
  | adminDelete t id =>
    change (adminDelete now t id kv).1 = _ at h
    show (adminDelete now t id kv).2 = kv
    unfold adminDelete at h ⊢
    split at h
    · rfl
    · split at h
      · next g => rw [if_pos g]
      · next g => rw [if_neg g]; exact reply_error (fun _ => ⟨_, rfl⟩) h
  | _ => rfl

theorem success_lt (h : Handler) : h.success < 400 := by cases h <;> decide

theorem replyOf_error {ε α : Type} {h : Handler} {status : ε → Option Nat} {f : α → Content N} {r : Except ε α} {s : Nat} {x : Content N}
    (e : replyOf h status f r = some (s, x)) (hs : 400 ≤ s) : ∃ e', r = .error e' := by
  cases r with
  | error e' => exact ⟨_, rfl⟩
  | ok a => have := success_lt h; cases e; omega

theorem bindReply_error {ε α : Type} {h : Handler} {status : ε → Option Nat} {f : α → Content N} {r : Option (Except ε α)} {s : Nat} {x : Content N}
    (e : r.bind (replyOf h status f) = some (s, x)) (hs : 400 ≤ s) : ∃ e', r = some (.error e') := by
  cases r with
  | none => cases e
  | some r => obtain ⟨e', rfl⟩ := replyOf_error e hs; exact ⟨_, rfl⟩

theorem api_error {C : AuthEnv} {A : AdminEnv N} {E : Env Q} {n : Nat} {kv : Kv} (hh : Hist E n kv) {st : Settings} (hs : loadSettings kv = .ok st)
    {now : Int} {stamp : Time} {salt : Nat} {c : ApiCall N} {h : Handler} {s : Nat} {x : Content N}
    (e : ApiReply.http h (c.run C A now stamp salt kv).1 = some (s, x)) (h4 : 400 ≤ s) : (c.run C A now stamp salt kv).2 = kv := by
  have hu := hist_u64 hh
  cases c with
  | auth c => obtain ⟨e', y⟩ := replyOf_error e h4; exact auth_error E hs y
  | schema t p c =>
    unfold ApiCall.run asCaller at e ⊢
    dsimp only at e ⊢
    split at e
    · rfl
    · obtain ⟨e', y⟩ := bindReply_error e h4; exact schema_error hu y
  | report t p c =>
    unfold ApiCall.run asCaller at e ⊢
    dsimp only at e ⊢
    split at e
    · rfl
    · obtain ⟨e', y⟩ := bindReply_error e h4; exact report_error y
  | admin t c =>
    unfold ApiCall.run asCaller at e ⊢
    dsimp only at e ⊢
    split at e
    · rfl
    · obtain ⟨e', y⟩ := bindReply_error e h4; exact admin_error y
  | settingsGet t =>
    unfold ApiCall.run asCaller at e ⊢
    dsimp only at e ⊢
    split at e <;> rfl
  | settingsSet t q =>
    unfold ApiCall.run asCaller at e ⊢
    dsimp only at e ⊢
    split at e
    · rfl
    · obtain ⟨e', y⟩ := replyOf_error e h4; exact C103_refused y

/-! ## Calls as requests -/

/-- Integers of calls have 64 bits, numbers in the filters of custom events fit. -/
def SchemaCall.Bound (R : ReqEnv N) : SchemaCall N → Prop
  | .customCreate q => ∀ e ∈ q.events, e.Fits R
  | .customUpdate _ q => ∀ l, q.events = some l → ∀ e ∈ l, e.Fits R
  | .dashboardCreate q => ∀ x ∈ q.panels, x.reportId < 2 ^ 64
  | .dashboardUpdate _ q => ∀ l, q.panels = some l → ∀ x ∈ l, x.reportId < 2 ^ 64
  | _ => True

def AdminCall.Bound : AdminCall N → Prop
  | .projectUpdate _ q => ∀ d, q.sessionDuration = some d → d < 2 ^ 64
  | .bookmarkCreate p .. => p < 2 ^ 64
  | c => c.Ok

def ApiCall.Bound (A : AdminEnv N) : ApiCall N → Prop
  | .auth c => c.Ok
  | .schema _ p c => p < 2 ^ 64 ∧ c.Bound A.R
  | .report _ p _ => p < 2 ^ 64
  | .admin _ c => c.Bound
  | _ => True

/-- What happened is what at most seven requests do. -/
def Few (E : Env Q) (kv kv' : Kv) : Prop := ∃ rs : List (Req Q), rs.length ≤ 7 ∧ (∀ r ∈ rs, r.Ok) ∧ kv' = runReqs E rs kv

theorem Few.same {E : Env Q} {kv : Kv} : Few E kv kv := ⟨[], by simp, by simp, rfl⟩

theorem Few.one {E : Env Q} {kv kv' : Kv} (r : Req Q) (h : r.Ok) (e : kv' = r.exec E kv) : Few E kv kv' :=
  ⟨[r], by simp, by simpa using h, e⟩

theorem mem_keepEmpty {α β : Type} {f : α → Option β} {o : Option (List α)} {l' : List β} (h : keepEmpty f o = some (some l')) :
    ∃ l, o = some l ∧ ∀ b ∈ l', ∃ a ∈ l, f a = some b := by
  cases o with
  | none => cases h
  | some l =>
    obtain ⟨l2, e, e2⟩ := Option.map_eq_some_iff.mp h
    cases e2
    exact ⟨l, rfl, mem_mapM e⟩

theorem schema_few {E : Env CReportQuery} {R : ReqEnv N} {ctx : Ctx} (ha : ctx.accountId < 2 ^ 64) {p : Nat} (hp : p < 2 ^ 64) {now : Time} {c : SchemaCall N}
    (hb : c.Bound R) (kv : Kv) : Few E kv (c.run R ctx p now kv).2 := by
  unfold SchemaCall.run
  split
  · cases c with
    | eventCreate q => exact .one (.eventCreate p now (eventNewIn ctx.accountId p now q)) ⟨hp, ha⟩ rfl
    | eventUpdate id q => exact .one (.eventUpdate p id now (eventUpdIn ctx.accountId q)) ha rfl
    | eventAttach id x => exact .one (.eventAttach .event p id x) trivial rfl
    | eventDetach id x => exact .one (.eventDetach .event p id x) trivial rfl
    | eventDelete id => exact .one (.eventDelete p id) trivial rfl
    | customCreate q =>
      unfold SchemaCall.act
      dsimp only
      split
      · exact .same
      · next c hc =>
        refine .one (.customCreate p now c) ?_ rfl
        simp only [customNewIn, Option.bind_eq_bind, Option.pure_def, Option.bind_eq_some_iff] at hc
        obtain ⟨evs, hev, ec⟩ := hc
        cases ec
        exact ⟨hp, ha, fun x hx => by obtain ⟨y, hy, e⟩ := mem_mapM hev x hx; exact hb y hy x e⟩
    | customUpdate id q =>
      unfold SchemaCall.act
      dsimp only
      split
      · exact .same
      · next c hc =>
        refine .one (.customUpdate p id now c) ?_ rfl
        simp only [customUpdIn, Option.bind_eq_bind, Option.pure_def, Option.bind_eq_some_iff] at hc
        obtain ⟨evs, hev, ec⟩ := hc
        cases ec
        refine ⟨ha, fun l hl x hx => ?_⟩
        change evs = some l at hl
        subst hl
        obtain ⟨l', e, f⟩ := mem_keepEmpty hev
        obtain ⟨y, hy, e'⟩ := f x hx
        exact hb l' e y hy x e'
    | customDelete id => exact .one (.customDelete p id) trivial rfl
    | dashboardCreate q =>
      refine .one (.dashboardCreate p now (dashboardNewIn ctx.accountId p now q)) ⟨hp, ha, fun x hx => ?_⟩ rfl
      obtain ⟨y, hy, rfl⟩ := List.mem_map.mp hx
      exact hb y hy
    | dashboardUpdate id q =>
      refine .one (.dashboardUpdate p id now (dashboardUpdIn ctx.accountId q)) ⟨ha, fun l hl x hx => ?_⟩ rfl
      obtain ⟨l', e, rfl⟩ := Option.map_eq_some_iff.mp hl
      obtain ⟨y, hy, rfl⟩ := List.mem_map.mp hx
      exact hb l' e y hy
    | dashboardDelete id => exact .one (.dashboardDelete p id) trivial rfl
    | groupCreate n d => exact .one (.groupName p n d) trivial rfl
    | propUpdate ty id q => exact .one (.propUpdate p ty id now (propUpdIn ctx.accountId q)) ⟨ha, by simp [propUpdIn], by simp [propUpdIn]⟩ rfl
    | propDelete ty id => exact .one (.propDelete p ty id) trivial rfl
    | _ => exact .same
  · exact .same

theorem report_few {A : AdminEnv N} {E : Env CReportQuery} (hE : E.bc = A.bc) {ctx : Ctx} (ha : ctx.accountId < 2 ^ 64) {p : Nat} (hp : p < 2 ^ 64) {now : Time}
    (c : ReportCall N) (kv : Kv) : Few E kv (c.run A ctx p now kv).2 := by
  unfold ReportCall.run
  rw [← hE]
  split
  · exact .same
  · cases c with
    | create q =>
      dsimp only
      unfold apiReportCreate
      split
      · exact .same
      · exact .one (.reportCreate p now _) ⟨hp, ha⟩ rfl
    | update id q =>
      dsimp only
      unfold apiReportUpdate
      split
      · exact .same
      · refine .one (.reportUpdate p id now _) ?_ rfl
        exact ha
    | delete id => exact .one (.reportDelete p id) trivial rfl
    | _ => exact .same

theorem projectKeys_run (E : Env Q) (r : Project) (hr : r.id < 2 ^ 64) (kv : Kv) :
    ∃ rs : List (Req Q), rs.length = 6 ∧ (∀ x ∈ rs, x.Ok) ∧ projectKeys r kv = runReqs E rs kv := by
  refine ⟨(kEvents :: (List.range 5).map Ingest.groupCol).map fun t => .dictPut r.id t Ingest.kProjectId r.id r.name, by simp, ?_, ?_⟩
  · intro x hx
    obtain ⟨t, ht, rfl⟩ := List.mem_map.mp hx
    refine ⟨⟨?_, slash_projectId⟩, hr⟩
    rcases List.mem_cons.mp ht with rfl | ht
    · exact kEvents_ok.1
    · obtain ⟨g, -, rfl⟩ := List.mem_map.mp ht
      exact Ingest.slash_groupCol g
  · unfold projectKeys runReqs
    rw [List.foldl_map]
    rfl

theorem updated_lt {E : Env Q} {n : Nat} {kv kv' : Kv} (hh : Hist E n kv) {id : Nat} {now : Time} {q : ProjectUpd} {r : Project}
    (e : runCall (projectUpdate id now q) kv = (.ok r, kv')) : r.id < 2 ^ 64 := by
  obtain ⟨kv1, e1⟩ := runCall_ok (congrArg Prod.fst e)
  unfold projectUpdate Coll.update at e1
  split at e1
  · cases e1
  · next old g =>
    split at e1
    · cases e1
    · cases e1
      exact ((hist_projectsOk hh).get g).1.head.id

theorem admin_few {A : AdminEnv N} {E : Env CReportQuery} (hE : E.bc = A.bc) {n : Nat} {kv : Kv} (hh : Hist E n kv) {ctx : Ctx}
    (ha : ctx.accountId < 2 ^ 64) {now : Time} {c : AdminCall N} (hb : c.Bound) : Few E kv (c.run A ctx now kv).2 := by
  unfold AdminCall.run
  split
  · cases c with
    | accountCreate salt q => exact .one (.accountCreate now (accountNewIn A.hash ctx.accountId now salt q)) ⟨ha, hb⟩ rfl
    | accountUpdate salt id q => exact .one (.accountUpdate id now (accountUpdIn A.hash ctx.accountId salt q)) ⟨ha, hb⟩ rfl
    | accountDelete id => exact .one (.accountDelete id) trivial rfl
    | orgCreate n => exact .one (.orgCreate now ctx.accountId n) ha rfl
    | orgUpdate id n => exact .one (.orgUpdate id now ctx.accountId n) ha rfl
    | orgDelete id => exact .one (.orgDelete id) trivial rfl
    | projectUpdate id q =>
      show Few E kv (updateProject id now (projectUpdIn ctx.accountId q) kv).2
      have hok : (Req.projectUpdate id now (projectUpdIn ctx.accountId q) : Req CReportQuery).Ok := ⟨ha, hb⟩
      unfold updateProject
      split
      · next e => exact .one _ hok (congrArg Prod.snd e).symm
      · next r kv1 e =>
        have e1 : Req.exec E (.projectUpdate id now (projectUpdIn ctx.accountId q)) kv = kv1 := congrArg Prod.snd e
        obtain ⟨rs, l, o, x⟩ := projectKeys_run E r (updated_lt hh e) kv1
        refine ⟨.projectUpdate id now (projectUpdIn ctx.accountId q) :: rs, by simp [l], ?_, ?_⟩
        · intro y hy
          rcases List.mem_cons.mp hy with rfl | hy
          · exact hok
          · exact o y hy
        · show projectKeys r kv1 = runReqs E rs (Req.exec E _ kv)
          rw [e1]; exact x
    | projectDelete id => exact .one (.projectDelete id) trivial rfl
    | backup =>
      show Few E kv (makeBackup (N := N) now kv).2
      unfold makeBackup
      split
      · exact .same
      · next s _ =>
        split
        · exact .same
        · exact .one (.backupCreate now (fromSettings now s)) (by intro n e; cases e) rfl
    | bookmarkCreate p name q =>
      unfold AdminCall.act
      rw [← hE]
      dsimp only
      split
      · exact .same
      · exact .one (.bookmarkCreate p _) ⟨hb, ha⟩ rfl
    | _ => exact .same
  · exact .same

theorem caller_few {E : Env Q} {now : Int} {t : Tok} {kv : Kv} {f : Ctx → ApiReply N × Kv} (h : ∀ ctx, ctx.accountId < 2 ^ 64 → Few E kv (f ctx).2) :
    Few E kv (asCaller now t kv f).2 := by
  unfold asCaller
  split
  · exact .same
  · next ctx e => exact h ctx (caller_lt e)

theorem api_few {C : AuthEnv} {A : AdminEnv N} {E : Env CReportQuery} (hE : E.bc = A.bc) {n : Nat} {kv : Kv} (hh : Hist E n kv) (hn : n < 2 ^ 62)
    {now : Int} {stamp : Time} {salt : Nat} {c : ApiCall N} (hb : c.Bound A) : Few E kv (c.run C A now stamp salt kv).2 := by
  cases c with
  | auth c =>
    have hi := (hist_accounts hh (by omega)).inv accounts_ok
    rcases (run_effect (C := C) (E := E) (now := now) (stamp := stamp) (salt := salt) (c := c) hi).req hi hb with e | ⟨r, hr, e⟩
    · show Few E kv (c.run C now stamp salt kv).2
      rw [e]; exact .same
    · exact .one r hr e
  | schema t p c => exact caller_few fun ctx ha => schema_few ha hb.1 hb.2 kv
  | report t p c => exact caller_few fun ctx ha => report_few hE ha hb c kv
  | admin t c => exact caller_few fun ctx ha => admin_few hE hh ha hb
  | settingsGet t => exact caller_few fun ctx ha => .same
  | settingsSet t q =>
    refine caller_few fun ctx ha => ?_
    show Few E kv (setSettings ctx q kv).2
    unfold setSettings
    split
    · exact .same
    · split
      · exact .same
      · next s _ =>
        refine .one (.settings (q.apply s)) trivial ?_
        show _ = (runCall _ kv).2
        split <;> next e => rw [e]

/-! ## What handlers call -/

/-- The call leaves the store alone. -/
def WebCall.Idle (c : WebCall N) : Prop := ∀ W d h args who kv, (c.run W d h args who kv).2 = kv

theorem idle_bad : (WebCall.badBody : WebCall N).Idle := fun _ _ _ _ _ _ => rfl

theorem idle_query : (WebCall.query : WebCall N).Idle := by
  intro W d h args who kv
  unfold WebCall.run
  dsimp only
  split <;> rfl

theorem caller_idle {now : Int} {t : Tok} {kv : Kv} {f : Ctx → ApiReply N × Kv} (h : ∀ ctx, (f ctx).2 = kv) : (asCaller now t kv f).2 = kv := by
  unfold asCaller
  split
  · rfl
  · exact h _

theorem idle_schema {t : Tok} {p : Nat} {c : SchemaCall N} (h : c.op.writes = false) : (WebCall.api (.schema t p c)).Idle := fun W d _ _ _ kv =>
  caller_idle fun ctx => C145_reads W.A.R ctx p d.stamp c kv h

theorem idle_admin {t : Tok} {c : AdminCall N} (h : c.writes = false) : (WebCall.api (.admin t c)).Idle := fun W d _ _ _ kv =>
  caller_idle fun ctx => C147_reads W.A ctx d.stamp c kv h

theorem idle_group {t : Tok} {p g : Nat} {c : PropType → SchemaCall N} (h : (c (.group g)).op.writes = false) : (ofGroup t p g c).Idle := by
  unfold ofGroup
  split
  · exact idle_schema h
  · exact fun _ _ _ _ _ _ => rfl

/-- Handlers that may change something. -/
def Handler.changing : Handler → Bool
  | .orgCreate | .orgUpdate | .orgDelete | .projectUpdate | .projectDelete | .accountCreate | .accountUpdate | .accountDelete | .backupMake | .settingsSet
  | .signUp | .setName | .changeEmail | .changePassword | .setPassword | .setEmail | .eventCreate | .eventUpdate | .eventDelete | .eventAttach | .eventDetach
  | .customCreate | .customUpdate | .customDelete | .groupCreate | .eventPropUpdate | .eventPropDelete | .groupPropUpdate | .groupPropDelete
  | .dashboardCreate | .dashboardUpdate | .dashboardDelete | .reportCreate | .reportUpdate | .reportDelete | .bookmarkCreate
  | .track | .identify | .projectCreate => true
  | _ => false

theorem plain_idle {t : Tok} {h : Handler} {args : List Arg} {c : WebCall N} (hc : h.changing = false) (e : plainCall t h args = some c) : c.Idle := by
  unfold plainCall at e
  split at e <;> first
    | (cases hc; done)
    | (cases e; exact idle_admin rfl)
    | (cases e; exact idle_schema rfl)
    | (cases e; exact idle_group rfl)
    | (cases e; intro W d h args who kv; exact caller_idle fun ctx => rfl)
    | (cases e; intro W d h args who kv; rfl)
    | (cases e; done)
    | skip
  all_goals (cases e; intro W d h args who kv; refine caller_idle fun ctx => ?_; unfold ReportCall.run; split <;> rfl)

theorem body_idle {d : Draw} {r : HttpReq N} {t : Tok} {h : Handler} {args : List Arg} {c : WebCall N} (hc : h.changing = false)
    (e : bodyCall d r t h args = some c) : c.Idle := by
  unfold bodyCall at e
  split at e <;> first
    | (cases hc; done)
    | (cases e; done)
    | (obtain ⟨x, -, rfl⟩ := Option.map_eq_some_iff.mp e; intro W d h args who kv; rfl)

theorem open_idle {r : HttpReq N} {h : Handler} {args : List Arg} {c : WebCall N} (hc : h.changing = false)
    (e : openCall r h args = some c) : c.Idle := by
  unfold openCall at e
  split at e <;> first
    | (cases hc; done)
    | (cases e; intro W d h args who kv; rfl)
    | (cases e; done)

/-- Handlers left to `WebEnv.rest` or `WebEnv.query`. -/
def Handler.outside : Handler → Bool
  | .eventRecord | .eventSearch | .segmentation | .funnel | .groupRecord | .groupSearch | .propValues | .track | .identify | .projectCreate => true
  | _ => false

theorem callOf_eq {d : Draw} {r : HttpReq N} {h : Handler} {args : List Arg} (ho : h.outside = false) : callOf d r h args =
    ((openCall r h args).or (r.token.bind fun t => (plainCall t h args).or (bodyCall d r t h args))).getD .badBody := by
  cases h <;> first | (cases ho; done) | rfl

theorem callOf_cases {d : Draw} {r : HttpReq N} {h : Handler} {args : List Arg} (ho : h.outside = false) {P : WebCall N → Prop} (hb : P .badBody)
    (h1 : ∀ c, openCall r h args = some c → P c) (h2 : ∀ t c, r.token = some t → plainCall t h args = some c → P c)
    (h3 : ∀ t c, r.token = some t → bodyCall d r t h args = some c → P c) : P (callOf d r h args) := by
  rw [callOf_eq ho]
  cases e1 : openCall r h args with
  | some c => exact h1 c e1
  | none =>
    cases et : r.token with
    | none => exact hb
    | some t =>
      show P (((plainCall t h args).or (bodyCall d r t h args)).getD .badBody)
      cases e2 : plainCall t h args with
      | some c => exact h2 t c et e2
      | none =>
        cases e3 : bodyCall d r t h args with
        | some c => exact h3 t c et e3
        | none => exact hb

theorem callOf_idle {d : Draw} {r : HttpReq N} {h : Handler} {args : List Arg} (hc : h.changing = false) : (callOf d r h args).Idle := by
  by_cases ho : h.outside = true
  · cases h <;> first | (cases ho; done) | (cases hc; done) | exact idle_query
  · exact callOf_cases (Bool.eq_false_iff.mpr ho) idle_bad (fun c e => open_idle hc e) (fun t c _ e => plain_idle hc e) (fun t c _ e => body_idle hc e)

/-! ## Integers of requests -/

theorem parseU64_lt {s : Str} {n : Nat} (h : parseU64 s = some n) : n < 2 ^ 64 := by
  unfold parseU64 at h
  extract_lets s' at h
  clear_value s'
  split at h
  · cases h
  · split at h
    · split at h
      · cases h; assumption
      · cases h
    · cases h

def Arg.Small : Arg → Prop
  | .num n => n < 2 ^ 64
  | .str _ => True

theorem readParts_small : ∀ {ks : List PKind} {ds : List Str} {as : List Arg}, readParts ks ds = some as → ∀ a ∈ as, a.Small
  | [], [], _, h => by cases h; simp
  | k :: ks, s :: ss, as, h => by
    simp only [readParts, Option.bind_eq_some_iff, Option.map_eq_some_iff] at h
    obtain ⟨a, h1, l, h2, rfl⟩ := h
    intro x hx
    rcases List.mem_cons.mp hx with rfl | hx
    · cases k with
      | num =>
        obtain ⟨n, hn, rfl⟩ := Option.map_eq_some_iff.mp h1
        exact parseU64_lt hn
      | str => cases h1; trivial
    · exact readParts_small h2 x hx

theorem extract_small {D : Decode} {ps : List Str} : ∀ {l : List (List PKind)} {as : List Arg}, extract D ps l = .ok as → ∀ a ∈ as, a.Small
  | [], _, h => by cases h; simp
  | ks :: rest, as, h => by
    simp only [extract] at h
    split at h
    · cases h
    · split at h
      · cases h
      · split at h
        · cases h
        · next args hr =>
          cases e : extract D ps rest with
          | error e' => rw [e] at h; cases h
          | ok a =>
            rw [e] at h
            cases h
            intro x hx
            rcases List.mem_append.mp hx with hx | hx
            · exact readParts_small hr x hx
            · exact extract_small e x hx

theorem dispatch_small {D : Decode} {token : Bool} {m : Meth} {p : List Str} {h : Handler} {args : List Arg} (e : dispatch D token m p = .run h args) :
    ∀ a ∈ args, a.Small := by
  obtain ⟨r, ps, as, -, -, -, -, x, rfl⟩ := dispatch_run.1 e
  intro a ha
  have hm : a ∈ as := by
    unfold Handler.order at ha
    split at ha
    · simp only [List.mem_cons, List.not_mem_nil, or_false] at ha ⊢
      rcases ha with h | h | h <;> simp [h]
    · exact ha
  exact extract_small x a hm

/-- The integers of a body have 64 bits. -/
def ReqBody.Ok (A : AdminEnv N) : ReqBody N → Prop
  | .customNew q => ∀ e ∈ q.events, e.Fits A.R
  | .customUpd q => ∀ l, q.events = some l → ∀ e ∈ l, e.Fits A.R
  | .dashboardNew q => ∀ x ∈ q.panels, x.reportId < 2 ^ 64
  | .dashboardUpd q => ∀ l, q.panels = some l → ∀ x ∈ l, x.reportId < 2 ^ 64
  | .accountNew q => (∀ m ∈ q.organizations.getD [], m.1 < 2 ^ 64) ∧ (∀ m ∈ q.projects.getD [], m.1 < 2 ^ 64) ∧ ∀ m ∈ q.teams.getD [], m.1 < 2 ^ 64
  | .accountUpd q => (∀ l, q.organizations = some (some l) → ∀ m ∈ l, m.1 < 2 ^ 64) ∧
      (∀ l, q.projects = some (some l) → ∀ m ∈ l, m.1 < 2 ^ 64) ∧ ∀ l, q.teams = some (some l) → ∀ m ∈ l, m.1 < 2 ^ 64
  | .projectUpd q => ∀ d, q.sessionDuration = some d → d < 2 ^ 64
  | _ => True

def WebCall.Bound (A : AdminEnv N) : WebCall N → Prop
  | .api c => c.Bound A
  | _ => True

theorem group_bound {A : AdminEnv N} {t : Tok} {p g : Nat} {c : PropType → SchemaCall N} (hp : p < 2 ^ 64) (h : (c (.group g)).Bound A.R) :
    (ofGroup t p g c).Bound A := by
  unfold ofGroup
  split
  · exact ⟨hp, h⟩
  · trivial

theorem plain_bound {A : AdminEnv N} {t : Tok} {h : Handler} {args : List Arg} {c : WebCall N} (ha : ∀ a ∈ args, a.Small)
    (e : plainCall t h args = some c) : c.Bound A := by
  unfold plainCall at e
  split at e <;> first
    | (cases e; done)
    | (cases e; trivial)
    | (cases e; exact ⟨ha _ (List.mem_cons_self ..), trivial⟩)
    | (cases e; exact ha _ (List.mem_cons_self ..))
    | (cases e; exact group_bound (ha _ (List.mem_cons_self ..)) trivial)

theorem body_bound {A : AdminEnv N} {d : Draw} {r : HttpReq N} (hr : r.body.Ok A) {t : Tok} {h : Handler} {args : List Arg} {c : WebCall N}
    (ha : ∀ a ∈ args, a.Small) (e : bodyCall d r t h args = some c) : c.Bound A := by
  unfold bodyCall at e
  split at e <;> first
    | (cases e; done)
    | (cases e; trivial)
    | (next hb => rw [hb] at hr; cases e; exact hr)
    | (next hb => rw [hb] at hr; cases e; exact ⟨ha _ (List.mem_cons_self ..), hr⟩)
    | (cases e; exact ha _ (List.mem_cons_self ..))
    | (cases e; exact group_bound (ha _ (List.mem_cons_self ..)) trivial)
    | (obtain ⟨x, -, rfl⟩ := Option.map_eq_some_iff.mp e; trivial)

theorem open_bound {A : AdminEnv N} {r : HttpReq N} {h : Handler} {args : List Arg} {c : WebCall N} (e : openCall r h args = some c) : c.Bound A := by
  unfold openCall at e
  split at e <;> first
    | (cases e; done)
    | (cases e; trivial)

theorem callOf_bound {A : AdminEnv N} {d : Draw} {r : HttpReq N} (hr : r.body.Ok A) {h : Handler} {args : List Arg} (ha : ∀ a ∈ args, a.Small) :
    (callOf d r h args).Bound A := by
  by_cases ho : h.outside = true
  · cases h <;> first | (cases ho; done) | trivial
  · exact callOf_cases (Bool.eq_false_iff.mpr ho) trivial (fun c e => open_bound e) (fun t c _ e => plain_bound ha e) (fun t c _ e => body_bound hr ha e)

/-- Calls other than those of `WebEnv.rest` do what a few requests do. -/
theorem web_few {W : WebEnv N} {E : Env CReportQuery} (hE : E.bc = W.A.bc) {n : Nat} {kv : Kv} (hh : Hist E n kv) (hn : n < 2 ^ 62) {d : Draw} {h : Handler}
    {args : List Arg} {who : Except AErr Ctx} {c : WebCall N} (hb : c.Bound W.A) (hr : c = .rest → Few E kv (W.rest h args who.toOption kv).2) :
    Few E kv (c.run W d h args who kv).2 := by
  cases c with
  | badBody => exact .same
  | noGroup => exact .same
  | api c => exact api_few hE hh hn hb
  | query => rw [idle_query]; exact .same
  | rest => exact hr rfl

theorem ofGroup_rest {t : Tok} {p g : Nat} {c : PropType → SchemaCall N} (h : ofGroup t p g c = .rest) : False := by
  unfold ofGroup at h
  split at h <;> cases h

theorem callOf_rest {d : Draw} {r : HttpReq N} {h : Handler} {args : List Arg} (e : callOf d r h args = .rest) :
    h = .track ∨ h = .identify ∨ h = .projectCreate := by
  by_cases ho : h.outside = true
  · cases h <;> first | (cases ho; done) | (cases e; done) | simp
  · exfalso
    revert e
    refine callOf_cases (P := fun c => c = .rest → False) (Bool.eq_false_iff.mpr ho) nofun (fun c e => ?_) (fun t c _ e => ?_) (fun t c _ e => ?_)
    · unfold openCall at e
      split at e <;> first | (cases e; done) | (cases e; intro x; cases x; done)
    · unfold plainCall at e
      split at e <;> first | (cases e; done) | (cases e; intro x; cases x; done) | (cases e; exact ofGroup_rest)
    · unfold bodyCall at e
      split at e <;> first
        | (cases e; done)
        | (cases e; intro x; cases x; done)
        | (cases e; exact ofGroup_rest)
        | (obtain ⟨x, -, rfl⟩ := Option.map_eq_some_iff.mp e; intro y; cases y; done)

end OptiPrism.Platform
