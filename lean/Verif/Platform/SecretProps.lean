import Verif.Platform.Secrets
import Verif.Platform.AuthProps

/-!
# C146: No answer of the API depends on password hashes, backup passwords or the secrets in the settings
-/

namespace OptiPrism.Platform

open OptiPrism.Meta
open OptiPrism.Storage (Bytes)
open OptiPrism.Proto

variable {N Q : Type}

/-- The same answer, and twins are left. -/
def SameReply {α : Type} (x y : α × Kv) : Prop := x.1 = y.1 ∧ Twin x.2 y.2

theorem SameReply.of {α β : Type} {f : α → β} {x y : α × Kv} (h : SameReply x y) : SameReply (f x.1, x.2) (f y.1, y.2) := ⟨by rw [h.1], h.2⟩

/-! ## Numbers that were read have 64 bits -/

theorem decVarint_lt {bs : Bytes} {v : Nat} {r : Bytes} (h : decVarint bs = some (v, r)) : v < 2 ^ 64 := by
  unfold decVarint at h
  split at h
  · cases h
  · split at h
    · cases h; assumption
    · cases h

theorem decFieldsF_lt : ∀ {f : Nat} {bs : Bytes} {fs : Fields}, decFieldsF f bs = some fs → ∀ x ∈ fs, ∀ n, x.2 = .varint n → n < 2 ^ 64 := by
  intro f
  induction f with
  | zero =>
    intro bs fs h
    cases bs with
    | nil => simp [decFieldsF] at h; subst h; simp
    | cons b bs => simp [decFieldsF] at h
  | succ f ih =>
    intro bs fs h
    cases bs with
    | nil => simp [decFieldsF] at h; subst h; simp
    | cons b bs =>
      unfold decFieldsF at h
      split at h
      · cases h
      · split at h
        · cases h
        · split at h
          · split at h
            · cases h
            · next v r' hv =>
              rw [Option.map_eq_some_iff] at h
              obtain ⟨fs', hf, rfl⟩ := h
              intro x hx n hn
              rcases List.mem_cons.mp hx with rfl | hx
              · cases hn; exact decVarint_lt hv
              · exact ih hf x hx n hn
          · split at h
            · split at h
              · cases h
              · split at h
                · rw [Option.map_eq_some_iff] at h
                  obtain ⟨fs', hf, rfl⟩ := h
                  intro x hx n hn
                  rcases List.mem_cons.mp hx with rfl | hx
                  · cases hn
                  · exact ih hf x hx n hn
                · cases h
            · cases h

theorem asVarint_lt : ∀ {vs : List WireVal} {l : List Nat}, vs.mapM WireVal.asVarint = some l → (∀ v ∈ vs, ∀ n, v = .varint n → n < 2 ^ 64) →
    ∀ n ∈ l, n < 2 ^ 64 := by
  intro vs
  induction vs with
  | nil => intro l h; simp at h; subst h; simp
  | cons v vs ih =>
    intro l h hv
    simp only [List.mapM_cons, Option.bind_eq_bind, Option.pure_def, Option.bind_eq_some_iff] at h
    obtain ⟨n, hn, l', hl, e⟩ := h
    cases e
    intro m hm
    rcases List.mem_cons.mp hm with rfl | hm
    · cases v with
      | varint k => simp [WireVal.asVarint] at hn; subst hn; exact hv _ (by simp) _ rfl
      | _ => simp [WireVal.asVarint] at hn
    · exact ih hl (fun v hv' => hv v (by simp [hv'])) m hm

theorem account_id_lt {b : Bytes} {a : Account} (h : Account.dec b = some a) : a.id < 2 ^ 64 := by
  unfold Account.dec at h
  simp only [Option.bind_eq_bind, Option.pure_def, Option.bind_eq_some_iff] at h
  obtain ⟨fs, hfs, _, _, _, _, n, hn, _, _, _, _, _, _, _, _, _, _, _, _, _, _, _, _, _, _, _, _, _, _, _, _, e⟩ := h
  cases e
  show n < 2 ^ 64
  unfold rdU64 at hn
  rw [Option.map_eq_some_iff] at hn
  obtain ⟨l, hl, rfl⟩ := hn
  have := asVarint_lt hl fun v hv n e => by
    obtain ⟨x, hx, rfl⟩ := List.mem_map.mp hv
    exact decFieldsF_lt hfs x (List.mem_filter.mp hx).1 n e
  cases hg : l.getLast? with
  | none => simp
  | some m => simpa using this m (List.mem_of_getLast? hg)

theorem getById_dec {R : Type} {c : Coll R} {id : Nat} {kv : Kv} {r : R} (h : c.getById id kv = .ok r) : ∃ b, c.dec b = some r := by
  unfold Coll.getById at h
  split at h
  · cases h
  · split at h
    · cases h
    · next b _ _ e => cases h; exact ⟨_, e⟩

/-- The caller of a call is an account, and its number has 64 bits. -/
theorem caller_lt {now : Int} {t : Tok} {kv : Kv} {ctx : Ctx} (h : authorize now t kv = .ok ctx) : ctx.accountId < 2 ^ 64 := by
  unfold authorize at h
  split at h
  · cases h
  · split at h
    · cases h
    · split at h
      · cases h
      · next hc =>
        cases h
        unfold contextOf at hc
        split at hc
        · cases hc
        · next hg => cases hc; obtain ⟨b, hb⟩ := getById_dec hg; exact account_id_lt hb

/-! ## Callers -/

theorem contextOf_twin {a o : Nat} {kv kv' : Kv} (h : Twin kv kv') : contextOf a o kv = contextOf a o kv' := by
  unfold contextOf
  have := accounts_twin.getById h a
  revert this
  generalize accountsC.getById a kv = x
  generalize accountsC.getById a kv' = y
  intro this
  cases this with
  | error e => rfl
  | @ok r r' hT =>
    dsimp only
    have e := hT.eq
    rw [show r.id = r'.id from (congrArg Account.id e :), show r.role = r'.role from (congrArg Account.role e :),
      show r.organizations = r'.organizations from (congrArg Account.organizations e :),
      show r.projects = r'.projects from (congrArg Account.projects e :)]

/-- The two keys of tokens are the same in the settings of twins. -/
theorem keys_twin {s s' : Settings} (h : AkinS s s') : s.accessToken = s'.accessToken ∧ s.refreshToken = s'.refreshToken :=
  ⟨(congrArg Settings.accessToken h.eq :), (congrArg Settings.refreshToken h.eq :)⟩

theorem authorize_twin {now : Int} {t : Tok} {kv kv' : Kv} (h : Twin kv kv') : authorize now t kv = authorize now t kv' := by
  unfold authorize
  have := h.loadSettings
  revert this
  generalize loadSettings kv = x
  generalize loadSettings kv' = y
  intro this
  cases this with
  | error e => rfl
  | ok hs => dsimp only; rw [(keys_twin hs).1]; simp only [contextOf_twin h]

theorem makeTokens_twin {C : AuthEnv} {now : Int} {a o : Nat} {kv kv' : Kv} (h : Twin kv kv') : makeTokens C now a o kv = makeTokens C now a o kv' := by
  unfold makeTokens
  have := h.loadSettings
  revert this
  generalize loadSettings kv = x
  generalize loadSettings kv' = y
  intro this
  cases this with
  | error e => rfl
  | ok hs => dsimp only; rw [(keys_twin hs).1, (keys_twin hs).2]

theorem reply_twin {α : Type} {T : α → α → Prop} {x y : Except Err α × Kv} (h : Both T x y) {f : α → Kv → Answer}
    (hf : ∀ a b kv kv', T a b → Twin kv kv' → f a kv = f b kv') : SameReply (reply x f) (reply y f) := by
  obtain ⟨x1, x2⟩ := x
  obtain ⟨y1, y2⟩ := y
  obtain ⟨h1, h2⟩ := h
  refine ⟨?_, h2⟩
  unfold reply
  cases h1 with
  | error e => rfl
  | ok hT => exact hf _ _ _ _ hT h2

theorem loginOrg_twin {a : Nat} {o : Option Nat} {kv kv' : Kv} (h : Twin kv kv') : loginOrg a o kv = loginOrg a o kv' := by
  unfold loginOrg
  cases o with
  | none => dsimp only; rw [CollTwin.list_eq orgs_open h]
  | some o => dsimp only; rw [orgs_twin.getById_eq h]

theorem akinA_id {r r' : Account} (h : AkinA r r') : r.id = r'.id := (congrArg Account.id h.eq :)

theorem changeSelf_twin {C : AuthEnv} {now : Int} {stamp : Time} {ctx : Ctx} {acc acc' : Account} {q : AccountUpd} {kv kv' : Kv} (h : Twin kv kv')
    (he : acc.id = acc'.id) (hq : (Req.accountUpdate (Q := Unit) 0 stamp q).Ok) :
    SameReply (changeSelf C now stamp ctx acc q kv) (changeSelf C now stamp ctx acc' q kv') := by
  unfold changeSelf
  rw [he]
  exact reply_twin ((accountUpdate_blind hq).run h) fun _ _ _ _ _ h => makeTokens_twin h

/-- The calls that act on the caller's own account, as one: the caller is made of the token, and the account is read. -/
theorem own_twin {now : Int} {t : Tok} {kv kv' : Kv} (h : Twin kv kv') {f f' : Ctx → Account → Answer × Kv} {g g' : AErr → Answer × Kv}
    (hf : ∀ ctx a a', ctx.accountId < 2 ^ 64 → AkinA a a' → accountsC.getById ctx.accountId kv = .ok a →
      accountsC.getById ctx.accountId kv' = .ok a' → SameReply (f ctx a) (f' ctx a')) (hg : ∀ e, SameReply (g e) (g' e)) :
    SameReply
      (match authorize now t kv with
        | .error e => g e
        | .ok ctx => match accountsC.getById ctx.accountId kv with
          | .error e => g (.store e)
          | .ok acc => f ctx acc)
      (match authorize now t kv' with
        | .error e => g' e
        | .ok ctx => match accountsC.getById ctx.accountId kv' with
          | .error e => g' (.store e)
          | .ok acc => f' ctx acc) := by
  rw [← authorize_twin h]
  cases ha : authorize now t kv with
  | error e => exact hg e
  | ok ctx =>
    dsimp only
    have := accounts_twin.getById h ctx.accountId
    have hf := fun a a' => hf ctx a a' (caller_lt ha)
    revert this hf
    generalize accountsC.getById ctx.accountId kv = x
    generalize accountsC.getById ctx.accountId kv' = y
    intro this hf
    cases this with
    | error e => exact hg _
    | ok hT => exact hf _ _ hT rfl rfl

/-- The calls that hand out tokens or change accounts answer alike on twins, if the password presented gives the same answers. -/
theorem auth_twin (C : AuthEnv) (now : Int) (stamp : Time) (salt : Nat) {c : AuthCall} (hc : c.Ok) {kv kv' : Kv} (h : Twin kv kv')
    (hg : ∀ pw, (ApiCall.auth (N := Unit) c).guess = some pw → SameCheck C pw kv kv') :
    SameReply (c.run C now stamp salt kv) (c.run C now stamp salt kv') := by
  cases c with
  | signUp e p n =>
    show SameReply (signUp ..) (signUp ..)
    unfold signUp
    split
    · exact ⟨rfl, h⟩
    · split
      · exact ⟨rfl, h⟩
      · exact reply_twin ((accountCreate_blind rfl fun _ => .refl _).run h) fun a b _ _ hT ht => by rw [akinA_id hT]; exact makeTokens_twin ht
  | logIn e p o =>
    refine ⟨?_, h⟩
    show logIn .. = logIn ..
    unfold logIn
    split
    · rfl
    · have hb := accounts_twin.getBy h .email e
      have hi : ∀ kv'' r, accountsC.getBy .email e kv'' = .ok r → ∃ id, getIndex (.idx accountsC.ns .email e) kv'' = .ok id ∧
          accountsC.getById id kv'' = .ok r := by
        intro kv'' r h
        unfold Coll.getBy at h
        split at h
        · cases h
        · next id hi => exact ⟨id, hi, h⟩
      have h1 := hi kv
      have h2 := hi kv'
      revert hb h1 h2
      generalize accountsC.getBy .email e kv = x
      generalize accountsC.getBy .email e kv' = y
      intro hb h1 h2
      cases hb with
      | error e => rfl
      | @ok r r' hT =>
        obtain ⟨i, hi1, hr1⟩ := h1 r rfl
        obtain ⟨i', hi2, hr2⟩ := h2 r' rfl
        rw [h.getIndex (open_idx _ _ _), hi2] at hi1
        cases hi1
        dsimp only
        rw [hg p rfl _ r r' hr1 hr2, akinA_id hT, loginOrg_twin h]
        simp only [makeTokens_twin h]
  | refresh a r =>
    refine ⟨?_, h⟩
    show refresh .. = refresh ..
    unfold refresh
    rw [authorize_twin h]
    cases authorize now a kv' with
    | error e => rfl
    | ok ctx =>
      dsimp only
      have := h.loadSettings
      revert this
      generalize loadSettings kv = x
      generalize loadSettings kv' = y
      intro this
      cases this with
      | error e => rfl
      | ok hs => dsimp only; rw [(keys_twin hs).2]; simp only [makeTokens_twin h]
  | updateName t n =>
    show SameReply (updateName ..) (updateName ..)
    unfold updateName
    rw [← authorize_twin h]
    cases ha : authorize now t kv with
    | error e => exact ⟨rfl, h⟩
    | ok ctx =>
      dsimp only
      split
      · exact ⟨rfl, h⟩
      · exact reply_twin ((accountUpdate_blind ⟨caller_lt ha, by simp, by simp, by simp⟩).run h) fun _ _ _ _ _ _ => rfl
  | updateEmail t e p =>
    show SameReply (updateEmail ..) (updateEmail ..)
    unfold updateEmail
    by_cases he : C.email e = true
    · simp only [he, Bool.not_true, Bool.false_eq_true, if_false]
      refine own_twin h (g := fun e => (.error e, kv)) (g' := fun e => (.error e, kv')) (fun ctx a a' hl hT h1 h2 => ?_) fun e => ⟨rfl, h⟩
      rw [hg p rfl _ a a' h1 h2]
      split
      · exact ⟨rfl, h⟩
      · exact changeSelf_twin h (akinA_id hT) ⟨hl, by simp, by simp, by simp⟩
    · rw [← authorize_twin h]
      cases ha : authorize now t kv with
      | error e => exact ⟨rfl, h⟩
      | ok ctx => simp only [he]; exact ⟨rfl, h⟩
  | updatePassword t p n =>
    show SameReply (updatePassword ..) (updatePassword ..)
    unfold updatePassword
    refine own_twin h (g := fun e => (.error e, kv)) (g' := fun e => (.error e, kv')) (fun ctx a a' hl hT h1 h2 => ?_) fun e => ⟨rfl, h⟩
    rw [hg p rfl _ a a' h1 h2]
    split
    · exact ⟨rfl, h⟩
    · split
      · exact ⟨rfl, h⟩
      · exact changeSelf_twin h (akinA_id hT) ⟨hl, by simp, by simp, by simp⟩
  | setPassword t n =>
    show SameReply (setPassword ..) (setPassword ..)
    unfold setPassword
    refine own_twin h (g := fun e => (.error e, kv)) (g' := fun e => (.error e, kv')) (fun ctx a a' hl hT h1 h2 => ?_) fun e => ⟨rfl, h⟩
    rw [show a.forceUpdatePassword = a'.forceUpdatePassword from (congrArg Account.forceUpdatePassword hT.eq :)]
    split
    · exact ⟨rfl, h⟩
    · split
      · exact ⟨rfl, h⟩
      · exact changeSelf_twin h (akinA_id hT) ⟨hl, by simp, by simp, by simp⟩
  | setEmail t e =>
    show SameReply (setEmail ..) (setEmail ..)
    unfold setEmail
    refine own_twin h (g := fun e => (.error e, kv)) (g' := fun e => (.error e, kv')) (fun ctx a a' hl hT h1 h2 => ?_) fun e => ⟨rfl, h⟩
    rw [show a.forceUpdateEmail = a'.forceUpdateEmail from (congrArg Account.forceUpdateEmail hT.eq :)]
    split
    · exact ⟨rfl, h⟩
    · exact changeSelf_twin h (akinA_id hT) ⟨hl, by simp, by simp, by simp⟩
  | switchOrganization t o =>
    refine ⟨?_, h⟩
    show switchOrganization .. = switchOrganization ..
    unfold switchOrganization
    rw [authorize_twin h]
    cases authorize now t kv' with
    | error e => rfl
    | ok ctx => dsimp only; rw [orgs_twin.getById_eq h]; simp only [makeTokens_twin h]
  | adminCreate t p r =>
    show SameReply (adminCreate ..) (adminCreate ..)
    unfold adminCreate
    rw [← authorize_twin h]
    cases ha : authorize now t kv with
    | error e => exact ⟨rfl, h⟩
    | ok ctx =>
      dsimp only
      split
      · exact ⟨rfl, h⟩
      · exact reply_twin ((accountCreate_blind rfl fun _ => .refl _).run h) fun _ _ _ _ _ _ => rfl
  | adminUpdate t id p q =>
    show SameReply (adminUpdate ..) (adminUpdate ..)
    unfold adminUpdate
    rw [← authorize_twin h]
    cases ha : authorize now t kv with
    | error e => exact ⟨rfl, h⟩
    | ok ctx =>
      dsimp only
      split
      · exact ⟨rfl, h⟩
      · exact reply_twin ((accountUpdate_blind (q := AccountUpd.mk ..) ⟨caller_lt ha, hc.1, hc.2.1, hc.2.2⟩).run h) fun _ _ _ _ _ _ => rfl
  | adminDelete t id =>
    show SameReply (adminDelete ..) (adminDelete ..)
    unfold adminDelete
    rw [← authorize_twin h]
    cases ha : authorize now t kv with
    | error e => exact ⟨rfl, h⟩
    | ok ctx =>
      dsimp only
      split
      · exact ⟨rfl, h⟩
      · exact reply_twin ((accounts_twin.delete id).run h) fun _ _ _ _ _ _ => rfl

/-! ## The schema -/

theorem shownAs_twin {α : Type} {f : α → Option (Shown N)} {x y : Except Err α} (h : ExRel Eq x y) : shownAs f x = shownAs f y := by rw [h.eq]

theorem writing_twin {α : Type} {f : α → Option (Shown N)} {x y : Except Err α × Kv} (h : Both Eq x y) : SameReply (writing f x) (writing f y) :=
  ⟨shownAs_twin h.1, h.2⟩

theorem reading_twin {α : Type} {f : α → Option (Shown N)} {x y : Except Err α} {kv kv' : Kv} (e : x = y) (h : Twin kv kv') :
    SameReply (reading f x kv) (reading f y kv') := ⟨by rw [show (reading f x kv).1 = shownAs f x from rfl, e]; rfl, h⟩

theorem schema_twin (R : ReqEnv N) (ctx : Ctx) (p : Nat) (now : Time) (c : SchemaCall N) {kv kv' : Kv} (h : Twin kv kv') :
    SameReply (c.run R ctx p now kv) (c.run R ctx p now kv') := by
  unfold SchemaCall.run
  split
  · cases c with
    | eventCreate q => exact writing_twin (createEvent_both h)
    | eventGet id => exact reading_twin ((events_twin p).getById_eq h id) h
    | eventByName n => exact reading_twin ((events_twin p).getBy_eq h _ n) h
    | eventList => exact reading_twin (CollTwin.list_eq (proj_open p _) h) h
    | eventUpdate id q => exact writing_twin ((update_open (events_twin p)).run h)
    | eventAttach id x => exact writing_twin ((update_open (events_twin p)).run h)
    | eventDetach id x => exact writing_twin ((update_open (events_twin p)).run h)
    | eventDelete id => exact writing_twin (((events_twin p).delete id).run h)
    | customCreate q =>
      show SameReply (match customNewIn R ctx.accountId p now q with | none => (none, kv) | some c => _)
        (match customNewIn R ctx.accountId p now q with | none => (none, kv') | some c => _)
      split
      · exact ⟨rfl, h⟩
      · exact writing_twin (customCreate_blind.run h)
    | customGet id => exact reading_twin ((custom_twin p).getById_eq h id) h
    | customList => exact reading_twin (CollTwin.list_eq (proj_open p _) h) h
    | customUpdate id q =>
      show SameReply (match customUpdIn R ctx.accountId q with | none => (none, kv) | some c => _)
        (match customUpdIn R ctx.accountId q with | none => (none, kv') | some c => _)
      split
      · exact ⟨rfl, h⟩
      · exact writing_twin (customUpdate_blind.run h)
    | customDelete id => exact writing_twin (((custom_twin p).delete id).run h)
    | dashboardCreate q => exact writing_twin ((create_open (dashboards_twin p)).run h)
    | dashboardGet id => exact reading_twin ((dashboards_twin p).getById_eq h id) h
    | dashboardList => exact reading_twin (CollTwin.list_eq (proj_open p _) h) h
    | dashboardUpdate id q => exact writing_twin ((update_open (dashboards_twin p)).run h)
    | dashboardDelete id => exact writing_twin (((dashboards_twin p).delete id).run h)
    | groupCreate n d => exact writing_twin (getOrCreateGroup_blind.run h)
    | groupList => exact reading_twin (h.readAll_open (projPath_open _ _)) h
    | propGet ty id => exact reading_twin ((props_twin p ty).getById_eq h id) h
    | propByName ty n => exact reading_twin ((props_twin p ty).getBy_eq h _ n) h
    | propList ty => exact reading_twin (CollTwin.list_eq (proj_open p _) h) h
    | propUpdate ty id q => exact writing_twin ((update_open (props_twin p ty)).run h)
    | propDelete ty id => exact writing_twin (((props_twin p ty).delete id).run h)
  · exact ⟨rfl, h⟩

/-! ## Reports -/

theorem reportAnswer_twin (R : ReqEnv N) {x y : Except Err (Report CReportQuery) × Kv} (h : Both Eq x y) :
    SameReply (reportAnswer R x.1, x.2) (reportAnswer R y.1, y.2) := ⟨by rw [h.1.eq], h.2⟩

theorem report_twin (A : AdminEnv N) (ctx : Ctx) (p : Nat) (now : Time) (c : ReportCall N) {kv kv' : Kv} (h : Twin kv kv') :
    SameReply (c.run A ctx p now kv) (c.run A ctx p now kv') := by
  unfold ReportCall.run
  split
  · exact ⟨rfl, h⟩
  · cases c with
    | create q =>
      refine SameReply.of (f := oneReport) (x := apiReportCreate ..) (y := apiReportCreate ..) ?_
      unfold apiReportCreate
      split
      · exact ⟨rfl, h⟩
      · exact reportAnswer_twin A.R ((create_open (reports_twin A.bc p)).run h)
    | get id => exact ⟨by show oneReport (reportAnswer _ _) = oneReport (reportAnswer _ _); rw [(reports_twin A.bc p).getById_eq h], h⟩
    | list => exact ⟨by show reportListAnswer _ _ = reportListAnswer _ _; rw [CollTwin.list_eq (c := reportsC A.bc p) (proj_open p _) h], h⟩
    | update id q =>
      refine SameReply.of (f := oneReport) (x := apiReportUpdate ..) (y := apiReportUpdate ..) ?_
      unfold apiReportUpdate
      split
      · exact ⟨rfl, h⟩
      · exact reportAnswer_twin A.R ((update_open (reports_twin A.bc p)).run h)
    | delete id =>
      exact SameReply.of (f := oneReport) (reportAnswer_twin A.R (((reports_twin A.bc p).delete id).run h))

/-! ## Administration -/

theorem told_twin {α : Type} {T : α → α → Prop} {f : α → Option (AdminShown N)} {x y : Except Err α} (h : ExRel T x y)
    (hf : ∀ a b, T a b → f a = f b) : told f x = told f y := by
  cases h with
  | error e => rfl
  | ok hT => show (f _).map _ = (f _).map _; rw [hf _ _ hT]

theorem telling_twin {α : Type} {T : α → α → Prop} {f : α → Option (AdminShown N)} {x y : Except Err α × Kv} (h : Both T x y)
    (hf : ∀ a b, T a b → f a = f b) : SameReply (telling f x) (telling f y) := ⟨told_twin h.1 hf, h.2⟩

theorem accountOut_twin {a b : Account} (h : AkinA a b) : accountOut a = accountOut b := by
  have : ∀ a : Account, accountOut a = accountOut a.mask := fun _ => rfl
  rw [this a, this b, h.eq]

theorem backupOut_twin {a b : Backup} (h : AkinB a b) : backupOut a = backupOut b := by
  have : ∀ a : Backup, backupOut a = backupOut a.mask := fun _ => rfl
  rw [this a, this b, h.eq]

theorem projectKeys_twin {r : Project} {kv kv' : Kv} (h : Twin kv kv') : Twin (projectKeys r kv) (projectKeys r kv') := by
  unfold projectKeys
  generalize kEvents :: _ = l
  induction l generalizing kv kv' with
  | nil => exact h
  | cons t l ih => exact ih (dictCreateKey_blind.run h).2

theorem updateProject_twin {id : Nat} {now : Time} {q : ProjectUpd} {kv kv' : Kv} (h : Twin kv kv') :
    Both Eq (updateProject id now q kv) (updateProject id now q kv') := by
  unfold updateProject
  have := (update_open projects_twin (id := id) (ps := q.pairs) (f := fun r => .ok (q.apply now r))).run h
  revert this
  show Both Eq (runCall (projectUpdate id now q) kv) (runCall (projectUpdate id now q) kv') → _
  generalize runCall (projectUpdate id now q) kv = x
  generalize runCall (projectUpdate id now q) kv' = y
  intro this
  obtain ⟨x1, x2⟩ := x
  obtain ⟨y1, y2⟩ := y
  obtain ⟨h1, h2⟩ := this
  cases h1 with
  | error e => exact ⟨.error e, h2⟩
  | ok e => subst e; exact ⟨.ok rfl, projectKeys_twin h2⟩

theorem makeBackup_twin {now : Time} {kv kv' : Kv} (h : Twin kv kv') :
    SameReply (makeBackup (N := N) now kv) (makeBackup now kv') := by
  unfold makeBackup
  have := h.loadSettings
  revert this
  generalize loadSettings kv = x
  generalize loadSettings kv' = y
  intro this
  cases this with
  | error e => exact ⟨rfl, h⟩
  | @ok s s' hs =>
    dsimp only
    have e := hs.eq
    have e1 : s.backupEnabled = s'.backupEnabled := (congrArg Settings.backupEnabled e :)
    have e2 : s.encryptionEnabled = s'.encryptionEnabled := (congrArg Settings.encryptionEnabled e :)
    have e3 : providerOf s = providerOf s' := by
      have : ∀ s : Settings, providerOf s = providerOf s.mask := fun _ => rfl
      rw [this s, this s', e]
    rw [e1]
    split
    · exact ⟨rfl, h⟩
    · refine telling_twin ((backupCreate_blind (r := fromSettings now s) (r' := fromSettings now s') rfl fun id hi => ?_).run h)
        fun a b hT => by rw [backupOut_twin hT]
      exact Or.inr ⟨⟨hi, fun _ h => by cases h⟩, ⟨hi, fun _ h => by cases h⟩, by simp only [fromSettings, Backup.mask, e2, e3]⟩

theorem admin_twin (A : AdminEnv N) {ctx : Ctx} (hl : ctx.accountId < 2 ^ 64) (now : Time) {c : AdminCall N} (hc : c.Ok) {kv kv' : Kv} (h : Twin kv kv') :
    SameReply (c.run A ctx now kv) (c.run A ctx now kv') := by
  have fa : ∀ a b, AkinA a b → (some (AdminShown.account (accountOut a)) : Option (AdminShown N)) = some (.account (accountOut b)) :=
    fun a b e => by rw [accountOut_twin e]
  unfold AdminCall.run
  split
  · cases c with
    | accountCreate salt q => exact telling_twin ((accountCreate_blind rfl fun _ => .refl _).run h) fa
    | accountGet id => exact ⟨told_twin (accounts_twin.getById h id) fa, h⟩
    | accountList => exact ⟨told_twin (accounts_twin.list h) fun l l' e => by rw [e.map fun _ _ => accountOut_twin], h⟩
    | accountUpdate salt id q => exact telling_twin ((accountUpdate_blind (q := accountUpdIn A.hash ctx.accountId salt q) ⟨hl, hc⟩).run h) fa
    | accountDelete id => exact telling_twin ((accounts_twin.delete id).run h) fa
    | profile => exact ⟨told_twin (accounts_twin.getById h _) fun a b e => by rw [accountOut_twin e], h⟩
    | orgCreate n => exact telling_twin (orgCreate_blind.run h) fun _ _ e => by rw [e]
    | orgGet id => exact ⟨told_twin (orgs_twin.getById h id) fun _ _ e => by rw [e], h⟩
    | orgList => exact ⟨by show told _ _ = told _ _; rw [CollTwin.list_eq (c := orgsC) orgs_open h], h⟩
    | orgUpdate id n => exact telling_twin ((update_open orgs_twin).run h) fun _ _ e => by rw [e]
    | orgDelete id => exact telling_twin ((orgs_twin.delete id).run h) fun _ _ e => by rw [e]
    | projectGet id => exact ⟨told_twin (projects_twin.getById h id) fun _ _ e => by rw [e], h⟩
    | projectList => exact ⟨by show told _ _ = told _ _; rw [CollTwin.list_eq (c := projectsC) projects_open h], h⟩
    | projectUpdate id q => exact telling_twin (updateProject_twin h) fun _ _ e => by rw [e]
    | projectDelete id => exact telling_twin ((projects_twin.delete id).run h) fun _ _ e => by rw [e]
    | backup => exact makeBackup_twin h
    | backupGet id => exact ⟨told_twin (backups_twin.getById h id) fun _ _ e => by rw [backupOut_twin e], h⟩
    | backupList =>
      refine ⟨?_, h⟩
      show backupsTold _ = backupsTold _
      have := backups_twin.list h
      revert this
      generalize backupsC.list kv = x
      generalize backupsC.list kv' = y
      intro this
      cases this with
      | error e => rfl
      | ok e => simp only [backupsTold, e.map fun _ _ => backupOut_twin]
    | bookmarkCreate p name q =>
      show SameReply (match optConv (reportQueryIn A.R) q with | none => (none, kv) | some c => _)
        (match optConv (reportQueryIn A.R) q with | none => (none, kv') | some c => _)
      split
      · exact ⟨rfl, h⟩
      · exact telling_twin (bookmarkCreate_blind.run h) fun _ _ e => by rw [e]
    | bookmarkGet p id => exact ⟨by show told _ _ = told _ _; rw [bookmarkGet_eq h], h⟩
  · exact ⟨rfl, h⟩

/-! ## Settings -/

theorem getSettings_twin {ctx : Ctx} {kv kv' : Kv} (h : Twin kv kv') : getSettings ctx kv = getSettings ctx kv' := by
  unfold getSettings
  split
  · rfl
  · have := h.loadSettings
    revert this
    generalize loadSettings kv = x
    generalize loadSettings kv' = y
    intro this
    cases this with
    | error e => rfl
    | @ok s s' hs =>
      have : ∀ s : Settings, answerSettings s = answerSettings s.mask := fun _ => rfl
      show Except.ok (answerSettings s) = Except.ok (answerSettings s')
      rw [this s, this s', hs.eq]

theorem apply_akin (q : SettingsBody) {s s' : Settings} (h : AkinS s s') : AkinS (q.apply s) (q.apply s') := by
  have h := h.eq
  refine Or.inr ⟨trivial, trivial, ?_⟩
  cases s
  cases s'
  simp only [Settings.mask, Settings.mk.injEq] at h
  simp only [SettingsBody.apply, Settings.mask, Settings.mk.injEq]
  have hv : ∀ (o : Option Str) (a b : Str), veil a = veil b → veil (o.getD a) = veil (o.getD b) := by
    intro o a b e
    cases o with
    | none => exact e
    | some => rfl
  obtain ⟨rfl, rfl, -, rfl, rfl, h1, rfl, rfl, rfl, rfl, rfl, rfl, rfl, h2, rfl, rfl, h3, rfl, rfl⟩ := h
  simp only [hv _ _ _ h1, hv _ _ _ h2, h3, and_self]

theorem setSettings_twin {ctx : Ctx} {q : SettingsBody} {kv kv' : Kv} (h : Twin kv kv') : SameReply (setSettings ctx q kv) (setSettings ctx q kv') := by
  unfold setSettings
  split
  · exact ⟨rfl, h⟩
  · have := h.loadSettings
    revert this
    generalize loadSettings kv = x
    generalize loadSettings kv' = y
    intro this
    cases this with
    | error e => exact ⟨rfl, h⟩
    | ok hs =>
      dsimp only
      have := (saveSettings_blind (apply_akin q hs)).run h
      revert this
      generalize runCall _ kv = x
      generalize runCall _ kv' = y
      intro this
      obtain ⟨x1, x2⟩ := x
      obtain ⟨y1, y2⟩ := y
      obtain ⟨h1, h2⟩ := this
      cases h1 with
      | error e => exact ⟨rfl, h2⟩
      | ok e => exact ⟨getSettings_twin h2, h2⟩

/-! ## The whole API -/

theorem asCaller_twin {now : Int} {t : Tok} {kv kv' : Kv} (h : Twin kv kv') {f f' : Ctx → ApiReply N × Kv}
    (hf : ∀ ctx, ctx.accountId < 2 ^ 64 → SameReply (f ctx) (f' ctx)) : SameReply (asCaller now t kv f) (asCaller now t kv' f') := by
  unfold asCaller
  rw [← authorize_twin h]
  cases ha : authorize now t kv with
  | error e => exact ⟨rfl, h⟩
  | ok ctx => exact hf ctx (caller_lt ha)

/-- A call answers alike on twins and leaves twins, if the password it presents gives the same answers. -/
theorem C146_call (C : AuthEnv) (A : AdminEnv N) (now : Int) (stamp : Time) (salt : Nat) {c : ApiCall N} (hc : c.Ok) {kv kv' : Kv} (h : Twin kv kv')
    (hg : ∀ pw, c.guess = some pw → SameCheck C pw kv kv') : SameReply (c.run C A now stamp salt kv) (c.run C A now stamp salt kv') := by
  cases c with
  | auth c =>
    refine SameReply.of (f := ApiReply.auth) (auth_twin C now stamp salt hc h fun pw e => hg pw ?_)
    cases c <;> exact e
  | schema t p c => exact asCaller_twin h fun ctx _ => SameReply.of (f := ApiReply.schema) (schema_twin A.R ctx p stamp c h)
  | report t p c => exact asCaller_twin h fun ctx _ => SameReply.of (f := ApiReply.report) (report_twin A ctx p stamp c h)
  | admin t c => exact asCaller_twin h fun ctx hl => SameReply.of (f := ApiReply.admin) (admin_twin A hl stamp hc h)
  | settingsGet t => exact asCaller_twin h fun ctx _ => ⟨by rw [getSettings_twin h], h⟩
  | settingsSet t q => exact asCaller_twin h fun ctx _ => SameReply.of (f := ApiReply.settings) (setSettings_twin h)

/-- Whole conversations: whoever cannot tell two stores apart by the passwords they present gets the same replies from both, whatever
calls they make and whatever happens in between. -/
theorem C146_conversation (C : AuthEnv) (A : AdminEnv N) (E : Env Q) {l : List (ApiStep N Q)} (hl : ∀ s ∈ l, s.Ok) {kv kv' : Kv} (h : Twin kv kv')
    (hg : SameChecks C A E l kv kv') : (converse C A E l kv).1 = (converse C A E l kv').1 ∧ Twin (converse C A E l kv).2 (converse C A E l kv').2 := by
  induction l generalizing kv kv' with
  | nil => exact ⟨rfl, h⟩
  | cons s l ih =>
    have hs := hl s (by simp)
    have hl' := fun s (h : s ∈ l) => hl _ (List.mem_cons_of_mem _ h)
    cases s with
    | call c now stamp salt =>
      have h1 := C146_call C A now stamp salt hs h hg.1
      have h2 := ih hl' h1.2 hg.2
      refine ⟨?_, h2.2⟩
      show _ :: _ = _ :: _
      rw [h1.1, h2.1]
    | other r => exact ih hl' (exec_twin E hs h) hg

theorem sameChecks_none (C : AuthEnv) (A : AdminEnv N) (E : Env Q) {l : List (ApiStep N Q)}
    (hn : ∀ c now stamp salt, ApiStep.call c now stamp salt ∈ l → c.guess = none) (kv kv' : Kv) : SameChecks C A E l kv kv' := by
  induction l generalizing kv kv' with
  | nil => trivial
  | cons s l ih =>
    have ih := ih fun c now stamp salt h => hn c now stamp salt (List.mem_cons_of_mem _ h)
    cases s with
    | call c now stamp salt => exact ⟨fun pw e => (by rw [hn c now stamp salt (by simp)] at e; cases e), ih _ _⟩
    | other r => exact ih _ _

/-- Without presenting a password, nobody learns anything about the secrets. -/
theorem C146_silent (C : AuthEnv) (A : AdminEnv N) (E : Env Q) {l : List (ApiStep N Q)} (hl : ∀ s ∈ l, s.Ok)
    (hn : ∀ c now stamp salt, ApiStep.call c now stamp salt ∈ l → c.guess = none) {kv kv' : Kv} (h : Twin kv kv') :
    (converse C A E l kv).1 = (converse C A E l kv').1 :=
  (C146_conversation C A E hl h (sameChecks_none C A E hn kv kv')).1

/-! ## One secret changed -/

/-- The store with an account written, whatever its password hash. -/
theorem twin_account (kv : Kv) (id : Nat) {a : Account} (ha : a.Valid) (h : Str) :
    Twin (putK kv (.data (.top .accounts) id) a.enc) (putK kv (.data (.top .accounts) id) { a with passwordHash := h }.enc) :=
  (Twin.refl kv).put (.account id (Or.inr ⟨ha, ⟨ha.head, ha.orgs, ha.projs, ha.teams⟩, rfl⟩))

theorem twin_backup (kv : Kv) (id : Nat) {b : Backup} (hb : b.Valid) (pw : Option Str) :
    Twin (putK kv (.data .backups id) b.enc) (putK kv (.data .backups id) { b with password := pw }.enc) :=
  (Twin.refl kv).put (.backup id (Or.inr ⟨hb, ⟨hb.id, hb.progress⟩, rfl⟩))

theorem veil_some {s t : Str} (hs : s ≠ []) (ht : t ≠ []) : veil s = veil t := by
  cases s with
  | nil => exact absurd rfl hs
  | cons => cases t with
    | nil => exact absurd rfl ht
    | cons => rfl

theorem twin_settings (kv : Kv) {s : Settings} {admin enc s3 gcp : Str} (h1 : enc ≠ [] ∧ s.encryptionPassword ≠ []) (h2 : s3 ≠ [] ∧ s.s3SecretKey ≠ [])
    (h3 : gcp ≠ [] ∧ s.gcpKey ≠ []) :
    Twin (putK kv .config s.enc)
      (putK kv .config { s with adminPassword := admin, encryptionPassword := enc, s3SecretKey := s3, gcpKey := gcp }.enc) :=
  (Twin.refl kv).put (.settings (Or.inr ⟨trivial, trivial, by
    simp only [Settings.mask, veil_some h1.2 h1.1, veil_some h2.2 h2.1, veil_some h3.2 h3.1]⟩))

/-- The hash of a password is told to nobody: with another hash in its place, every conversation in which no password is compared goes the same. -/
theorem C146_hash (C : AuthEnv) (A : AdminEnv N) (E : Env Q) {l : List (ApiStep N Q)} (hl : ∀ s ∈ l, s.Ok)
    (hn : ∀ c now stamp salt, ApiStep.call c now stamp salt ∈ l → c.guess = none) (kv : Kv) (id : Nat) {a : Account} (ha : a.Valid) (h : Str) :
    (converse C A E l (putK kv (.data (.top .accounts) id) a.enc)).1 =
      (converse C A E l (putK kv (.data (.top .accounts) id) { a with passwordHash := h }.enc)).1 :=
  C146_silent C A E hl hn (twin_account kv id ha h)

/-- The password of a backup likewise. -/
theorem C146_backup (C : AuthEnv) (A : AdminEnv N) (E : Env Q) {l : List (ApiStep N Q)} (hl : ∀ s ∈ l, s.Ok)
    (hn : ∀ c now stamp salt, ApiStep.call c now stamp salt ∈ l → c.guess = none) (kv : Kv) (id : Nat) {b : Backup} (hb : b.Valid) (pw : Option Str) :
    (converse C A E l (putK kv (.data .backups id) b.enc)).1 = (converse C A E l (putK kv (.data .backups id) { b with password := pw }.enc)).1 :=
  C146_silent C A E hl hn (twin_backup kv id hb pw)

/-- The passwords and the keys of the backup providers in the settings likewise, as long as they are there. -/
theorem C146_settings (C : AuthEnv) (A : AdminEnv N) (E : Env Q) {l : List (ApiStep N Q)} (hl : ∀ s ∈ l, s.Ok)
    (hn : ∀ c now stamp salt, ApiStep.call c now stamp salt ∈ l → c.guess = none) (kv : Kv) {s : Settings} {admin enc s3 gcp : Str}
    (h1 : enc ≠ [] ∧ s.encryptionPassword ≠ []) (h2 : s3 ≠ [] ∧ s.s3SecretKey ≠ []) (h3 : gcp ≠ [] ∧ s.gcpKey ≠ []) :
    (converse C A E l (putK kv .config s.enc)).1 =
      (converse C A E l (putK kv .config { s with adminPassword := admin, encryptionPassword := enc, s3SecretKey := s3, gcpKey := gcp }.enc)).1 :=
  C146_silent C A E hl hn (twin_settings kv h1 h2 h3)

/-! ## Examples -/

/-- Account 2 of the examples, with another hash. -/
def exRehashed (h : Str) : Kv :=
  putK exWorld.kv (.data (.top .accounts) 2) { (accountsC.live exWorld.kv 2).getD (Meta.exAcc [] none) with passwordHash := h }.enc

/-- Hypotheses of C146: the two stores differ, the caller is let in, and the calls are answered with the account. -/
example : exRehashed "bbb".toList ≠ exRehashed "other".toList ∧ (authorize 0 exAcc2 (exRehashed "other".toList)).toOption.isSome = true ∧
    (logIn exAuth 0 "b".toList "bbb".toList none (exRehashed "bbb".toList)).toOption.isSome = true ∧
    (logIn exAuth 0 "b".toList "bbb".toList none (exRehashed "other".toList)).toOption.isSome = false :=
  ⟨by decide +kernel, by decide +kernel, by decide +kernel, by decide +kernel⟩

example : ∀ s ∈ [ApiStep.call (Q := Unit) (ApiCall.admin (N := N) exAcc2 .profile) 0 ⟨0, 0⟩ 0,
    .call (.auth (.signUp "d".toList "ddd".toList none)) 0 ⟨0, 0⟩ 0, .call (.admin exAcc2 (.accountUpdate 0 2 { password := some "x".toList })) 0 ⟨0, 0⟩ 0],
    s.Ok ∧ ∀ c now stamp salt, s = .call c now stamp salt → c.guess = none := by
  intro s hs
  simp only [List.mem_cons, List.not_mem_nil, or_false] at hs
  rcases hs with rfl | rfl | rfl
  · exact ⟨trivial, fun _ _ _ _ h => by cases h; rfl⟩
  · exact ⟨trivial, fun _ _ _ _ h => by cases h; rfl⟩
  · exact ⟨⟨by simp, by simp, by simp⟩, fun _ _ _ _ h => by cases h; rfl⟩

end OptiPrism.Platform
