import Verif.Meta.Apart
import Verif.Platform.ServeProps

/-!
# The calls of the API beside a project
-/

namespace OptiPrism.Platform

open OptiPrism.Meta

variable {N : Type}

/-- Somebody without a part in the project: not an administrator of the installation, neither owner nor administrator of the organization of their
token, without a role in the project. -/
structure Stranger (ctx : Ctx) (p : Nat) : Prop where
  root : ctx.role ≠ some .admin
  owner : ¬ HasRole ctx.organizations ctx.organizationId .owner
  admin : ¬ HasRole ctx.organizations ctx.organizationId .admin
  role : ∀ r, ¬ HasRole ctx.projects p r

theorem Stranger.refused {ctx : Ctx} {p : Nat} (h : Stranger ctx p) (op : ProjOp) : op.allowed ctx p = false := by
  unfold ProjOp.allowed
  rw [← Bool.not_eq_true, C42_project]
  rintro (e | e | e | ⟨r, e, -⟩)
  · exact h.root e
  · exact h.owner e
  · exact h.admin e
  · exact h.role r e

section
variable {p : Nat} {o o' kv kv' : Kv}

theorem _root_.OptiPrism.Meta.Level.of {α β : Type} {f : α → β} {x y : α × Kv} (h : Level p o o' x y) : Level p o o' (f x.1, x.2) (f y.1, y.2) := ⟨by rw [h.1], h.2⟩

/-! ## Callers and accounts -/

theorem authorize_beside (h : Sides p o o' kv kv') {now : Int} {t : Tok} : authorize now t kv = authorize now t kv' := by
  unfold authorize contextOf
  rw [h.loadSettings]
  simp only [h.getById (c := accountsC) (by nofun)]

theorem makeTokens_beside (h : Sides p o o' kv kv') {C : AuthEnv} {now : Int} {a b : Nat} : makeTokens C now a b kv = makeTokens C now a b kv' := by
  unfold makeTokens
  rw [h.loadSettings]

theorem reply_beside {α : Type} {x y : Except Err α × Kv} (h : Level p o o' x y) {f : α → Kv → Answer}
    (hf : ∀ a kv kv', Sides p o o' kv kv' → f a kv = f a kv') : Level p o o' (reply x f) (reply y f) := by
  obtain ⟨x1, x2⟩ := x
  obtain ⟨y1, y2⟩ := y
  obtain ⟨h1, h2⟩ := h
  dsimp only at h1
  subst h1
  refine ⟨?_, h2⟩
  unfold reply
  dsimp only
  split
  · rfl
  · exact hf _ _ _ h2

theorem changeSelf_beside (h : Sides p o o' kv kv') {C : AuthEnv} {now : Int} {stamp : Time} {ctx : Ctx} {acc : Account} {q : AccountUpd} :
    Level p o o' (changeSelf C now stamp ctx acc q kv) (changeSelf C now stamp ctx acc q kv') :=
  reply_beside (accountUpdate_aloof.run h) fun _ _ _ h => makeTokens_beside h

/-- The calls for tokens and for the own account have nothing to do with projects. -/
theorem auth_beside (h : Sides p o o' kv kv') (C : AuthEnv) (now : Int) (stamp : Time) (salt : Nat) (c : AuthCall) :
    Level p o o' (c.run C now stamp salt kv) (c.run C now stamp salt kv') := by
  cases c with
  | signUp e pw n =>
    show Level p o o' (signUp ..) (signUp ..)
    unfold signUp
    split
    · exact ⟨rfl, h⟩
    · split
      · exact ⟨rfl, h⟩
      · exact reply_beside (accountCreate_aloof.run h) fun _ _ _ h => makeTokens_beside h
  | logIn e pw g =>
    refine ⟨?_, h⟩
    show logIn .. = logIn ..
    unfold logIn loginOrg
    simp only [h.getBy (c := accountsC) (by nofun), h.getById (c := orgsC) (by nofun), h.list (c := orgsC) (by nofun), makeTokens_beside h]
  | refresh a r =>
    refine ⟨?_, h⟩
    show refresh .. = refresh ..
    unfold refresh
    simp only [authorize_beside h, h.loadSettings, makeTokens_beside h]
  | updateName t n =>
    show Level p o o' (updateName ..) (updateName ..)
    unfold updateName
    rw [authorize_beside h]
    split
    · exact ⟨rfl, h⟩
    · split
      · exact ⟨rfl, h⟩
      · exact reply_beside (accountUpdate_aloof.run h) fun _ _ _ _ => rfl
  | updateEmail t e pw =>
    show Level p o o' (updateEmail ..) (updateEmail ..)
    unfold updateEmail
    rw [authorize_beside h]
    split
    · exact ⟨rfl, h⟩
    · split
      · exact ⟨rfl, h⟩
      · rw [h.getById (c := accountsC) (by nofun)]
        split
        · exact ⟨rfl, h⟩
        · split
          · exact ⟨rfl, h⟩
          · exact changeSelf_beside h
  | updatePassword t pw n =>
    show Level p o o' (updatePassword ..) (updatePassword ..)
    unfold updatePassword
    rw [authorize_beside h]
    split
    · exact ⟨rfl, h⟩
    · rw [h.getById (c := accountsC) (by nofun)]
      split
      · exact ⟨rfl, h⟩
      · split
        · exact ⟨rfl, h⟩
        · split
          · exact ⟨rfl, h⟩
          · exact changeSelf_beside h
  | setPassword t n =>
    show Level p o o' (setPassword ..) (setPassword ..)
    unfold setPassword
    rw [authorize_beside h]
    split
    · exact ⟨rfl, h⟩
    · rw [h.getById (c := accountsC) (by nofun)]
      split
      · exact ⟨rfl, h⟩
      · split
        · exact ⟨rfl, h⟩
        · split
          · exact ⟨rfl, h⟩
          · exact changeSelf_beside h
  | setEmail t e =>
    show Level p o o' (setEmail ..) (setEmail ..)
    unfold setEmail
    rw [authorize_beside h]
    split
    · exact ⟨rfl, h⟩
    · rw [h.getById (c := accountsC) (by nofun)]
      split
      · exact ⟨rfl, h⟩
      · split
        · exact ⟨rfl, h⟩
        · exact changeSelf_beside h
  | switchOrganization t g =>
    refine ⟨?_, h⟩
    show switchOrganization .. = switchOrganization ..
    unfold switchOrganization
    simp only [authorize_beside h, h.getById (c := orgsC) (by nofun), makeTokens_beside h]
  | adminCreate t pw r =>
    show Level p o o' (adminCreate ..) (adminCreate ..)
    unfold adminCreate
    rw [authorize_beside h]
    split
    · exact ⟨rfl, h⟩
    · split
      · exact ⟨rfl, h⟩
      · exact reply_beside (accountCreate_aloof.run h) fun _ _ _ _ => rfl
  | adminUpdate t id pw q =>
    show Level p o o' (adminUpdate ..) (adminUpdate ..)
    unfold adminUpdate
    rw [authorize_beside h]
    split
    · exact ⟨rfl, h⟩
    · split
      · exact ⟨rfl, h⟩
      · exact reply_beside (accountUpdate_aloof.run h) fun _ _ _ _ => rfl
  | adminDelete t id =>
    show Level p o o' (adminDelete ..) (adminDelete ..)
    unfold adminDelete
    rw [authorize_beside h]
    split
    · exact ⟨rfl, h⟩
    · split
      · exact ⟨rfl, h⟩
      · exact reply_beside ((delete_aloof (c := accountsC) (by nofun) id).run h) fun _ _ _ _ => rfl

/-! ## The schema and the reports of another project -/

theorem writing_beside {α : Type} {f : α → Option (Shown N)} {x y : Except Err α × Kv} (h : Level p o o' x y) : Level p o o' (writing f x) (writing f y) :=
  Level.of (f := shownAs f) h

theorem reading_beside {α : Type} {f : α → Option (Shown N)} {x y : Except Err α} (e : x = y) (h : Sides p o o' kv kv') :
    Level p o o' (reading f x kv) (reading f y kv') := ⟨by subst e; rfl, h⟩

variable {q : Nat}

theorem schema_beside (hq : q ≠ p) (R : ReqEnv N) (ctx : Ctx) (now : Time) (c : SchemaCall N) (h : Sides p o o' kv kv') :
    Level p o o' (c.run R ctx q now kv) (c.run R ctx q now kv') := by
  unfold SchemaCall.run
  split
  · cases c with
    | eventCreate u => exact writing_beside (createEvent_level hq h)
    | eventGet id => exact reading_beside (h.getById (c := eventsC q) (proj_off hq _) id) h
    | eventByName n => exact reading_beside (h.getBy (c := eventsC q) (proj_off hq _) _ n) h
    | eventList => exact reading_beside (h.list (c := eventsC q) (proj_off hq _)) h
    | eventUpdate id u => exact writing_beside ((eventUpdate_aloof hq).run h)
    | eventAttach id x => exact writing_beside ((update_plain (c := eventsC q) (proj_off hq _) _).run h)
    | eventDetach id x => exact writing_beside ((update_plain (c := eventsC q) (proj_off hq _) _).run h)
    | eventDelete id => exact writing_beside ((delete_aloof (c := eventsC q) (proj_off hq _) id).run h)
    | customCreate u =>
      show Level p o o' (match customNewIn R ctx.accountId q now u with | none => (none, kv) | some c => _)
        (match customNewIn R ctx.accountId q now u with | none => (none, kv') | some c => _)
      split
      · exact ⟨rfl, h⟩
      · exact writing_beside ((customCreate_aloof hq).run h)
    | customGet id => exact reading_beside (h.getById (c := customC q) (proj_off hq _) id) h
    | customList => exact reading_beside (h.list (c := customC q) (proj_off hq _)) h
    | customUpdate id u =>
      show Level p o o' (match customUpdIn R ctx.accountId u with | none => (none, kv) | some c => _)
        (match customUpdIn R ctx.accountId u with | none => (none, kv') | some c => _)
      split
      · exact ⟨rfl, h⟩
      · exact writing_beside ((customUpdate_aloof hq).run h)
    | customDelete id => exact writing_beside ((delete_aloof (c := customC q) (proj_off hq _) id).run h)
    | dashboardCreate u => exact writing_beside ((create_aloof (c := dashboardsC q) (proj_off hq _) (fun _ h => by cases h) _).run h)
    | dashboardGet id => exact reading_beside (h.getById (c := dashboardsC q) (proj_off hq _) id) h
    | dashboardList => exact reading_beside (h.list (c := dashboardsC q) (proj_off hq _)) h
    | dashboardUpdate id u => exact writing_beside ((update_plain (c := dashboardsC q) (proj_off hq _) _).run h)
    | dashboardDelete id => exact writing_beside ((delete_aloof (c := dashboardsC q) (proj_off hq _) id).run h)
    | groupCreate n d => exact writing_beside ((getOrCreateGroup_aloof hq).run h)
    | groupList => exact reading_beside (by unfold groupsList; rw [h.entries (projPath_prefix hq _)]) h
    | propGet ty id => exact reading_beside (h.getById (c := propsC q ty) (proj_off hq _) id) h
    | propByName ty n => exact reading_beside (h.getBy (c := propsC q ty) (proj_off hq _) _ n) h
    | propList ty => exact reading_beside (h.list (c := propsC q ty) (proj_off hq _)) h
    | propUpdate ty id u => exact writing_beside ((propUpdate_aloof hq).run h)
    | propDelete ty id => exact writing_beside ((delete_aloof (c := propsC q ty) (proj_off hq _) id).run h)
  · exact ⟨rfl, h⟩

theorem report_beside (hq : q ≠ p) (A : AdminEnv N) (ctx : Ctx) (now : Time) (c : ReportCall N) (h : Sides p o o' kv kv') :
    Level p o o' (c.run A ctx q now kv) (c.run A ctx q now kv') := by
  have hr : ∀ {x y : Except Err (Report CReportQuery) × Kv}, Level p o o' x y →
      Level p o o' (oneReport (reportAnswer A.R x.1), x.2) (oneReport (reportAnswer A.R y.1), y.2) := fun e => Level.of (f := fun r => oneReport (reportAnswer A.R r)) e
  unfold ReportCall.run
  split
  · exact ⟨rfl, h⟩
  · cases c with
    | create u =>
      dsimp only
      unfold apiReportCreate
      split
      · exact ⟨rfl, h⟩
      · exact hr ((create_aloof (c := reportsC A.bc q) (proj_off hq _) (fun _ h => by cases h) _).run h)
    | get id => exact ⟨by show oneReport (reportAnswer _ _) = oneReport (reportAnswer _ _); rw [h.getById (c := reportsC A.bc q) (proj_off hq _)], h⟩
    | list => exact ⟨by show reportListAnswer _ _ = reportListAnswer _ _; rw [h.list (c := reportsC A.bc q) (proj_off hq _)], h⟩
    | update id u =>
      dsimp only
      unfold apiReportUpdate
      split
      · exact ⟨rfl, h⟩
      · exact hr ((update_plain (c := reportsC A.bc q) (proj_off hq _) _).run h)
    | delete id => exact hr ((delete_aloof (c := reportsC A.bc q) (proj_off hq _) id).run h)

/-! ## Administration -/

theorem telling_beside {α : Type} {f : α → Option (AdminShown N)} {x y : Except Err α × Kv} (h : Level p o o' x y) : Level p o o' (telling f x) (telling f y) :=
  Level.of (f := told f) h

theorem told_beside {α : Type} {f : α → Option (AdminShown N)} {x y : Except Err α} (e : x = y) (h : Sides p o o' kv kv') :
    Level p o o' (told f x, kv) (told f y, kv') := ⟨by subst e; rfl, h⟩

theorem projectKeys_beside {r : Project} (hr : r.id ≠ p) (h : Sides p o o' kv kv') : Sides p o o' (projectKeys r kv) (projectKeys r kv') := by
  unfold projectKeys
  generalize kEvents :: _ = l
  induction l generalizing kv kv' with
  | nil => exact h
  | cons t l ih => exact ih ((dictCreateKey_aloof hr).run h).2

/-- An updated project has the number of the one that was there. -/
theorem projectUpdate_id {id : Nat} {now : Time} {u : ProjectUpd} {r : Project} {kv1 : Kv} (hk : ∀ r, projectsC.getById id kv = .ok r → r.id = id)
    (e : Meta.projectUpdate id now u kv = .ok (r, kv1)) : r.id = id := by
  unfold Meta.projectUpdate Coll.update at e
  split at e
  · cases e
  · next r0 h0 =>
    split at e
    · cases e
    · cases e
      exact hk r0 h0

theorem updateProject_beside {id : Nat} (hi : id ≠ p) (hk : ∀ r, projectsC.getById id kv = .ok r → r.id = id) {now : Time} {u : ProjectUpd}
    (h : Sides p o o' kv kv') : Level p o o' (updateProject id now u kv) (updateProject id now u kv') := by
  unfold updateProject runCall
  have := projectUpdate_aloof (p := p) (id := id) (now := now) (q := u) o o' kv kv' h
  have hid := fun r kv1 => projectUpdate_id (kv := kv) (id := id) (now := now) (u := u) (r := r) (kv1 := kv1) hk
  revert this hid
  generalize Meta.projectUpdate id now u kv = x
  generalize Meta.projectUpdate id now u kv' = y
  intro this hid
  cases this with
  | error e => exact ⟨rfl, h⟩
  | ok hs => exact ⟨rfl, projectKeys_beside (fun e => hi ((hid _ _ rfl).symm.trans e)) hs⟩

theorem makeBackup_beside {now : Time} (h : Sides p o o' kv kv') : Level p o o' (makeBackup (N := N) now kv) (makeBackup now kv') := by
  unfold makeBackup
  rw [h.loadSettings]
  split
  · exact ⟨rfl, h⟩
  · split
    · exact ⟨rfl, h⟩
    · exact telling_beside (backupCreate_aloof.run h)

/-- The project an administration call is for. -/
def AdminCall.project : AdminCall N → Option Nat
  | .projectUpdate id _ => some id
  | .bookmarkCreate p .. | .bookmarkGet p _ => some p
  | _ => none

theorem admin_beside (A : AdminEnv N) (ctx : Ctx) (now : Time) (c : AdminCall N) (hc : c.project ≠ some p)
    (hk : ∀ id r, projectsC.getById id kv = .ok r → r.id = id) (h : Sides p o o' kv kv') : Level p o o' (c.run A ctx now kv) (c.run A ctx now kv') := by
  unfold AdminCall.run
  split
  · cases c with
    | accountCreate salt u => exact telling_beside (accountCreate_aloof.run h)
    | accountGet id => exact told_beside (h.getById (c := accountsC) (by nofun) id) h
    | accountList => exact told_beside (h.list (c := accountsC) (by nofun)) h
    | accountUpdate salt id u => exact telling_beside (accountUpdate_aloof.run h)
    | accountDelete id => exact telling_beside ((delete_aloof (c := accountsC) (by nofun) id).run h)
    | profile => exact told_beside (h.getById (c := accountsC) (by nofun) _) h
    | orgCreate n => exact telling_beside (orgCreate_aloof.run h)
    | orgGet id => exact told_beside (h.getById (c := orgsC) (by nofun) id) h
    | orgList => exact told_beside (h.list (c := orgsC) (by nofun)) h
    | orgUpdate id n => exact telling_beside (orgUpdate_aloof.run h)
    | orgDelete id => exact telling_beside ((delete_aloof (c := orgsC) (by nofun) id).run h)
    | projectGet id => exact told_beside (h.getById (c := projectsC) (by nofun) id) h
    | projectList => exact ⟨by show told _ _ = told _ _; rw [h.list (c := projectsC) (by nofun)], h⟩
    | projectUpdate id u => exact telling_beside (updateProject_beside (fun e => hc (congrArg some e)) (hk id) h)
    | projectDelete id => exact telling_beside ((delete_aloof (c := projectsC) (by nofun) id).run h)
    | backup => exact makeBackup_beside h
    | backupGet id => exact told_beside (h.getById (c := backupsC) (by nofun) id) h
    | backupList => exact ⟨by show backupsTold _ = backupsTold _; rw [h.list (c := backupsC) (by nofun)], h⟩
    | bookmarkCreate q name u =>
      show Level p o o' (match optConv (reportQueryIn A.R) u with | none => (none, kv) | some c => _)
        (match optConv (reportQueryIn A.R) u with | none => (none, kv') | some c => _)
      split
      · exact ⟨rfl, h⟩
      · exact telling_beside ((bookmarkCreate_aloof fun e => hc (congrArg some e)).run h)
    | bookmarkGet q id => exact ⟨by show told _ _ = told _ _; rw [bookmarkGet_beside (fun e => hc (congrArg some e)) h], h⟩
  · exact ⟨rfl, h⟩

/-- The calls for a project are refused to strangers. -/
theorem admin_stranger {ctx : Ctx} (hs : Stranger ctx p) {c : AdminCall N} (hc : c.project = some p) : c.allowed ctx = false := by
  cases c <;> first | (cases hc; done) | (cases hc; exact hs.refused _)

/-! ## Settings -/

theorem getSettings_beside {ctx : Ctx} (h : Sides p o o' kv kv') : getSettings ctx kv = getSettings ctx kv' := by
  unfold getSettings
  rw [h.loadSettings]

theorem setSettings_beside {ctx : Ctx} {u : SettingsBody} (h : Sides p o o' kv kv') : Level p o o' (setSettings ctx u kv) (setSettings ctx u kv') := by
  unfold setSettings
  split
  · exact ⟨rfl, h⟩
  · rw [h.loadSettings]
    split
    · exact ⟨rfl, h⟩
    · next s _ =>
      have := (saveSettings_aloof (s := u.apply s)).run h
      revert this
      generalize runCall _ kv = x
      generalize runCall _ kv' = y
      intro this
      obtain ⟨x1, x2⟩ := x
      obtain ⟨y1, y2⟩ := y
      obtain ⟨h1, h2⟩ := this
      dsimp only at h1
      subst h1
      split
      · next e => cases e; exact ⟨rfl, h2⟩
      · next e => cases e; exact ⟨getSettings_beside h2, h2⟩

/-! ## All calls -/

/-- The token a call is made with, if it acts on something other than accounts and tokens. -/
def ApiCall.token : ApiCall N → Option Tok
  | .auth _ => none
  | .schema t .. | .report t .. | .admin t _ | .settingsGet t | .settingsSet t _ => some t

theorem asCaller_beside (h : Sides p o o' kv kv') {now : Int} {t : Tok} {f f' : Ctx → ApiReply N × Kv}
    (hf : ∀ ctx, authorize now t kv = .ok ctx → Level p o o' (f ctx) (f' ctx)) : Level p o o' (asCaller now t kv f) (asCaller now t kv' f') := by
  unfold asCaller
  rw [← authorize_beside h]
  cases ha : authorize now t kv with
  | error e => exact ⟨rfl, h⟩
  | ok ctx => exact hf ctx ha

theorem call_beside (C : AuthEnv) (A : AdminEnv N) (now : Int) (stamp : Time) (salt : Nat) (c : ApiCall N)
    (hk : ∀ id r, projectsC.getById id kv = .ok r → r.id = id) (hs : ∀ t ctx, c.token = some t → authorize now t kv = .ok ctx → Stranger ctx p)
    (h : Sides p o o' kv kv') : Level p o o' (c.run C A now stamp salt kv) (c.run C A now stamp salt kv') := by
  cases c with
  | auth c => exact Level.of (f := ApiReply.auth) (auth_beside h C now stamp salt c)
  | schema t q c =>
    refine asCaller_beside h fun ctx ha => Level.of (f := ApiReply.schema) ?_
    by_cases hq : q = p
    · subst hq
      unfold SchemaCall.run
      rw [(hs t ctx rfl ha).refused]
      exact ⟨rfl, h⟩
    · exact schema_beside hq A.R ctx stamp c h
  | report t q c =>
    refine asCaller_beside h fun ctx ha => Level.of (f := ApiReply.report) ?_
    by_cases hq : q = p
    · subst hq
      unfold ReportCall.run
      rw [(hs t ctx rfl ha).refused]
      exact ⟨rfl, h⟩
    · exact report_beside hq A ctx stamp c h
  | admin t c =>
    refine asCaller_beside h fun ctx ha => Level.of (f := ApiReply.admin) ?_
    by_cases hq : c.project = some p
    · unfold AdminCall.run
      rw [admin_stranger (hs t ctx rfl ha) hq]
      exact ⟨rfl, h⟩
    · exact admin_beside A ctx stamp c hq hk h
  | settingsGet t => exact asCaller_beside h fun ctx _ => ⟨by rw [getSettings_beside h], h⟩
  | settingsSet t u => exact asCaller_beside h fun ctx _ => Level.of (f := ApiReply.settings) (setSettings_beside h)

end

end OptiPrism.Platform
