import Verif.Meta.Modules2
import Verif.Meta.RecordsProps

/-!
# The metadata store as one system

All calls of the metadata crate that write, as one type of requests, executed one after the other on one
store. `Req.mods` are the parts of the store a request may write; `exec_steps` shows that it writes
nothing else. Histories of requests are the setting of the theorems about single modules.
-/

namespace OptiPrism.Meta

open OptiPrism.Storage (Bytes)

/-- What the model leaves open: the bincode codec of queries, the column name of system properties. -/
structure Env (Q : Type) where
  bc : Bincode Q
  sys : Str → Str

inductive Req (Q : Type) where
  | teamCreate (o : Nat) (now : Time) (by_ : Nat) (name : Str)
  | teamUpdate (o id : Nat) (now : Time) (by_ : Nat) (name : Option Str)
  | teamDelete (o id : Nat)
  | eventCreate (p : Nat) (now : Time) (req : Event)
  | eventGetOrCreate (p : Nat) (now : Time) (req : Event)
  | eventUpdate (p id : Nat) (now : Time) (q : EventUpd)
  | eventAttach (w : PropList) (p id prop : Nat)
  | eventDetach (w : PropList) (p id prop : Nat)
  | eventTryAttach (p id : Nat) (ps : List Nat)
  | eventDelete (p id : Nat)
  | eventRecord (p : Nat)
  | accountCreate (now : Time) (req : Account)
  | accountUpdate (id : Nat) (now : Time) (q : AccountUpd)
  | accountDelete (id : Nat)
  | orgCreate (now : Time) (by_ : Nat) (name : Str)
  | orgUpdate (id : Nat) (now : Time) (by_ : Nat) (name : Option Str)
  | orgDelete (id : Nat)
  | addMember (o m : Nat) (role : OrgRole)
  | removeMember (o m : Nat)
  | changeMemberRole (o m : Nat) (role : OrgRole)
  | projectCreate (now : Time) (req : Project)
  | projectUpdate (id : Nat) (now : Time) (q : ProjectUpd)
  | projectIncrement (id : Nat)
  | projectDelete (id : Nat)
  | customCreate (p : Nat) (now : Time) (req : CustomEvent)
  | customUpdate (p id : Nat) (now : Time) (q : CustomUpd)
  | customDelete (p id : Nat)
  | dashboardCreate (p : Nat) (now : Time) (req : Dashboard)
  | dashboardUpdate (p id : Nat) (now : Time) (q : DashboardUpd)
  | dashboardDelete (p id : Nat)
  | reportCreate (p : Nat) (now : Time) (req : Report Q)
  | reportUpdate (p id : Nat) (now : Time) (q : ReportUpd Q)
  | reportDelete (p id : Nat)
  | backupCreate (now : Time) (req : Backup)
  | backupStatus (id : Nat) (now : Time) (st : BackupStatus)
  | backupDelete (id : Nat)
  | dictGet (p : Nat) (t d v : Str)
  | dictPut (p : Nat) (t d : Str) (n : Nat) (v : Str)
  | anonymous (p g : Nat) (s : Str)
  | groupGet (p g : Nat) (s : Str) (vs : List PropVal)
  | groupUpdate (p g : Nat) (s : Str) (vs : List PropVal)
  | groupMerge (p g : Nat) (a s : Str) (vs : List PropVal)
  | groupName (p : Nat) (name displayName : Str)
  | groupRecord (p g : Nat)
  | sessionSet (p u : Nat) (time : Time)
  | sessionClear (p : Nat)
  | sessionCheck (p : Nat) (cb : Session → Except Err Bool)
  | bookmarkCreate (p : Nat) (req : Bookmark Q)
  | bookmarkDelete (p a : Nat) (id : Str)
  | propCreate (p : Nat) (ty : PropType) (now : Time) (req : Property) (field : Except Err Unit)
  | propGetOrCreate (p : Nat) (ty : PropType) (now : Time) (req : Property) (field : Except Err Unit)
  | propUpdate (p : Nat) (ty : PropType) (id : Nat) (now : Time) (q : PropUpd)
  | propDelete (p : Nat) (ty : PropType) (id : Nat)
  | settings (s : Settings)

/-- The store after the request. -/
def Req.exec {Q : Type} (E : Env Q) : Req Q → Kv → Kv
  | .teamCreate o now b n, kv => (runCall (Meta.teamCreate o now b n) kv).2
  | .teamUpdate o id now b n, kv => (runCall (Meta.teamUpdate o id now b n) kv).2
  | .teamDelete o id, kv => (runCall ((teamsC o).delete id) kv).2
  | .eventCreate p now r, kv => (createEvent p now r kv).2
  | .eventGetOrCreate p now r, kv => (getOrCreateEvent p now r kv).2
  | .eventUpdate p id now q, kv => (runCall (Meta.eventUpdate p id now q) kv).2
  | .eventAttach w p id x, kv => (runCall (Meta.eventAttach w p id x) kv).2
  | .eventDetach w p id x, kv => (runCall (Meta.eventDetach w p id x) kv).2
  | .eventTryAttach p id ps, kv => (runCall (Meta.eventTryAttach p id ps) kv).2
  | .eventDelete p id, kv => (runCall ((eventsC p).delete id) kv).2
  | .eventRecord p, kv => (runCall (nextSeq (.recSeq p)) kv).2
  | .accountCreate now r, kv => (runCall (Meta.accountCreate now r) kv).2
  | .accountUpdate id now q, kv => (runCall (Meta.accountUpdate id now q) kv).2
  | .accountDelete id, kv => (runCall (accountsC.delete id) kv).2
  | .orgCreate now b n, kv => (runCall (Meta.orgCreate now b n) kv).2
  | .orgUpdate id now b n, kv => (runCall (Meta.orgUpdate id now b n) kv).2
  | .orgDelete id, kv => (runCall (orgsC.delete id) kv).2
  | .addMember o m role, kv => (runCall (Meta.addMember o m role) kv).2
  | .removeMember o m, kv => (runCall (Meta.removeMember o m) kv).2
  | .changeMemberRole o m role, kv => (runCall (Meta.changeMemberRole o m role) kv).2
  | .projectCreate now r, kv => (runCall (Meta.projectCreate now r) kv).2
  | .projectUpdate id now q, kv => (runCall (Meta.projectUpdate id now q) kv).2
  | .projectIncrement id, kv => (runCall (incrementEvents id) kv).2
  | .projectDelete id, kv => (runCall (projectsC.delete id) kv).2
  | .customCreate p now r, kv => (runCall (Meta.customCreate p now r) kv).2
  | .customUpdate p id now q, kv => (runCall (Meta.customUpdate p id now q) kv).2
  | .customDelete p id, kv => (runCall ((customC p).delete id) kv).2
  | .dashboardCreate p now r, kv => (runCall (Meta.dashboardCreate p now r) kv).2
  | .dashboardUpdate p id now q, kv => (runCall (Meta.dashboardUpdate p id now q) kv).2
  | .dashboardDelete p id, kv => (runCall ((dashboardsC p).delete id) kv).2
  | .reportCreate p now r, kv => (runCall (Meta.reportCreate E.bc p now r) kv).2
  | .reportUpdate p id now q, kv => (runCall (Meta.reportUpdate E.bc p id now q) kv).2
  | .reportDelete p id, kv => (runCall ((reportsC E.bc p).delete id) kv).2
  | .backupCreate now r, kv => (runCall (Meta.backupCreate now r) kv).2
  | .backupStatus id now st, kv => (runCall (backupUpdateStatus id now st) kv).2
  | .backupDelete id, kv => (runCall (backupsC.delete id) kv).2
  | .dictGet p t d v, kv => (runCall (dictGetOrCreate p t d v) kv).2
  | .dictPut p t d n v, kv => (runCall (dictCreateKey p t d n v) kv).2
  | .anonymous p g s, kv => (runCall (anonymousId p g s) kv).2
  | .groupGet p g s vs, kv => (runCall (groupGetOrCreate p g s vs) kv).2
  | .groupUpdate p g s vs, kv => (runCall (groupCreateOrUpdate p g s vs) kv).2
  | .groupMerge p g a s vs, kv => (mergeWithAnonymous p g a s vs kv).2
  | .groupName p n d, kv => (runCall (getOrCreateGroup p n d) kv).2
  | .groupRecord p g, kv => (runCall (nextSeq (.groupRecSeq p g)) kv).2
  | .sessionSet p u t, kv => (runCall (setCurrentTime p u t) kv).2
  | .sessionClear p, kv => (runCall (clearProject p) kv).2
  | .sessionCheck p cb, kv => (runCall (checkForDeletion p cb) kv).2
  | .bookmarkCreate p r, kv => (runCall (Meta.bookmarkCreate E.bc p r) kv).2
  | .bookmarkDelete p a id, kv => (runCall (Meta.bookmarkDelete E.bc p a id) kv).2
  | .propCreate p ty now r f, kv => (runCall (Meta.propCreate E.sys p ty now r f) kv).2
  | .propGetOrCreate p ty now r f, kv => (runCall (Meta.propGetOrCreate E.sys p ty now r f) kv).2
  | .propUpdate p ty id now q, kv => (runCall (Meta.propUpdate p ty id now q) kv).2
  | .propDelete p ty id, kv => (runCall ((propsC p ty).delete id) kv).2
  | .settings s, kv => (runCall (saveSettings s) kv).2

/-- The parts of the store the request may write. -/
def Req.mods {Q : Type} : Req Q → List Mod
  | .teamCreate o .. | .teamUpdate o .. | .teamDelete o .. => [.coll (.teams o)]
  | .eventCreate p .. | .eventGetOrCreate p .. => [.coll (.proj p .events), .dict p kEvents kEvent]
  | .eventUpdate p .. | .eventAttach _ p .. | .eventDetach _ p .. | .eventTryAttach p .. | .eventDelete p .. =>
    [.coll (.proj p .events)]
  | .eventRecord p => [.evRec p]
  | .accountCreate .. | .accountUpdate .. | .accountDelete .. => [.coll (.top .accounts)]
  | .orgCreate .. | .addMember .. | .removeMember .. | .changeMemberRole .. =>
    [.coll (.top .organizations), .coll (.top .accounts)]
  | .orgUpdate .. | .orgDelete .. => [.coll (.top .organizations)]
  | .projectCreate .. | .projectUpdate .. | .projectIncrement .. | .projectDelete .. => [.coll (.top .projects)]
  | .customCreate p .. | .customUpdate p .. | .customDelete p .. => [.coll (.proj p .customEvents)]
  | .dashboardCreate p .. | .dashboardUpdate p .. | .dashboardDelete p .. => [.coll (.proj p .dashboards)]
  | .reportCreate p .. | .reportUpdate p .. | .reportDelete p .. => [.coll (.proj p .reports)]
  | .backupCreate .. | .backupStatus .. | .backupDelete .. => [.coll .backups]
  | .dictGet p t d _ | .dictPut p t d .. => [.dict p t d]
  | .anonymous p g _ | .groupGet p g .. | .groupUpdate p g .. | .groupMerge p g .. => [.grp p g]
  | .groupName p .. => [.grpNames p]
  | .groupRecord p g => [.grpRec p g]
  | .sessionSet p .. | .sessionClear p | .sessionCheck p _ => [.sess p]
  | .bookmarkCreate p r => [.bm p r.createdBy]
  | .bookmarkDelete p a _ => [.bm p a]
  | .propCreate p ty .. | .propGetOrCreate p ty .. => [.coll (.proj p ty.coll), .order p, .coll (.proj p .global)]
  | .propUpdate p ty .. | .propDelete p ty _ => [.coll (.proj p ty.coll)]
  | .settings _ => [.config]

/-- Requests as the types and callers allow them: integers have 64 bits, dictionary tables and columns have
names without a slash, a group value and a data type is one that can be stored (otherwise the call panics
before writing). -/
def Req.Ok {Q : Type} : Req Q → Prop
  | .teamCreate o _ b _ => o < 2 ^ 64 ∧ b < 2 ^ 64
  | .teamUpdate _ _ _ b _ => b < 2 ^ 64
  | .eventCreate p _ r | .eventGetOrCreate p _ r => p < 2 ^ 64 ∧ r.createdBy < 2 ^ 64
  | .eventUpdate _ _ _ q => q.updatedBy < 2 ^ 64
  | .accountCreate _ r => r.createdBy < 2 ^ 64 ∧ (∀ m ∈ r.organizations.getD [], m.1 < 2 ^ 64) ∧
      (∀ m ∈ r.projects.getD [], m.1 < 2 ^ 64) ∧ ∀ m ∈ r.teams.getD [], m.1 < 2 ^ 64
  | .accountUpdate _ _ q => q.updatedBy < 2 ^ 64 ∧ (∀ l, q.organizations = some (some l) → ∀ m ∈ l, m.1 < 2 ^ 64) ∧
      (∀ l, q.projects = some (some l) → ∀ m ∈ l, m.1 < 2 ^ 64) ∧ ∀ l, q.teams = some (some l) → ∀ m ∈ l, m.1 < 2 ^ 64
  | .orgCreate _ b _ => b < 2 ^ 64
  | .orgUpdate _ _ b _ => b < 2 ^ 64
  | .addMember o m _ => o < 2 ^ 64 ∧ m < 2 ^ 64
  | .projectCreate _ r => r.createdBy < 2 ^ 64 ∧ r.orgId < 2 ^ 64 ∧ r.sessionDuration < 2 ^ 64
  | .projectUpdate _ _ q => q.updatedBy < 2 ^ 64 ∧ ∀ d, q.sessionDuration = some d → d < 2 ^ 64
  | .customCreate p _ r => p < 2 ^ 64 ∧ r.createdBy < 2 ^ 64 ∧ ∀ e ∈ r.events, e.Ok
  | .customUpdate _ _ _ q => q.updatedBy < 2 ^ 64 ∧ ∀ l, q.events = some l → ∀ e ∈ l, e.Ok
  | .dashboardCreate p _ r => p < 2 ^ 64 ∧ r.createdBy < 2 ^ 64 ∧ ∀ x ∈ r.panels, x.reportId < 2 ^ 64
  | .dashboardUpdate _ _ _ q => q.updatedBy < 2 ^ 64 ∧ ∀ l, q.panels = some l → ∀ x ∈ l, x.reportId < 2 ^ 64
  | .reportCreate p _ r => p < 2 ^ 64 ∧ r.createdBy < 2 ^ 64
  | .reportUpdate _ _ _ q => q.updatedBy < 2 ^ 64
  | .backupCreate _ r => ∀ n, r.status = .inProgress n → n < 2 ^ 64
  | .backupStatus _ _ st => ∀ n, st = .inProgress n → n < 2 ^ 64
  | .dictGet _ t d _ => '/' ∉ t ∧ '/' ∉ d
  | .dictPut _ t d n _ => ('/' ∉ t ∧ '/' ∉ d) ∧ n < 2 ^ 64
  | .groupGet _ _ _ vs | .groupUpdate _ _ _ vs | .groupMerge _ _ _ _ vs => ∀ v ∈ vs, v.propertyId < 2 ^ 64
  | .sessionSet _ u _ => u < 2 ^ 64
  | .bookmarkCreate p r => p < 2 ^ 64 ∧ r.createdBy < 2 ^ 64
  | .propCreate p _ _ r _ | .propGetOrCreate p _ _ r _ =>
    p < 2 ^ 64 ∧ r.createdBy < 2 ^ 64 ∧ ∀ g, r.typ = .group g → g < 2 ^ 64
  | .propUpdate _ _ _ _ q => q.updatedBy < 2 ^ 64 ∧ (∀ g, q.typ = some (.group g) → g < 2 ^ 64) ∧
      ∀ t, q.dataType = some t → t.num.isSome
  | _ => True

/-! ## What each call writes -/

theorem Touches.put {α : Type} {k : Key} (hk : k.WF) (a : α) (v : Bytes) : Touches (fun kv => .ok (a, putK kv k v)) [k.mod] := by
  intro kv x kv' h
  simp only [Except.ok.injEq, Prod.mk.injEq] at h
  rw [← h.2]
  exact .put _ .refl hk (by simp)

theorem pairs_nil (P : Key → Prop) : PairsIn P [] := fun _ h => absurd h (by simp)

theorem PairsIn.append {P : Key → Prop} {a b : List (Option Key × Option Key)} (ha : PairsIn P a) (hb : PairsIn P b) :
    PairsIn P (a ++ b) := fun p hp => (List.mem_append.mp hp).elim (ha p) (hb p)

theorem pairs_one (ns : Ns) (ix : Ix) (a b : Option Str) : PairsIn (IdxOf ns) [(a.map (.idx ns ix), b.map (.idx ns ix))] := by
  intro p hp
  rw [List.mem_singleton] at hp
  subst hp
  refine ⟨fun k hk => ?_, fun k hk => ?_⟩
  · obtain ⟨s, -, rfl⟩ := Option.map_eq_some_iff.mp hk
    exact ⟨trivial, _, _, rfl⟩
  · obtain ⟨s, -, rfl⟩ := Option.map_eq_some_iff.mp hk
    exact ⟨trivial, _, _, rfl⟩

theorem keys_one {ns : Ns} {ix : Ix} {s : Str} {k : Key} (h : some k ∈ [some (Key.idx ns ix s)]) : IdxOf ns k := by
  simp only [List.mem_singleton, Option.some.injEq] at h
  exact ⟨ix, s, h⟩

theorem dict_touches {p : Nat} {t d : Str} (h : '/' ∉ t ∧ '/' ∉ d) (v : Str) : Touches (dictGetOrCreate p t d v) [.dict p t d] := by
  intro kv a kv' e
  unfold dictGetOrCreate at e
  split at e
  · split at e
    · cases e
    · cases e; exact .refl
  · split at e
    · cases e
    · rename_i id kv1 hs
      cases e
      exact ((nextSeq_touches (k := .dictSeq p t d) h kv a kv1 hs).put _ (k := .dictKey p t d a) h (by simp [Key.mod])).put _
        (k := .dictVal p t d v) h (by simp [Key.mod])

theorem dictPut_touches {p : Nat} {t d : Str} (h : '/' ∉ t ∧ '/' ∉ d) (n : Nat) (v : Str) :
    Touches (dictCreateKey p t d n v) [.dict p t d] := by
  intro kv a kv' e
  cases e
  exact ((Steps.refl).put _ (k := .dictKey p t d n) h (by simp [Key.mod])).put _ (k := .dictVal p t d v) h (by simp [Key.mod])

theorem kEvents_ok : '/' ∉ kEvents ∧ '/' ∉ kEvent := by unfold kEvents kEvent; decide +kernel

theorem eventCreate_touches (p : Nat) (now : Time) (r : Event) : Touches (eventCreate p now r) [.coll (.proj p .events)] := by
  refine create_touches ?_
  intro k hk
  simp only [List.mem_cons, Option.some.injEq, List.not_mem_nil, or_false] at hk
  rcases hk with rfl | hk
  · exact ⟨_, _, rfl⟩
  · obtain ⟨s, -, rfl⟩ := Option.map_eq_some_iff.mp hk.symm
    exact ⟨_, _, rfl⟩

theorem createEvent_steps (p : Nat) (now : Time) (r : Event) (kv : Kv) :
    Steps (fun k => k.mod ∈ [.coll (.proj p .events), .dict p kEvents kEvent]) kv (createEvent p now r kv).2 := by
  unfold createEvent
  split
  · exact .refl
  · rename_i ev kv1 e1
    have h1 := (eventCreate_touches p now r kv ev kv1 e1).mono (P' := fun k => k.mod ∈ [.coll (.proj p .events), .dict p kEvents kEvent])
      (by intro k hk; simp at hk ⊢; exact .inl hk)
    split
    · exact h1
    · rename_i n kv2 e2
      exact h1.trans ((dict_touches kEvents_ok ev.name kv1 n kv2 e2).mono (by intro k hk; simp at hk ⊢; exact .inr hk))

theorem anon_touches (p g : Nat) (s : Str) : Touches (anonymousId p g s) [.grp p g] := by
  intro kv a kv' e
  unfold anonymousId at e
  split at e
  · split at e
    · cases e
    · cases e; exact .refl
  · split at e
    · cases e
    · rename_i id kv1 hs
      cases e
      exact (nextSeq_touches (k := .groupSeq p g) trivial kv a kv1 hs).put _ (k := .anon p g s) trivial (by simp [Key.mod])

theorem groupGet_touches (p g : Nat) (s : Str) (vs : List PropVal) : Touches (groupGetOrCreate p g s vs) [.grp p g] := by
  intro kv a kv' e
  unfold groupGetOrCreate at e
  split at e
  · split at e
    · cases e
    · cases e; exact .refl
  · split at e
    · cases e
    · rename_i id kv1 hs
      dsimp only at e
      split at e
      · cases e
      · cases e
        exact (nextSeq_touches (k := .groupSeq p g) trivial kv id kv1 hs).put _ (k := .real p g s) trivial (by simp [Key.mod])

theorem groupUpdate_touches (p g : Nat) (s : Str) (vs : List PropVal) : Touches (groupCreateOrUpdate p g s vs) [.grp p g] := by
  intro kv a kv' e
  unfold groupCreateOrUpdate at e
  split at e
  · split at e
    · cases e
    · dsimp only at e
      split at e
      · cases e
      · cases e
        exact (Steps.refl).put _ (k := .real p g s) trivial (by simp [Key.mod])
  · split at e
    · cases e
    · rename_i id kv1 hs
      dsimp only at e
      split at e
      · cases e
      · cases e
        exact (nextSeq_touches (k := .groupSeq p g) trivial kv id kv1 hs).put _ (k := .real p g s) trivial (by simp [Key.mod])

theorem groupMerge_steps (p g : Nat) (a s : Str) (vs : List PropVal) (kv : Kv) :
    Steps (fun k => k.mod ∈ [.grp p g]) kv (mergeWithAnonymous p g a s vs kv).2 := by
  unfold mergeWithAnonymous
  split
  · split <;> exact .refl
  · have h1 := (anon_touches p g a).run kv
    split
    · rename_i e; rw [e] at h1; exact h1
    · rename_i id kv1 e
      rw [e] at h1
      dsimp only
      split
      · exact h1
      · exact (h1.put _ (k := .groupSeq p g) trivial (by simp [Key.mod])).put _ (k := .real p g s) trivial (by simp [Key.mod])

theorem groupName_touches (p : Nat) (n d : Str) : Touches (getOrCreateGroup p n d) [.grpNames p] := by
  intro kv a kv' e
  unfold getOrCreateGroup at e
  split at e
  · split at e
    · cases e
    · cases e; exact .refl
  · split at e
    · cases e
    · rename_i id kv1 hs
      split at e
      · cases e
      · cases e
        exact (nextZeroSeq_touches (k := .groupNamesSeq p) trivial kv id kv1 hs).put _ (k := .groupName p n) trivial (by simp [Key.mod])

theorem deleteSessions_steps (p : Nat) (us : List Nat) (kv : Kv) : Steps (fun k => k.mod ∈ [.sess p]) kv (deleteSessions p us kv) := by
  induction us generalizing kv with
  | nil => exact .refl
  | cons u us ih =>
    exact Steps.trans (.del .refl (k := .session p u) trivial (by simp [Key.mod])) (ih _)

theorem sessionSet_touches (p u : Nat) (t : Time) : Touches (setCurrentTime p u t) [.sess p] := by
  intro kv a kv' e
  unfold setCurrentTime at e
  split at e
  · cases e; exact .put _ .refl (k := .session p u) trivial (by simp [Key.mod])
  · split at e
    · cases e
    · cases e; exact .put _ .refl (k := .session p u) trivial (by simp [Key.mod])

theorem clear_touches (p : Nat) : Touches (clearProject p) [.sess p] := by
  intro kv a kv' e
  unfold clearProject at e
  split at e
  · cases e
  · cases e; exact deleteSessions_steps _ _ _

theorem check_touches (p : Nat) (cb : Session → Except Err Bool) : Touches (checkForDeletion p cb) [.sess p] := by
  intro kv a kv' e
  unfold checkForDeletion at e
  split at e
  · cases e
  · split at e
    · cases e
    · cases e; exact deleteSessions_steps _ _ _

theorem backupCreate_touches (now : Time) (r : Backup) : Touches (backupCreate now r) [.coll .backups] := by
  intro kv a kv' e
  unfold backupCreate at e
  dsimp only at e
  have hc := create_touches (c := backupsC) (keys := [])
    (mk := fun id => { r with id := id, createdAt := now, updatedAt := none }) (by simp)
  split at e
  · split at e
    · cases e
    · split at e
      · cases e
      · exact hc kv a kv' e
  · exact hc kv a kv' e

theorem shortName_ok {t : DType} {s : Str} (h : t.shortName = some s) : '/' ∉ s := by
  unfold DType.shortName at h
  split at h <;> first | cases h <;> decide +kernel | cases h

theorem propCreate_touches (sys : Str → Str) (p : Nat) (ty : PropType) (now : Time) (r : Property) (f : Except Err Unit) :
    Touches (propCreate sys p ty now r f) [.coll (.proj p ty.coll), .order p, .coll (.proj p .global)] := by
  intro kv a kv' e
  unfold propCreate at e
  dsimp only at e
  split at e
  · cases e
  · split at e
    · cases e
    · rename_i id kv1 h1
      split at e
      · cases e
      · rename_i sh hsh
        split at e
        · cases e
        · rename_i o kv2 h2
          split at e
          · cases e
          · rename_i b hb
            split at e
            · cases e
            · cases e
              have s1 := (nextSeq_touches (wf_seq _) kv id kv1 h1).mono
                (P' := fun k => k.mod ∈ [.coll (.proj p ty.coll), .order p, .coll (.proj p .global)])
                (by intro k hk; simp [Key.mod] at hk ⊢; exact .inl hk)
              have s2 := (nextZeroSeq_touches (k := .orderSeq p sh) (shortName_ok hsh) kv1 o kv2 h2).mono
                (P' := fun k => k.mod ∈ [.coll (.proj p ty.coll), .order p, .coll (.proj p .global)])
                (by intro k hk; simp [Key.mod] at hk ⊢; exact .inr (.inl hk))
              rw [insertIndex_eq]
              refine ((s1.trans s2).put b (k := .data (.proj p ty.coll) id) trivial (by simp [Key.mod])).trans (updateIndex_steps _ ?_ _ _)
              intro q hq
              simp only [List.map_append, List.map_cons, List.map_nil, List.mem_append, List.mem_cons, List.not_mem_nil, or_false] at hq
              rcases hq with (rfl | rfl) | rfl
              · refine ⟨?_, by simp⟩
                rintro k ⟨⟩
                exact ⟨trivial, by simp [Key.mod]⟩
              · refine ⟨?_, by simp⟩
                intro k hk
                obtain ⟨s, -, rfl⟩ := Option.map_eq_some_iff.mp hk
                exact ⟨trivial, by simp [Key.mod]⟩
              · refine ⟨?_, by simp⟩
                rintro k ⟨⟩
                exact ⟨trivial, by simp [Key.mod, columnIdx]⟩

theorem propGetOrCreate_touches (sys : Str → Str) (p : Nat) (ty : PropType) (now : Time) (r : Property) (f : Except Err Unit) :
    Touches (propGetOrCreate sys p ty now r f) [.coll (.proj p ty.coll), .order p, .coll (.proj p .global)] := by
  intro kv a kv' e
  unfold propGetOrCreate at e
  split at e
  · cases e; exact .refl
  · exact propCreate_touches sys p ty now r f kv a kv' e
  · cases e

theorem accountSet_touches (m : Nat) (f : Account → Except Err Account) :
    Touches (accountsC.update m (fun _ => []) f) [.coll (.top .accounts)] := update_touches fun _ => pairs_nil _

/-- A request writes only in its parts of the store. -/
theorem exec_steps {Q : Type} (E : Env Q) (r : Req Q) (h : r.Ok) (kv : Kv) :
    Steps (fun k => k.mod ∈ r.mods) kv (r.exec E kv) := by
  have org2 : ∀ {α : Type} {c : Call α}, Touches c [.coll (.top .organizations)] →
      Touches c [.coll (.top .organizations), .coll (.top .accounts)] := fun h => h.mono (by simp)
  have acc2 : ∀ {α : Type} {c : Call α}, Touches c [.coll (.top .accounts)] →
      Touches c [.coll (.top .organizations), .coll (.top .accounts)] := fun h => h.mono (by simp)
  cases r with
  | teamCreate o now b n => exact Touches.run (create_touches (c := teamsC o) fun k hk => keys_one hk) kv
  | teamUpdate o id now b n =>
    refine Touches.run (update_touches (c := teamsC o) fun r => ?_) kv
    cases n with
    | none => exact pairs_nil _
    | some n => exact pairs_one _ .name (some n) (some r.name)
  | teamDelete o id => exact (delete_touches (teamsC o) _).run kv
  | eventCreate p now r => exact createEvent_steps p now r kv
  | eventGetOrCreate p now r =>
    simp only [Req.exec, getOrCreateEvent]
    split
    · exact .refl
    · exact createEvent_steps p now r kv
    · exact .refl
  | eventUpdate p id now q =>
    refine Touches.run (update_touches (c := eventsC p) fun r => ?_) kv
    unfold EventUpd.pairs
    refine PairsIn.append ?_ ?_
    · cases q.name with
      | none => exact pairs_nil _
      | some n => exact pairs_one _ .name (some n) (some r.name)
    · cases q.displayName with
      | none => exact pairs_nil _
      | some n => exact pairs_one _ .displayName n r.displayName
  | eventAttach w p id x => exact Touches.run (update_touches (c := eventsC p) fun r => pairs_nil _) kv
  | eventDetach w p id x => exact Touches.run (update_touches (c := eventsC p) fun r => pairs_nil _) kv
  | eventTryAttach p id ps => exact Touches.run (update_touches (c := eventsC p) fun r => pairs_nil _) kv
  | eventDelete p id => exact (delete_touches (eventsC p) _).run kv
  | eventRecord p => exact (nextSeq_touches (k := .recSeq p) trivial).run kv
  | accountCreate now r => exact Touches.run (create_touches (c := accountsC) fun k hk => keys_one hk) kv
  | accountUpdate id now q =>
    refine Touches.run (update_touches (c := accountsC) fun r => ?_) kv
    cases q.email with
    | none => exact pairs_nil _
    | some n => exact pairs_one _ .email (some n) (some r.email)
  | accountDelete id => exact (delete_touches (accountsC) _).run kv
  | orgCreate now b n =>
    exact Touches.run ((org2 (create_touches (c := orgsC) fun k hk => keys_one hk)).then fun _ =>
      (acc2 (accountSet_touches _ _)).then fun _ => Touches.ret _ _) kv
  | orgUpdate id now b n =>
    refine Touches.run (update_touches (c := orgsC) fun r => ?_) kv
    cases n with
    | none => exact pairs_nil _
    | some n => exact pairs_one _ .name (some n) (some r.name)
  | orgDelete id => exact (delete_touches (orgsC) _).run kv
  | addMember o m role =>
    exact Touches.run ((org2 (update_touches (c := orgsC) fun _ => pairs_nil _)).then fun _ =>
      (acc2 (accountSet_touches _ _)).then fun _ => Touches.ret _ _) kv
  | removeMember o m =>
    exact Touches.run ((org2 (update_touches (c := orgsC) fun _ => pairs_nil _)).then fun _ =>
      (acc2 (accountSet_touches _ _)).then fun _ => Touches.ret _ _) kv
  | changeMemberRole o m role =>
    exact Touches.run ((org2 (update_touches (c := orgsC) fun _ => pairs_nil _)).then fun _ =>
      (acc2 (accountSet_touches _ _)).then fun _ => Touches.ret _ _) kv
  | projectCreate now r =>
    refine Touches.run (create_touches (c := projectsC) fun k hk => ?_) kv
    simp only [List.mem_cons, Option.some.injEq, List.not_mem_nil, or_false] at hk
    rcases hk with rfl | rfl <;> exact ⟨_, _, rfl⟩
  | projectUpdate id now q =>
    refine Touches.run (update_touches (c := projectsC) fun r => ?_) kv
    unfold ProjectUpd.pairs
    refine PairsIn.append ?_ ?_
    · cases q.name with
      | none => exact pairs_nil _
      | some n => exact pairs_one _ .name (some n) (some r.name)
    · cases q.token with
      | none => exact pairs_nil _
      | some n => exact pairs_one _ .name (some n) (some r.token)
  | projectIncrement id => exact Touches.run (update_touches (c := projectsC) fun r => pairs_nil _) kv
  | projectDelete id => exact (delete_touches (projectsC) _).run kv
  | customCreate p now r =>
    refine Touches.run (ms := [.coll (.proj p .customEvents)]) ?_ kv
    intro kv a kv' e
    unfold customCreate at e
    split at e
    · cases e
    · split at e
      · cases e
      · exact create_touches (c := customC p) (fun k hk => keys_one hk) kv a kv' e
  | customUpdate p id now q =>
    refine Touches.run (ms := [.coll (.proj p .customEvents)]) ?_ kv
    intro kv a kv' e
    refine update_touches (c := customC p) (fun r => ?_) kv a kv' e
    unfold CustomUpd.pairs
    cases q.name with
    | none => exact pairs_nil _
    | some n => exact pairs_one _ .name (some n) (some r.name)
  | customDelete p id => exact (delete_touches (customC p) _).run kv
  | dashboardCreate p now r => exact Touches.run (create_touches (c := dashboardsC p) (by simp)) kv
  | dashboardUpdate p id now q => exact Touches.run (update_touches (c := dashboardsC p) fun r => pairs_nil _) kv
  | dashboardDelete p id => exact (delete_touches (dashboardsC p) _).run kv
  | reportCreate p now r => exact Touches.run (create_touches (c := reportsC E.bc p) (by simp)) kv
  | reportUpdate p id now q => exact Touches.run (update_touches (c := reportsC E.bc p) fun r => pairs_nil _) kv
  | reportDelete p id => exact (delete_touches (reportsC E.bc p) _).run kv
  | backupCreate now r => exact (backupCreate_touches now r).run kv
  | backupStatus id now st => exact Touches.run (update_touches (c := backupsC) fun r => pairs_nil _) kv
  | backupDelete id => exact (delete_touches (backupsC) _).run kv
  | dictGet p t d v => exact (dict_touches h v).run kv
  | dictPut p t d n v => exact (dictPut_touches h.1 n v).run kv
  | anonymous p g s => exact (anon_touches p g s).run kv
  | groupGet p g s vs => exact (groupGet_touches p g s vs).run kv
  | groupUpdate p g s vs => exact (groupUpdate_touches p g s vs).run kv
  | groupMerge p g a s vs => exact groupMerge_steps p g a s vs kv
  | groupName p n d => exact (groupName_touches p n d).run kv
  | groupRecord p g => exact (nextSeq_touches (k := .groupRecSeq p g) trivial).run kv
  | sessionSet p u t => exact (sessionSet_touches p u t).run kv
  | sessionClear p => exact (clear_touches p).run kv
  | sessionCheck p cb => exact (check_touches p cb).run kv
  | bookmarkCreate p r =>
    refine Touches.run (ms := [.bm p r.createdBy]) ?_ kv
    intro kv a kv' e
    cases e
    exact .put _ .refl (k := .bookmark p r.createdBy r.id) trivial (by simp [Key.mod])
  | bookmarkDelete p a id =>
    refine Touches.run (ms := [.bm p a]) ?_ kv
    intro kv x kv' e
    unfold Meta.bookmarkDelete at e
    split at e
    · cases e
    · split at e
      · cases e
      · cases e
        exact .del .refl (k := .bookmark p a id) trivial (by simp [Key.mod])
  | propCreate p ty now r f => exact (propCreate_touches _ p ty now r f).run kv
  | propGetOrCreate p ty now r f => exact (propGetOrCreate_touches _ p ty now r f).run kv
  | propUpdate p ty id now q =>
    refine Touches.run (update_touches (c := propsC p ty) fun r => ?_) kv
    unfold PropUpd.pairs
    cases q.displayName with
    | none => exact pairs_nil _
    | some n => exact pairs_one _ .displayName n r.displayName
  | propDelete p ty id => exact (delete_touches (propsC p ty) _).run kv
  | settings s =>
    refine Touches.run (ms := [.config]) ?_ kv
    intro kv x kv' e
    unfold saveSettings at e
    split at e
    · cases e
    · cases e
      exact .put _ .refl (k := .config) trivial (by simp [Key.mod])

/-- The store after a history. -/
def runReqs {Q : Type} (E : Env Q) (rs : List (Req Q)) (kv : Kv) : Kv := rs.foldl (fun kv r => r.exec E kv) kv

theorem runReqs_snoc {Q : Type} (E : Env Q) (rs : List (Req Q)) (r : Req Q) (kv : Kv) :
    runReqs E (rs ++ [r]) kv = r.exec E (runReqs E rs kv) := by simp [runReqs]

/-- Reached by a history of requests from the empty store. -/
inductive Hist {Q : Type} (E : Env Q) : Nat → Kv → Prop
  | start : Hist E 0 []
  | step {n : Nat} {kv : Kv} (r : Req Q) : Hist E n kv → r.Ok → Hist E (n + 1) (r.exec E kv)

theorem Hist.clean {Q : Type} {E : Env Q} {n : Nat} {kv : Kv} (h : Hist E n kv) : Clean kv := by
  induction h with
  | start => exact clean_empty
  | step r _ hr ih => exact (exec_steps E r hr _).clean ih

theorem Hist.of_run {Q : Type} (E : Env Q) (rs : List (Req Q)) (h : ∀ r ∈ rs, r.Ok) : Hist E rs.length (runReqs E rs []) := by
  have key : ∀ (rs : List (Req Q)) (n : Nat) (kv : Kv), (∀ r ∈ rs, r.Ok) → Hist E n kv → Hist E (n + rs.length) (runReqs E rs kv) := by
    intro rs
    induction rs with
    | nil => intro n kv _ h; exact h
    | cons r rs ih =>
      intro n kv h hh
      have := ih (n + 1) (r.exec E kv) (fun x hx => h x (by simp [hx])) (hh.step r (h r (by simp)))
      rw [List.length_cons, show n + (rs.length + 1) = n + 1 + rs.length by omega]
      exact this
  have := key rs 0 [] h .start
  rwa [Nat.zero_add] at this

end OptiPrism.Meta
