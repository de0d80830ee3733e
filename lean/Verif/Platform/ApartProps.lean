import Verif.Platform.ApartBase

/-!
# C152: projects are apart

Somebody without a part in a project (`Stranger`) learns nothing of what is kept in it and changes nothing in it, whatever they ask of the API.
-/

namespace OptiPrism.Platform

open OptiPrism.Meta

variable {N : Type}

/-! ## Calls -/

/-- The project kept under a key: the keys of `hide p` and `only p` are told apart by it. -/
theorem C152_keys (p : Nat) (k : Key) : inProject p k.render = true ↔ k.proj? = some p := by
  rw [inProject_render, decide_eq_true_iff]

/-- Two stores that differ in a project only give the same answer to a stranger to it, are left differing in it only, and what is in it is left as it was. -/
theorem C152_call {Q : Type} {E : Env Q} {n : Nat} {kv kv' : Kv} (hh : Hist E n kv) {p : Nat} (same : hide p kv = hide p kv') (C : AuthEnv) (A : AdminEnv N)
    (now : Int) (stamp : Time) (salt : Nat) (c : ApiCall N) (hs : ∀ t ctx, c.token = some t → authorize now t kv = .ok ctx → Stranger ctx p) :
    (c.run C A now stamp salt kv).1 = (c.run C A now stamp salt kv').1 ∧
    hide p (c.run C A now stamp salt kv).2 = hide p (c.run C A now stamp salt kv').2 ∧
    only p (c.run C A now stamp salt kv).2 = only p kv ∧ only p (c.run C A now stamp salt kv').2 = only p kv' := by
  obtain ⟨a, b⟩ := call_beside C A now stamp salt c (fun id r e => ((hist_projectsOk hh).get e).2.2) hs ⟨same, rfl, rfl⟩
  exact ⟨a, b.same, b.left, b.right⟩

/-- What a call does in which project. -/
inductive ApiCall.Does : ApiCall N → Nat → ProjOp → Prop
  | schema (t : Tok) (p : Nat) (c : SchemaCall N) : Does (.schema t p c) p c.op
  | report (t : Tok) (p : Nat) (c : ReportCall N) : Does (.report t p c) p c.op
  | update (t : Tok) (p : Nat) (u : JProjectUpd) : Does (.admin t (.projectUpdate p u)) p .projectUpdate
  | bookmark (t : Tok) (p : Nat) (name : Str) (u : Option (JReportQuery N)) : Does (.admin t (.bookmarkCreate p name u)) p .bookmarkCreate

/-- What changes a project is a call for something that writes in this project, by somebody who may do it there. -/
theorem C152_changed {Q : Type} {E : Env Q} {n : Nat} {kv : Kv} (hh : Hist E n kv) {p : Nat} (C : AuthEnv) (A : AdminEnv N)
    (now : Int) (stamp : Time) (salt : Nat) (c : ApiCall N) (hc : only p (c.run C A now stamp salt kv).2 ≠ only p kv) :
    ∃ (t : Tok) (ctx : Ctx) (op : ProjOp), c.token = some t ∧ authorize now t kv = .ok ctx ∧ c.Does p op ∧ op.writes = true ∧ op.allowed ctx p = true := by
  have hk : ∀ id r, projectsC.getById id kv = .ok r → r.id = id := fun id r e => ((hist_projectsOk hh).get e).2.2
  have h0 : Sides p (only p kv) (only p kv) kv kv := ⟨rfl, rfl, rfl⟩
  have key : ∀ (t : Tok) (f : Ctx → ApiReply N × Kv) (P : Ctx → Prop), (∀ ctx, only p (f ctx).2 ≠ only p kv → P ctx) →
      only p (asCaller now t kv f).2 ≠ only p kv → ∃ ctx, authorize now t kv = .ok ctx ∧ P ctx := by
    intro t f P hf hn
    unfold asCaller at hn
    cases ha : authorize now t kv with
    | error e => rw [ha] at hn; exact absurd rfl hn
    | ok ctx => rw [ha] at hn; exact ⟨ctx, rfl, hf ctx hn⟩
  cases c with
  | auth c => exact absurd (auth_beside h0 C now stamp salt c).2.left hc
  | schema t q c =>
    obtain ⟨ctx, ha, x⟩ := key t _ (fun ctx => ∃ op : ProjOp, (ApiCall.schema t q c).Does p op ∧ op.writes = true ∧ op.allowed ctx p = true) (fun ctx hn => by
      by_cases hq : q = p
      · subst hq
        refine ⟨c.op, .schema t q c, ?_, ?_⟩
        · cases hw : c.op.writes with
          | true => rfl
          | false => exact absurd (congrArg (only q) (C145_reads A.R ctx q stamp c kv hw)) hn
        · cases hw : c.op.allowed ctx q with
          | true => rfl
          | false => unfold SchemaCall.run at hn; rw [hw] at hn; exact absurd rfl hn
      · exact absurd (schema_beside hq A.R ctx stamp c h0).2.left hn) hc
    obtain ⟨op, x⟩ := x
    exact ⟨t, ctx, op, rfl, ha, x⟩
  | report t q c =>
    obtain ⟨ctx, ha, x⟩ := key t _ (fun ctx => ∃ op : ProjOp, (ApiCall.report t q c).Does p op ∧ op.writes = true ∧ op.allowed ctx p = true) (fun ctx hn => by
      by_cases hq : q = p
      · subst hq
        refine ⟨c.op, .report t q c, ?_, ?_⟩
        · cases c <;> first | rfl | (unfold ReportCall.run at hn; split at hn <;> exact absurd rfl hn)
        · cases hw : c.op.allowed ctx q with
          | true => rfl
          | false => unfold ReportCall.run at hn; rw [hw] at hn; exact absurd rfl hn
      · exact absurd (report_beside hq A ctx stamp c h0).2.left hn) hc
    obtain ⟨op, x⟩ := x
    exact ⟨t, ctx, op, rfl, ha, x⟩
  | admin t c =>
    obtain ⟨ctx, ha, x⟩ := key t _ (fun ctx => ∃ op : ProjOp, (ApiCall.admin t c).Does p op ∧ op.writes = true ∧ op.allowed ctx p = true) (fun ctx hn => by
      by_cases hq : c.project = some p
      · cases hw : c.allowed ctx with
        | false => unfold AdminCall.run at hn; rw [hw] at hn; exact absurd rfl hn
        | true =>
          cases c <;> first | (cases hq; done) | skip
          · cases hq; exact ⟨.projectUpdate, .update .., rfl, hw⟩
          · cases hq; exact ⟨.bookmarkCreate, .bookmark .., rfl, hw⟩
          · exact absurd (congrArg (only p) (C147_reads A ctx stamp _ kv rfl)) hn
      · exact absurd (admin_beside A ctx stamp c hq hk h0).2.left hn) hc
    obtain ⟨op, x⟩ := x
    exact ⟨t, ctx, op, rfl, ha, x⟩
  | settingsGet t =>
    obtain ⟨_, _, x⟩ := key t _ (fun _ => False) (fun ctx hn => hn rfl) hc
    exact x.elim
  | settingsSet t u =>
    obtain ⟨_, _, x⟩ := key t _ (fun _ => False) (fun ctx hn => hn (setSettings_beside h0).2.left) hc
    exact x.elim

/-- Somebody who may only read in a project changes it by nothing but bookmarks. -/
theorem C152_readonly {Q : Type} {E : Env Q} {n : Nat} {kv : Kv} (hh : Hist E n kv) {p : Nat} (C : AuthEnv) (A : AdminEnv N)
    (now : Int) (stamp : Time) (salt : Nat) (c : ApiCall N) (hr : ∀ t ctx, c.token = some t → authorize now t kv = .ok ctx →
      ctx.role ≠ some .admin ∧ ¬ HasRole ctx.organizations ctx.organizationId .owner ∧ ¬ HasRole ctx.organizations ctx.organizationId .admin ∧
      HasRole ctx.projects p .reader)
    (hc : only p (c.run C A now stamp salt kv).2 ≠ only p kv) : ∃ t name u, c = .admin t (.bookmarkCreate p name u) := by
  obtain ⟨t, ctx, op, ht, ha, hd, hw, hp⟩ := C152_changed hh C A now stamp salt c hc
  obtain ⟨h1, h2, h3, h4⟩ := hr t ctx ht ha
  unfold ProjOp.allowed at hp
  rw [C42_project] at hp
  have hg : ProjGrants .reader op.perm := by
    rcases hp with e | e | e | ⟨r, e, g⟩
    · exact absurd e h1
    · exact absurd e h2
    · exact absurd e h3
    · rw [← roleFor_iff] at e h4
      rw [h4] at e
      cases e
      exact g
  have hb : op = .bookmarkCreate := by
    cases op <;> first | rfl | (cases hw; done) | (cases hg <;> first | contradiction | (rename_i x; exact absurd rfl x))
  subst hb
  generalize hx : ProjOp.bookmarkCreate = x at hd
  cases hd with
  | schema t p c => cases c <;> cases hx
  | report t p c => cases c <;> cases hx
  | update => cases hx
  | bookmark t p name u => exact ⟨t, name, u, rfl⟩

/-! ## Requests -/

/-- The token of a call is the one of the request. -/
theorem callOf_token (d : Draw) (r : HttpReq N) (h : Handler) (args : List Arg) :
    ∀ c, callOf d r h args = .api c → ∀ t, c.token = some t → r.token = some t := by
  by_cases ho : h.outside = true
  · intro c e
    cases h <;> first | (cases ho; done) | cases e
  · refine callOf_cases (P := fun w => ∀ c, w = .api c → ∀ t, c.token = some t → r.token = some t) (Bool.eq_false_iff.mpr ho) (fun c e => by cases e) ?_ ?_ ?_
    · intro w e c hw t ht
      subst hw
      unfold openCall at e
      split at e <;> (cases e; try cases ht)
    · intro t w et e c hw t' ht
      subst hw
      unfold plainCall ofGroup at e
      split at e <;> first | (cases e; done) | (cases e; cases ht; first | exact et | done) | (split at e <;> first | (cases e; cases ht; exact et) | (cases e; done))
    · intro t w et e c hw t' ht
      subst hw
      unfold bodyCall ofGroup at e
      split at e <;> first | (cases e; done) | (cases e; cases ht; first | exact et | done) |
        (dsimp only at e; split at e <;> first | (cases e; cases ht; exact et) | (cases e; done)) | (obtain ⟨y, -, e⟩ := Option.map_eq_some_iff.1 e; cases e; cases ht; done)

/-- What is read from the tables for a request depends on a project only if the request is for this project, by somebody who is no stranger to it. -/
def WebEnv.Apart (W : WebEnv N) (p : Nat) : Prop := ∀ h args ctx kv kv', (args.head? = some (.num p) → Stranger ctx p) → hide p kv = hide p kv' →
  W.query h args ctx kv = W.query h args ctx kv'

/-- A request that goes neither to the ingester nor to the making of projects. -/
def HttpReq.Usual (W : WebEnv N) (d : Draw) (r : HttpReq N) (kv : Kv) : Prop :=
  ∀ h args, dispatch W.D (caller d r kv).toOption.isSome r.meth r.path = .run h args → h ≠ .track ∧ h ≠ .identify ∧ h ≠ .projectCreate

/-- As `C152_call`, for a request. Missing: `track` and `identify` (whose caller shows the token of a project), the making of projects. -/
theorem C152_request_partial {W : WebEnv N} {p : Nat} (hW : W.Apart p) {Q : Type} {E : Env Q} {n : Nat} {kv kv' : Kv} (hh : Hist E n kv)
    (same : hide p kv = hide p kv') (d : Draw) (r : HttpReq N) (hu : r.Usual W d kv) (hs : ∀ ctx, caller d r kv = .ok ctx → Stranger ctx p) :
    (serve W d r kv).1 = (serve W d r kv').1 ∧ hide p (serve W d r kv).2 = hide p (serve W d r kv').2 ∧
    only p (serve W d r kv).2 = only p kv ∧ only p (serve W d r kv').2 = only p kv' := by
  have h : Sides p (only p kv) (only p kv') kv kv' := ⟨same, rfl, rfl⟩
  have hc : caller d r kv = caller d r kv' := by
    unfold caller
    split
    · rfl
    · exact authorize_beside h
  suffices Level p (only p kv) (only p kv') (serve W d r kv) (serve W d r kv') from ⟨this.1, this.2.same, this.2.left, this.2.right⟩
  unfold HttpReq.Usual at hu
  unfold serve
  rw [← hc]
  split
  · exact ⟨rfl, h⟩
  · exact ⟨rfl, h⟩
  · exact ⟨rfl, h⟩
  · exact ⟨rfl, h⟩
  · exact ⟨rfl, h⟩
  · next hd args e =>
    have tk := callOf_token d r hd args
    have nr : callOf d r hd args ≠ .rest := fun z => by
      obtain ⟨a, b, c⟩ := hu hd args e
      rcases callOf_rest z with z | z | z <;> contradiction
    revert tk nr
    generalize callOf d r hd args = c
    intro tk nr
    cases c with
    | badBody => exact ⟨rfl, h⟩
    | noGroup => exact ⟨rfl, h⟩
    | api c =>
      refine Level.of (f := ApiReply.http hd) (call_beside W.C W.A d.now d.stamp d.salt c (fun id r e => ((hist_projectsOk hh).get e).2.2) (fun t ctx ht ha => ?_) h)
      refine hs ctx ?_
      unfold caller
      rw [tk c rfl t ht]
      exact ha
    | query =>
      unfold WebCall.run
      dsimp only
      split
      · next ctx hx => exact ⟨by rw [hW hd args ctx kv kv' (fun _ => hs ctx hx) same], h⟩
      · exact ⟨rfl, h⟩
    | rest => exact absurd rfl nr

/-- What changes a project is a request by somebody who may do something that writes in this project. Missing: as before. -/
theorem C152_writer_partial {W : WebEnv N} {p : Nat} {Q : Type} {E : Env Q} {n : Nat} {kv : Kv} (hh : Hist E n kv) (d : Draw) (r : HttpReq N)
    (hu : r.Usual W d kv) (hc : only p (serve W d r kv).2 ≠ only p kv) :
    ∃ (ctx : Ctx) (op : ProjOp), caller d r kv = .ok ctx ∧ op.writes = true ∧ op.allowed ctx p = true := by
  rcases serve_cases W d r kv with y | ⟨h, args, g, y⟩
  · rw [y] at hc; exact absurd rfl hc
  · rw [y] at hc
    have tk := callOf_token d r h args
    have nr : callOf d r h args ≠ .rest := fun z => by
      obtain ⟨a, b, c⟩ := hu h args g
      rcases callOf_rest z with z | z | z <;> contradiction
    revert hc tk nr
    generalize callOf d r h args = c
    intro hc tk nr
    cases c with
    | badBody => exact absurd rfl hc
    | noGroup => exact absurd rfl hc
    | api c =>
      obtain ⟨t, ctx, op, e1, e2, -, e3⟩ := C152_changed hh W.C W.A d.now d.stamp d.salt c hc
      refine ⟨ctx, op, ?_, e3⟩
      unfold caller
      rw [tk c rfl t e1]
      exact e2
    | query => exact absurd (congrArg (only p) (idle_query _ _ _ _ _ _)) hc
    | rest => exact absurd rfl nr

/-- Who is told something else because of what is in a project has a part in it. Missing: as before. -/
theorem C152_reader_partial {W : WebEnv N} {p : Nat} (hW : W.Apart p) {Q : Type} {E : Env Q} {n : Nat} {kv kv' : Kv} (hh : Hist E n kv)
    (same : hide p kv = hide p kv') (d : Draw) (r : HttpReq N) (hu : r.Usual W d kv) (hr : (serve W d r kv).1 ≠ (serve W d r kv').1) :
    ∃ ctx, caller d r kv = .ok ctx ∧ (ctx.role = some .admin ∨ HasRole ctx.organizations ctx.organizationId .owner ∨
      HasRole ctx.organizations ctx.organizationId .admin ∨ ∃ x, HasRole ctx.projects p x) := by
  cases hc : caller d r kv with
  | error e => exact absurd (C152_request_partial hW hh same d r hu fun ctx h => by rw [hc] at h; cases h).1 hr
  | ok ctx =>
    refine ⟨ctx, rfl, Classical.byContradiction fun hn => hr (C152_request_partial hW hh same d r hu fun ctx' h => ?_).1⟩
    rw [hc] at h
    cases h
    exact ⟨fun e => hn (.inl e), fun e => hn (.inr (.inl e)), fun e => hn (.inr (.inr (.inl e))), fun x e => hn (.inr (.inr (.inr ⟨x, e⟩)))⟩

/-- All requests are usual, and by strangers (or by nobody known) when they are made. -/
def ByStrangers (W : WebEnv N) (p : Nat) : List (Draw × HttpReq N) → Kv → Prop
  | [], _ => True
  | (d, r) :: l, kv => r.Usual W d kv ∧ (∀ ctx, caller d r kv = .ok ctx → Stranger ctx p) ∧ ByStrangers W p l (serve W d r kv).2

/-- However long strangers talk to the API, what they are told does not depend on what is in the project, and that is in the end what it was. Missing:
as before. -/
theorem C152_conversation_partial {W : WebEnv N} {p : Nat} (hW : W.Apart p) {E : Env CReportQuery} (hE : E.bc = W.A.bc) (hO : W.Open E)
    (l : List (Draw × HttpReq N)) (hl : ∀ x ∈ l, x.2.body.Ok W.A) : ∀ {n : Nat} {kv kv' : Kv}, Hist E n kv → n + 7 * l.length < 2 ^ 62 →
    hide p kv = hide p kv' → ByStrangers W p l kv →
    (serveAll W l kv).1 = (serveAll W l kv').1 ∧ hide p (serveAll W l kv).2 = hide p (serveAll W l kv').2 ∧
    only p (serveAll W l kv).2 = only p kv ∧ only p (serveAll W l kv').2 = only p kv' := by
  induction l with
  | nil => intro n kv kv' _ _ same _; exact ⟨rfl, same, rfl, rfl⟩
  | cons x l ih =>
    intro n kv kv' h hn same hs
    obtain ⟨d, r⟩ := x
    obtain ⟨s1, s2, s3⟩ := hs
    simp only [List.length_cons] at hn
    obtain ⟨rs, l1, l2, l3⟩ := C151_requests W hE hO h (by omega) d r (hl _ (List.mem_cons_self ..))
    have h1 := runReqs_append' rs h l2
    rw [← l3] at h1
    obtain ⟨a, b, c, e⟩ := C152_request_partial hW h same d r s1 s2
    obtain ⟨a', b', c', e'⟩ := ih (fun x hx => hl x (List.mem_cons_of_mem _ hx)) h1 (by omega) b s3
    refine ⟨?_, b', c'.trans c, e'.trans e⟩
    show _ :: _ = _ :: _
    rw [a, a']

/-! ## Two stores -/

theorem exWeb_apart (p : Nat) : exWeb.Apart p := fun _ _ _ _ _ _ _ => rfl

/-- An event is made in project 1. -/
def exMake (t : Tok) : HttpReq Int :=
  exAsk .post ["api", "v1", "projects", "1", "schema", "events"] (some t) (.eventNew ⟨none, "buy".toList, none, none, .enabled, false⟩)

/-- It is looked at. -/
def exLook (t : Tok) : HttpReq Int := exAsk .get ["api", "v1", "projects", "1", "schema", "events", "1"] (some t)

/-- The store of the examples, with the event. -/
noncomputable def exBought : Kv := (serve exWeb exDraw (exMake exRoot) exWorld.kv).2

/-- Whether a request goes to the ingester or makes a project. -/
def exUnusual (r : HttpReq Int) (kv : Kv) : Bool :=
  match dispatch exVerbatim (caller exDraw r kv).toOption.isSome r.meth r.path with
  | .run .track _ | .run .identify _ | .run .projectCreate _ => true
  | _ => false

theorem exUsual {r : HttpReq Int} {kv : Kv} (h : exUnusual r kv = false) : r.Usual exWeb exDraw kv := by
  intro hd args e
  unfold exUnusual at h
  rw [show dispatch exVerbatim _ _ _ = _ from e] at h
  refine ⟨?_, ?_, ?_⟩ <;> (rintro rfl; cases h)

set_option maxRecDepth 100000 in
/-- Account 2 is a member of the organization, and a stranger to project 1. -/
theorem exStranger (ctx : Ctx) (h : authorize 0 exAcc2 exWorld.kv = .ok ctx) : Stranger ctx 1 := by
  have e : ((authorize 0 exAcc2 exWorld.kv).toOption.map fun c =>
      decide (c.role ≠ some .admin) && decide (roleFor c.organizations c.organizationId ≠ some .owner) &&
      decide (roleFor c.organizations c.organizationId ≠ some .admin) && (roleFor c.projects 1).isNone) = some true := by decide +kernel
  rw [h] at e
  simp only [Except.toOption, Option.map_some, Option.some.injEq, Bool.and_eq_true, decide_eq_true_eq, Option.isNone_iff_eq_none] at e
  obtain ⟨⟨⟨e1, e2⟩, e3⟩, e4⟩ := e
  exact ⟨e1, by rwa [← roleFor_iff], by rwa [← roleFor_iff], fun r => by rw [← roleFor_iff, e4]; nofun⟩

set_option maxRecDepth 100000 in
/-- Two stores as in `C152_request_partial`: the same outside project 1, different in it. The administrator, who made the difference as in
`C152_writer_partial`, can tell them apart as in `C152_reader_partial`; account 2 cannot, nor make it. -/
example : hide 1 exWorld.kv = hide 1 exBought ∧ only 1 exWorld.kv ≠ only 1 exBought ∧
    exCode (serve exWeb exDraw (exMake exRoot) exWorld.kv) = some 201 ∧
    exCode (serve exWeb exDraw (exLook exRoot) exWorld.kv) = some 404 ∧ exCode (serve exWeb exDraw (exLook exRoot) exBought) = some 200 ∧
    exCode (serve exWeb exDraw (exLook exAcc2) exWorld.kv) = some 403 ∧ exCode (serve exWeb exDraw (exLook exAcc2) exBought) = some 403 ∧
    exCode (serve exWeb exDraw (exMake exAcc2) exWorld.kv) = some 403 ∧ exCode (serve exWeb exDraw (exMake exAcc2) exBought) = some 403 ∧
    Hist exEnv 5 exWorld.kv ∧ exWeb.Apart 1 ∧ (exLook exAcc2).Usual exWeb exDraw exWorld.kv ∧ (exMake exRoot).Usual exWeb exDraw exWorld.kv ∧
    (caller exDraw (exLook exAcc2) exWorld.kv).toOption.isSome = true ∧
    ∀ ctx, caller exDraw (exLook exAcc2) exWorld.kv = .ok ctx → Stranger ctx 1 := by
  refine ⟨?_, ?_, ?_, ?_, ?_, ?_, ?_, ?_, ?_, Hist.of_run exEnv exStore exStore_ok, exWeb_apart 1, exUsual ?_, exUsual ?_, ?_, exStranger⟩ <;> decide +kernel

/-- As `exStore`, but account 2 may read in project 1. -/
def exReaders : List (Req Unit) :=
  [.settings sampleSettings,
   .accountCreate ⟨0, 0⟩ { Meta.exAcc "root".toList none with passwordHash := "rootpw".toList, role := some .admin },
   .accountCreate ⟨0, 0⟩ { Meta.exAcc "b".toList none with passwordHash := "bbb".toList, projects := some [(1, .reader)] },
   .orgCreate ⟨0, 0⟩ 1 "org".toList, .addMember 1 2 .member]

set_option maxRecDepth 100000 in
/-- Somebody as in `C152_readonly`, who may look at the events but not make one, and may make a bookmark. -/
example : ((authorize 0 exAcc2 (runReqs exEnv exReaders [])).toOption.map fun c => (c.role, roleFor c.organizations c.organizationId, roleFor c.projects 1)) =
      some (none, some .member, some .reader) ∧
    exCode (serve exWeb exDraw (exLook exAcc2) (runReqs exEnv exReaders [])) = some 404 ∧
    exCode (serve exWeb exDraw (exMake exAcc2) (runReqs exEnv exReaders [])) = some 403 ∧
    exCode (serve exWeb exDraw (exAsk .post ["api", "v1", "projects", "1", "bookmarks"] (some exAcc2) (.bookmark none)) (runReqs exEnv exReaders [])) = some 201 := by
  refine ⟨?_, ?_, ?_, ?_⟩ <;> decide +kernel

/-- As in `C152_conversation_partial`: account 2 tries to look, and to make an event. -/
example : ByStrangers exWeb 1 [(exDraw, exLook exAcc2), (exDraw, exMake exAcc2)] exWorld.kv := by
  have e : (serve exWeb exDraw (exLook exAcc2) exWorld.kv).2 = exWorld.kv := C151_safe exWeb exDraw (exLook exAcc2) exWorld.kv (.inl rfl)
  refine ⟨exUsual (by decide +kernel), exStranger, ?_⟩
  rw [e]
  exact ⟨exUsual (by decide +kernel), exStranger, trivial⟩

end OptiPrism.Platform
