import Verif.Ingest.Apart
import Verif.Ingest.IngestProps
import Verif.Meta.UpdateProps

/-!
# C153: what is sent for one project is apart from the others
-/

namespace OptiPrism.Ingest

open OptiPrism.Meta
open OptiPrism.Storage (Bytes Value NamedValue Tbl InsertErr ColType Field)

variable {α : Type} {p : Nat}

/-! ## The statement -/

/-- Two runs that differ only by what is in a project: the same outcome, the same tables; the metadata agree outside the project as before and are
unchanged in it; and the same rows were added, those of one other project. -/
structure Unaware (p : Nat) (w w' : World) (x y : Except Fail α × World) : Prop where
  outcome : x.1 = y.1
  tables : x.2.tbl = y.2.tbl
  outside : hide p x.2.kv = hide p y.2.kv
  inside : only p x.2.kv = only p w.kv
  inside' : only p y.2.kv = only p w'.kv
  rows : ∃ q l, q ≠ p ∧ x.2.rows = w.rows ++ l ∧ y.2.rows = w'.rows ++ l ∧ ∀ r ∈ l, OwnRow q r

/-- A row is of one project. -/
theorem ownRow_one {p q : Nat} (hp : p < 2 ^ 64) (hq : q < 2 ^ 64) {x : Str × List NamedValue} (h : OwnRow p x) (h' : OwnRow q x) : p = q := by
  unfold OwnRow at h h'
  rw [h] at h'
  simp only [Option.some.injEq, nv, i64, NamedValue.mk.injEq, Value.int64.injEq, true_and] at h'
  have := congrArg BitVec.toNat h'
  rw [BitVec.toNat_ofNat, BitVec.toNat_ofNat, Nat.mod_eq_of_lt hp, Nat.mod_eq_of_lt hq] at this
  exact this

theorem Off.unaware {P : Str × List NamedValue → Prop} {q : Nat} (hq : q ≠ p) (hP : ∀ x, P x → OwnRow q x) {x : M α} (hx : Off p P x) {w w' : World}
    (same : hide p w.kv = hide p w'.kv) (tables : w.tbl = w'.tbl) : Unaware p w w' (x w) (x w') := by
  obtain ⟨a, b⟩ := hx (only p w.kv) (only p w'.kv) w.rows w'.rows w w' ⟨⟨same, rfl, rfl⟩, tables, [], by simp, by simp, fun _ h => by cases h⟩
  obtain ⟨l, l1, l2, l3⟩ := b.rows
  exact ⟨a, b.tbl, b.kv.same, b.kv.left, b.kv.right, q, l, hq, l1, l2, fun r hr => hP r (l3 r hr)⟩

theorem read_error {f : Kv → Except Err α} {β : Type} {g : α → M β} {w : World} {e : Err} (h : f w.kv = .error e) :
    (read f).bind g w = (.error (.metadata e), w) := by
  simp only [read, callRaw, M.bind, h]

theorem read_found {f : Kv → Except Err α} {β : Type} {g : α → M β} {w : World} {a : α} (h : f w.kv = .ok a) : (read f).bind g w = g a w := by
  simp only [read, callRaw, M.bind, h]

/-- A request with a token: refused on both sides, or for the same project. -/
theorem byToken {tok : Str} {g : Project → M α} {w w' : World} (same : hide p w.kv = hide p w'.kv) (tables : w.tbl = w'.tbl)
    (hp : ∀ r, getByToken tok w.kv = .ok r → r.id ≠ p) (hg : ∀ r : Project, r.id ≠ p → Off p (OwnRow r.id) (g r)) :
    Unaware p w w' ((read (getByToken tok)).bind g w) ((read (getByToken tok)).bind g w') := by
  have e : getByToken tok w.kv = getByToken tok w'.kv :=
    Sides.getBy (o := only p w.kv) (o' := only p w'.kv) ⟨same, rfl, rfl⟩ (c := projectsC) (by nofun) .name tok
  cases h : getByToken tok w.kv with
  | error x =>
    rw [read_error h, read_error (e ▸ h)]
    exact ⟨rfl, tables, same, rfl, rfl, p + 1, [], by omega, by simp, by simp, fun _ h => by cases h⟩
  | ok r =>
    rw [read_found h, read_found (e ▸ h)]
    exact (hg r (hp r h)).unaware (hp r h) (fun _ h => h) same tables

/-! ## Requests -/

/-- The transformers there are look at the project of the request only. -/
theorem C153_transformers (D : Detect) (sys : Str → Str) (now : Time) (p : Nat) : (detectEnv D sys now).Apart p := by
  intro q req l kv kv' hq same
  have h : Sides p (only p kv) (only p kv') kv kv' := ⟨same, rfl, rfl⟩
  have key : ∀ (xs : List (Str × Str)) (l : List (Property × PropValue)), addFound kv q xs l = addFound kv' q xs l := by
    intro xs
    induction xs with
    | nil => intro l; rfl
    | cons x xs ih =>
      intro l
      unfold addFound
      rw [h.getBy (c := propsC q .event) (proj_off hq _)]
      split
      · rfl
      · exact ih _
  have hu : ∀ l, userAgent D kv q req l = userAgent D kv' q req l := by
    intro l
    unfold userAgent
    split
    · rfl
    · exact key _ _
  have hg : ∀ l, geo D kv q req l = geo D kv' q req l := by
    intro l
    unfold geo
    split
    · rfl
    · rfl
    · exact key _ _
  unfold detectEnv
  dsimp only
  rw [hu]
  simp only [hg]

/-- A track request with a token that is not the project's. -/
theorem C153_track {E : Env Track} (hE : E.Apart p) {tok : Str} {req : Track} {w w' : World} (same : hide p w.kv = hide p w'.kv) (tables : w.tbl = w'.tbl)
    (hp : ∀ r, getByToken tok w.kv = .ok r → r.id ≠ p) : Unaware p w w' (executeTrack E tok req w) (executeTrack E tok req w') :=
  byToken same tables hp fun r hr => (resolveTrack_off hr hE).bind fun _ => (sendTrack_off hr).bind fun _ =>
    (Off.call (update_plain (c := projectsC) (by nofun) _)).bind fun _ => .pure _

/-- An identify request with a token that is not the project's. -/
theorem C153_identify {sys : Str → Str} {now : Time} {tok : Str} {req : Identify} {w w' : World} (same : hide p w.kv = hide p w'.kv) (tables : w.tbl = w'.tbl)
    (hp : ∀ r, getByToken tok w.kv = .ok r → r.id ≠ p) : Unaware p w w' (executeIdentify sys now tok req w) (executeIdentify sys now tok req w') :=
  byToken same tables hp fun r hr => (Off.call (getOrCreateGroup_aloof hr)).bind fun _ => (resolveProperties_off hr).bind fun _ =>
    Off.bind (.each (fun _ => (propertyToValue_off hr).bind fun _ => .pure _) _) fun _ => (Off.call (groupCreateOrUpdate_aloof hr)).bind fun _ =>
    (Off.call (dictCreateKey_aloof hr)).bind fun _ => sendIdentify_off hr

theorem setupEvent_off {P : Str × List NamedValue → Prop} {q : Nat} (hq : q ≠ p) {now : Time} {x : Str} : Off p P (setupEvent now q x) := by
  unfold setupEvent
  exact Off.raw fun _ _ _ _ h => getOrCreateEvent_level hq h

theorem initProject_off {P : Str × List NamedValue → Prop} {q : Nat} (hq : q ≠ p) {sys : Str → Str} {now : Time} : Off p P (initProject sys now q) := by
  unfold initProject
  refine Off.bind (Off.each (fun _ => setupProp_off hq) _) fun _ => ?_
  refine Off.bind (Off.each (fun _ => setupEvent_off hq) _) fun _ => ?_
  refine Off.bind (Off.each (fun _ => setupProp_off hq) _) fun _ => ?_
  exact Off.bind (Off.call (getOrCreateGroup_aloof hq)) fun _ => Off.pure _

/-- Making another project. -/
theorem C153_project {sys : Str → Str} {now : Time} {req : Project} {w w' : World} (same : hide p w.kv = hide p w'.kv) (tables : w.tbl = w'.tbl)
    (hp : ∀ r kv, projectCreate now req w.kv = .ok (r, kv) → r.id ≠ p) : Unaware p w w' (createProject sys now req w) (createProject sys now req w') := by
  have h0 : WSides p (only p w.kv) (only p w'.kv) w.rows w'.rows (OwnRow (p + 1)) w w' :=
    ⟨⟨same, rfl, rfl⟩, tables, [], by simp, by simp, fun _ h => by cases h⟩
  have h1 := Off.call (P := OwnRow (p + 1)) (projectCreate_aloof (p := p) (now := now) (r := req)) _ _ _ _ w w' h0
  have hid : ∀ r w1, call (projectCreate now req) w = (.ok r, w1) → r.id ≠ p := by
    intro r w1 e
    unfold call callRaw runCall at e
    cases hc : projectCreate now req w.kv with
    | error x => rw [hc] at e; cases e
    | ok y =>
      obtain ⟨r', kv'⟩ := y
      rw [hc] at e
      cases e
      exact hp r kv' hc
  have key : ∀ q, q ≠ p → ∀ project : Project, project.id = q → Off p (OwnRow (p + 1))
      ((call (dictCreateKey project.id kEvents kProjectId project.id project.name)).bind fun _ =>
        (each (fun g => call (dictCreateKey project.id (groupCol g) kProjectId project.id project.name)) (List.range 5)).bind fun _ =>
        (initProject sys now project.id).bind fun _ => M.pure project) := by
    intro q hq project e
    subst e
    refine (Off.call (dictCreateKey_aloof hq)).bind fun _ => (Off.each (fun _ => Off.call (dictCreateKey_aloof hq)) _).bind fun _ => Off.bind ?_ fun _ => .pure _
    exact initProject_off hq
  have fin : WLevel p (only p w.kv) (only p w'.kv) w.rows w'.rows (OwnRow (p + 1)) (createProject sys now req w) (createProject sys now req w') := by
    unfold createProject M.bind
    revert h1 hid
    generalize call (projectCreate now req) w = a
    generalize call (projectCreate now req) w' = b
    intro h1 hid
    obtain ⟨a1, a2⟩ := a
    obtain ⟨b1, b2⟩ := b
    obtain ⟨e1, e2⟩ := h1
    dsimp only at e1
    subst e1
    cases a1 with
    | error e => exact ⟨rfl, e2⟩
    | ok r => exact key r.id (hid r a2 rfl) r rfl (only p w.kv) (only p w'.kv) w.rows w'.rows a2 b2 e2
  obtain ⟨a, b⟩ := fin
  obtain ⟨l, l1, l2, l3⟩ := b.rows
  exact ⟨a, b.tbl, b.kv.same, b.kv.left, b.kv.right, p + 1, l, by omega, l1, l2, l3⟩

/-! ## Any number of requests -/

/-- The transformers of a request look at its project only. -/
def HttpReq.Apart (p : Nat) : HttpReq → Prop
  | .track E _ _ => E.Apart p
  | .identify .. => True

/-- Requests none of which has the token of the project when it comes. -/
def ForOthers (p : Nat) : App → List HttpReq → Prop
  | _, [] => True
  | a, r :: l => (∀ x, getByToken r.token a.world.kv = .ok x → x.id ≠ p) ∧ r.Apart p ∧ ForOthers p (a.step r).2 l

/-- Two servers that differ by what is in a project. -/
structure Differ (p : Nat) (a a' : App) : Prop where
  outside : hide p a.world.kv = hide p a'.world.kv
  tables : a.world.tbl = a'.world.tbl
  track : a.trackPoisoned = a'.trackPoisoned
  identify : a.identifyPoisoned = a'.identifyPoisoned

theorem step_differ {a a' : App} (h : Differ p a a') {r : HttpReq} (hr : ∀ x, getByToken r.token a.world.kv = .ok x → x.id ≠ p) (ha : r.Apart p) :
    (a.step r).1 = (a'.step r).1 ∧ Differ p (a.step r).2 (a'.step r).2 ∧ only p (a.step r).2.world.kv = only p a.world.kv ∧
      only p (a'.step r).2.world.kv = only p a'.world.kv := by
  cases r with
  | track E t req =>
    unfold App.step
    dsimp only
    rw [← h.track]
    split
    · exact ⟨rfl, h, rfl, rfl⟩
    · have u := C153_track (tok := t) (w := a.world) (w' := a'.world) (req := req) ha h.outside h.tables hr
      exact ⟨by rw [u.outcome], ⟨u.outside, u.tables, by dsimp only; rw [u.outcome], h.identify⟩, u.inside, u.inside'⟩
  | identify sys now t req =>
    unfold App.step
    dsimp only
    rw [← h.identify]
    split
    · exact ⟨rfl, h, rfl, rfl⟩
    · have u := C153_identify (tok := t) (sys := sys) (now := now) (w := a.world) (w' := a'.world) (req := req) h.outside h.tables hr
      exact ⟨by rw [u.outcome], ⟨u.outside, u.tables, h.track, by dsimp only; rw [u.outcome]⟩, u.inside, u.inside'⟩

/-- However many requests come for other projects: they are answered the same whatever is in the project, and leave it as it is. Missing: whether
the locks are poisoned has to be the same (`Differ`), which requests for the project can change (`C153_lock_violated`). -/
theorem C153_requests_partial {a a' : App} (h : Differ p a a') (l : List HttpReq) (hl : ForOthers p a l) :
    (a.run l).1 = (a'.run l).1 ∧ Differ p (a.run l).2 (a'.run l).2 ∧ only p (a.run l).2.world.kv = only p a.world.kv ∧
      only p (a'.run l).2.world.kv = only p a'.world.kv := by
  induction l generalizing a a' with
  | nil => exact ⟨rfl, h, rfl, rfl⟩
  | cons r l ih =>
    obtain ⟨h1, h2, h3⟩ := hl
    obtain ⟨e1, e2, e3, e4⟩ := step_differ h h1 h2
    obtain ⟨i1, i2, i3, i4⟩ := ih e2 h3
    refine ⟨?_, i2, i3.trans e3, i4.trans e4⟩
    show _ :: _ = _ :: _
    rw [e1, i1]

/-- The token is that of the project: it is what the index has the number of the project for. -/
def Opens (p : Nat) (tok : Str) (kv : Kv) : Prop := getIndex (.idx (.top .projects) .name tok) kv = .ok p

theorem not_opens {S : Meta.Env Q} {n : Nat} {kv : Kv} (h : Hist S n kv) {tok : Str} (ho : ¬ Opens p tok kv) (x : Project) (hx : getByToken tok kv = .ok x) : x.id ≠ p := by
  rintro rfl
  unfold getByToken Coll.getBy at hx
  split at hx
  · cases hx
  · next i hi =>
    obtain ⟨-, -, e⟩ := (hist_projectsOk h).get hx
    subst e
    exact ho hi

/-- Whose a token is does not change with the requests sent. -/
theorem opens_step {S : Meta.Env Q} (hsys : ∀ n, '/' ∉ S.sys n) {K : Nat} {r : HttpReq} (hf : r.Fits S K) {n : Nat} {a : App} (h : Hist S n a.world.kv) (tok : Str) :
    Opens p tok (a.step r).2.world.kv ↔ Opens p tok a.world.kv := by
  have h2 : (a.step r).2.world = a.world ∨ (a.step r).2.world = (r.exec a.world).2 := by
    cases r <;> simp only [App.step, HttpReq.exec] <;> split <;> simp
  rcases h2 with h2 | h2
  · rw [h2]
  · rw [h2]
    rcases C79_confined hsys hf h with ⟨e, -, h3⟩ | ⟨project, -, -, h3, -⟩
    · rw [h3]
    · have e := h3 (.idx (.top .projects) .name tok) trivial (fun h => by rcases h with h | ⟨_, h⟩ <;> cases h)
      unfold Opens getIndex
      rw [e]

theorem forOthers {S : Meta.Env Q} (hsys : ∀ n, '/' ∉ S.sys n) {K : Nat} (l : List HttpReq) {n : Nat} {a : App} (h : Hist S n a.world.kv)
    (hl : ∀ r ∈ l, r.Fits S K ∧ r.Apart p ∧ ¬ Opens p r.token a.world.kv) : ForOthers p a l := by
  induction l generalizing n a with
  | nil => trivial
  | cons r l ih =>
    obtain ⟨h1, h2, h3⟩ := hl r (by simp)
    refine ⟨fun x hx => not_opens h h3 x hx, h2, ?_⟩
    obtain ⟨m, -, hm⟩ := C79_history hsys [r] (fun x hx => by simp only [List.mem_cons, List.not_mem_nil, or_false] at hx; subst hx; exact h1) a h
    refine ih hm fun x hx => ?_
    obtain ⟨g1, g2, g3⟩ := hl x (List.mem_cons_of_mem _ hx)
    exact ⟨g1, g2, fun g => g3 ((opens_step hsys h1 h x.token).mp g)⟩

/-- On reachable stores it is enough that none of the requests has the token of the project. Missing: as in `C153_requests_partial`. -/
theorem C153_tokens_partial {S : Meta.Env Q} (hsys : ∀ n, '/' ∉ S.sys n) {K : Nat} {n : Nat} {a a' : App} (hh : Hist S n a.world.kv) (h : Differ p a a') (l : List HttpReq)
    (hl : ∀ r ∈ l, r.Fits S K ∧ r.Apart p ∧ ¬ Opens p r.token a.world.kv) :
    (a.run l).1 = (a'.run l).1 ∧ Differ p (a.run l).2 (a'.run l).2 ∧ only p (a.run l).2.world.kv = only p a.world.kv ∧
      only p (a'.run l).2.world.kv = only p a'.world.kv := C153_requests_partial h l (forOthers hsys l hh hl)

/-! ## What projects share -/

def exToken2 : Str := "tok2".toList

/-- The project of the examples, and another. -/
def exTwo : World := { exGroupWorld with kv := runReqs exEnv (exGroups ++ [.projectCreate ⟨0, 0⟩ { exProj with name := "q".toList, token := exToken2 },
  .eventCreate 2 ⟨0, 0⟩ (eventReq kSessionBegin none)]) [] }

/-- The other project in another state: one more event. -/
def exTwo' : World := { exTwo with kv := (createEvent 2 ⟨0, 0⟩ (eventReq "Sell".toList none) exTwo.kv).2 }

def exOther (u : Str) : HttpReq := .track exIngest exToken2 (exTrack (some u) none [])

theorem exIngest_apart (p : Nat) : exIngest.Apart p := fun _ _ _ _ _ _ _ => rfl

set_option maxRecDepth 100000 in
/-- As in `C153_requests_partial`: requests for project 1 on two servers that differ in project 2. -/
example : hide 2 exTwo.kv = hide 2 exTwo'.kv ∧ only 2 exTwo.kv ≠ only 2 exTwo'.kv ∧
    (getByToken exToken exTwo.kv).toOption.map (·.id) = some 1 ∧ (getByToken exToken2 exTwo.kv).toOption.map (·.id) = some 2 ∧
    ((⟨exTwo, false, false⟩ : App).run [exHttp (some "u".toList) none]).1 = [some (.ok ())] ∧
    ((⟨exTwo, false, false⟩ : App).run [exHttp (some "u".toList) none]).2.world.rows.length = 2 := by
  refine ⟨?_, ?_, ?_, ?_, ?_, ?_⟩ <;> decide +kernel

set_option maxRecDepth 100000 in
theorem exOthers : Differ 2 ⟨exTwo, false, false⟩ ⟨exTwo', false, false⟩ ∧ ForOthers 2 ⟨exTwo, false, false⟩ [exHttp (some "u".toList) none] := by
  have e : (getByToken exToken exTwo.kv).toOption.map (fun r : Project => decide (r.id ≠ 2)) = some true := by decide +kernel
  refine ⟨⟨by decide +kernel, rfl, rfl, rfl⟩, fun x hx => ?_, exIngest_apart 2, trivial⟩
  rw [show getByToken exToken exTwo.kv = .ok x from hx] at e
  simpa [Except.toOption] using e

/-- As in `C153_tokens_partial`: the second token is that of project 2, the first is not. -/
example : Opens 2 exToken2 exTwo.kv ∧ ¬ Opens 2 exToken exTwo.kv ∧ ∃ n, Hist exEnv n exTwo.kv := by
  have o : ∀ tok i, (getIndex (.idx (.top .projects) .name tok) exTwo.kv).toOption = some i → Opens i tok exTwo.kv := by
    intro tok i h
    unfold Opens
    revert h
    generalize getIndex (.idx (.top .projects) .name tok) exTwo.kv = y
    intro h
    cases y with
    | error e => cases h
    | ok y => cases h; rfl
  have h1 : Opens 1 exToken exTwo.kv := o _ _ (by decide +kernel)
  refine ⟨o _ _ (by decide +kernel), fun h => ?_, ?_⟩
  · rw [Opens, h1] at h
    cases h
  · refine ⟨_, Hist.of_run exEnv _ ?_⟩
    intro r hr
    simp only [exGroups, exSetup, List.cons_append, List.nil_append, List.mem_cons, List.not_mem_nil, or_false] at hr
    rcases hr with rfl | rfl | rfl | rfl | rfl | rfl
    · exact ⟨by decide, by decide, by decide⟩
    · exact ⟨by decide, by decide⟩
    · trivial
    · trivial
    · exact ⟨by decide, by decide, by decide⟩
    · exact ⟨by decide, by decide⟩

/-- Somebody of project 1 identified. -/
def exPerson : Identify := ⟨"user".toList, "u".toList, ⟨5#64, 0⟩, none⟩

set_option maxRecDepth 100000 in
/-- As in `C153_identify`: answered, with a row of project 1. -/
example : (executeIdentify id ⟨5#64, 0⟩ exToken exPerson exTwo).1 = .ok () ∧
    (executeIdentify id ⟨5#64, 0⟩ exToken exPerson exTwo).2.rows.map (·.2.head?) = [some (nv kProjectId (i64 1))] := by
  refine ⟨?_, ?_⟩ <;> decide +kernel

set_option maxRecDepth 100000 in
/-- As in `C153_project`: the next project is number 3. -/
example : ∀ r kv, projectCreate ⟨5#64, 0⟩ { exProj with name := "r".toList, token := "tok3".toList } exTwo.kv = .ok (r, kv) → r.id ≠ 2 := by
  intro r kv h
  have e : (projectCreate ⟨5#64, 0⟩ { exProj with name := "r".toList, token := "tok3".toList } exTwo.kv).toOption.map (·.1.id) = some 3 := by decide +kernel
  rw [h] at e
  simp only [Except.toOption, Option.map_some, Option.some.injEq] at e
  omega

set_option maxRecDepth 100000 in
/-- What projects do share is the lock: two requests for project 1, the second of which panics, and no request for project 2 is answered any more. -/
theorem C153_lock_violated : ∃ (w : World) (l : List HttpReq) (r : HttpReq), (∀ x ∈ l, x.token = exToken) ∧ r.token = exToken2 ∧
    (getByToken exToken w.kv).toOption.map (·.id) = some 1 ∧ (getByToken exToken2 w.kv).toOption.map (·.id) = some 2 ∧
    ((⟨w, false, false⟩ : App).run [r]).1 = [some (.ok ())] ∧ ((⟨w, false, false⟩ : App).run (l ++ [r])).1.getLast? = some none :=
  ⟨exTwo, [exHttp (some "u".toList) (some "a".toList), exHttp (some "v".toList) none], exOther "u".toList,
    fun x hx => by
      simp only [List.mem_cons, List.not_mem_nil, or_false] at hx
      rcases hx with rfl | rfl <;> rfl,
    rfl, by decide +kernel, by decide +kernel, by decide +kernel, by decide +kernel⟩

end OptiPrism.Ingest
