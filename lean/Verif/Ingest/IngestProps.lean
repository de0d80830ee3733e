import Verif.Ingest.TrackProps
import Verif.Ingest.ValueProps
import Verif.Meta.GroupsProps
import Verif.Meta.DictsProps

/-!
# C48, C73, C78, C79: the ingester over sequences of requests
-/

namespace OptiPrism.Ingest

open OptiPrism.Meta
open OptiPrism.Storage (Bytes Value NamedValue Tbl InsertErr ColType Field Row)

variable {Q : Type}

/-! ## C73 -/

/-- The execution of a request on its own. -/
def HttpReq.exec (w : World) : HttpReq → Except Fail Unit × World
  | .track E token req => executeTrack E token req w
  | .identify sys now token req => executeIdentify sys now token req w

def HttpReq.isTrack : HttpReq → Bool
  | .track .. => true
  | .identify .. => false

/-- Spec: the execution of the request panics. -/
def Panics (w : World) (r : HttpReq) : Prop := ∃ e : Fail, (r.exec w).1 = .error e ∧ e.isPanic = true

def App.poisoned (a : App) (track : Bool) : Bool := if track then a.trackPoisoned else a.identifyPoisoned

theorem answer_none (x : Except Fail Unit) : answerOf x = none ↔ ∃ e : Fail, x = .error e ∧ e.isPanic = true := by
  cases x with
  | ok u => simp [answerOf]
  | error e => by_cases h : e.isPanic = true <;> simp [answerOf, h]

theorem step_none (a : App) (r : HttpReq) : (a.step r).1 = none ↔ a.poisoned r.isTrack = true ∨ Panics a.world r := by
  cases r <;> simp only [App.step, App.poisoned, HttpReq.isTrack, if_true] <;> split <;> rename_i h <;>
    simp_all [Panics, HttpReq.exec, answer_none]

theorem step_poisoned (a : App) (r : HttpReq) (k : Bool) :
    (a.step r).2.poisoned k = true ↔ a.poisoned k = true ∨ (r.isTrack = k ∧ Panics a.world r) := by
  cases r <;> cases k <;> simp only [App.step, App.poisoned, HttpReq.isTrack, if_true, Bool.false_eq_true, if_false, Bool.true_eq_false, false_and, or_false] <;>
    split <;> simp_all [Panics, HttpReq.exec, answer_none]

theorem run_length (a : App) (l : List HttpReq) : (a.run l).1.length = l.length := by
  induction l generalizing a with
  | nil => rfl
  | cons r l ih => simp [App.run, ih]

theorem run_snoc (a : App) (l : List HttpReq) (r : HttpReq) :
    a.run (l ++ [r]) = ((a.run l).1 ++ [((a.run l).2.step r).1], ((a.run l).2.step r).2) := by
  induction l generalizing a with
  | nil => rfl
  | cons x l ih => simp [App.run, ih]

theorem run_get (a : App) (l : List HttpReq) (i : Nat) (hi : i < l.length) :
    (a.run l).1[i]? = some (((a.run (l.take i)).2.step l[i]).1) := by
  induction l generalizing a i with
  | nil => simp at hi
  | cons x l ih =>
    cases i with
    | zero => simp [App.run]
    | succ i =>
      simp only [List.length_cons] at hi
      have := ih (a.step x).2 i (by omega)
      simpa [App.run] using this

theorem run_poisoned (a : App) (l : List HttpReq) (k : Bool) :
    (a.run l).2.poisoned k = true ↔ a.poisoned k = true ∨ ∃ j, ∃ h : j < l.length, l[j].isTrack = k ∧ Panics (a.run (l.take j)).2.world l[j] := by
  induction l generalizing a with
  | nil => simp [App.run]
  | cons x l ih =>
    show ((a.step x).2.run l).2.poisoned k = true ↔ _
    rw [ih, step_poisoned]
    constructor
    · rintro ((h | h) | ⟨j, hj, h⟩)
      · exact .inl h
      · exact .inr ⟨0, by simp, by simpa [App.run] using h⟩
      · exact .inr ⟨j + 1, by simp only [List.length_cons]; omega, by simpa [App.run] using h⟩
    · rintro (h | ⟨j, hj, h⟩)
      · exact .inl (.inl h)
      · cases j with
        | zero => exact .inl (.inr (by simpa [App.run] using h))
        | succ j => exact .inr ⟨j, by simp only [List.length_cons] at hj; omega, by simpa [App.run] using h⟩

/-- C73 as stated: only a request whose own execution panics goes unanswered. -/
def C73_full : Prop := ∀ (w : World) (l : List HttpReq) (i : Nat) (hi : i < l.length),
  ((⟨w, false, false⟩ : App).run l).1[i]? = some none → Panics ((⟨w, false, false⟩ : App).run (l.take i)).2.world l[i]

/-- Exactly which requests go unanswered: those at or after the first panic of a request of the same kind. -/
theorem C73_exact (w : World) (l : List HttpReq) (i : Nat) (hi : i < l.length) :
    ((⟨w, false, false⟩ : App).run l).1[i]? = some none ↔
      ∃ j, ∃ h : j ≤ i, l[j].isTrack = l[i].isTrack ∧ Panics ((⟨w, false, false⟩ : App).run (l.take j)).2.world l[j] := by
  rw [run_get _ _ _ hi, Option.some.injEq, step_none, run_poisoned]
  have h0 : ∀ k, (⟨w, false, false⟩ : App).poisoned k = false := by intro k; cases k <;> rfl
  simp only [h0, List.length_take, List.take_take, Bool.false_eq_true, false_or]
  constructor
  · rintro (⟨j, hj, h1, h2⟩ | h)
    · rw [List.getElem_take] at h1 h2
      rw [Nat.min_eq_left (by omega)] at h2
      exact ⟨j, by omega, h1, h2⟩
    · exact ⟨i, Nat.le_refl _, rfl, h⟩
  · rintro ⟨j, hj, h1, h2⟩
    by_cases hji : j = i
    · subst hji; exact .inr h2
    · refine .inl ⟨j, by omega, ?_⟩
      rw [List.getElem_take]
      have e : min j i = j := Nat.min_eq_left (by omega)
      simp only [e]
      exact ⟨h1, h2⟩

/-- C73 (partial): when no execution panics, every request is answered. Missing: sequences with a panic. -/
theorem C73_partial (w : World) (l : List HttpReq)
    (h : ∀ j, ∀ hj : j < l.length, ¬ Panics ((⟨w, false, false⟩ : App).run (l.take j)).2.world l[j]) :
    ∀ x ∈ ((⟨w, false, false⟩ : App).run l).1, x ≠ none := by
  intro x hx hn
  obtain ⟨i, hi, e⟩ := List.mem_iff_getElem.mp hx
  rw [run_length] at hi
  have := (C73_exact w l i hi).mp (by rw [List.getElem?_eq_getElem (by rw [run_length]; exact hi), e, hn])
  obtain ⟨j, hj, -, hp⟩ := this
  exact h j (by omega) hp

/-- After one panic nothing of that kind is answered any more, the other kind is unaffected. -/
theorem C73_stopped (a : App) (l : List HttpReq) (k : Bool) (h : a.poisoned k = true) (i : Nat) (hi : i < l.length) (hk : l[i].isTrack = k) :
    (a.run l).1[i]? = some none := by
  rw [run_get _ _ _ hi, Option.some.injEq, step_none, run_poisoned, hk]
  exact .inl (.inl h)

def exHttp (u a : Option Str) : HttpReq := .track exIngest exToken (exTrack u a [])

/-- A user signs in (both ids), then two new visitors come, then the first user again. -/
def exVisits : List HttpReq := [exHttp (some "u".toList) (some "a".toList), exHttp (some "v".toList) none, exHttp (some "u".toList) none,
  exHttp (some "u".toList) (some "a".toList)]

/-- The first request is accepted, the second panics, and the fourth, equal to the first, is never answered
although its own execution would be accepted. -/
theorem C73_violated : ¬ C73_full := by
  intro h
  have h1 : ((⟨exWorld, false, false⟩ : App).run exVisits).1[3]? = some none := by decide +kernel
  obtain ⟨e, h2, -⟩ := h exWorld exVisits 3 (by decide) h1
  have h3 : ((exHttp (some "u".toList) (some "a".toList)).exec ((⟨exWorld, false, false⟩ : App).run (exVisits.take 3)).2.world).1 = .ok () := by
    decide +kernel
  have h4 : exVisits[3] = exHttp (some "u".toList) (some "a".toList) := rfl
  rw [h4, h3] at h2
  cases h2

/-- The hypothesis of `C73_partial` is met by visits of known kinds. -/
example : ∀ x ∈ ((⟨exWorld, false, false⟩ : App).run [exHttp (some "u".toList) none, exHttp none (some "a".toList), exHttp (some "u".toList) none]).1, x = some (.ok ()) := by
  decide +kernel

/-! ## C79 -/

/-- Spec: the project a part of the metadata belongs to. -/
def modProject : Mod → Option Nat
  | .coll (.proj p _) => some p
  | .evRec p | .order p | .dict p _ _ | .grp p _ | .grpRec p _ | .grpNames p | .sess p | .bm p _ => some p
  | _ => none

/-- Spec: a key ingestion for project `p` may change: one of the project, or the record of a project (for its event counter). -/
def KeyOf (p : Nat) (k : Key) : Prop := modProject k.mod = some p ∨ ∃ id, k = .data (.top .projects) id

theorem track_mods {p : Nat} {r : Req Q} (h : TrackReq p r) {m : Mod} (hm : m ∈ r.mods) (hne : m ≠ .coll (.top .projects)) : modProject m = some p := by
  rcases h with h | h | h
  · cases r <;> simp only [ResolveReq] at h <;> simp only [Req.mods, List.mem_cons, List.not_mem_nil, or_false] at hm
    all_goals (try (rcases hm with rfl | rfl | rfl)) <;> (try (rcases hm with rfl | rfl)) <;> (try subst hm) <;> simp_all [modProject]
  · cases r <;> simp only [SendReq] at h <;> simp only [Req.mods, List.mem_cons, List.not_mem_nil, or_false] at hm <;> subst hm <;> simp_all [modProject]
  · subst h
    simp only [Req.mods, List.mem_cons, List.not_mem_nil, or_false] at hm
    exact absurd hm hne

theorem identify_mods {p : Nat} {r : Req Q} (h : IdentifyReq p r) {m : Mod} (hm : m ∈ r.mods) : modProject m = some p := by
  cases r <;> simp only [IdentifyReq] at h <;> simp only [Req.mods, List.mem_cons, List.not_mem_nil, or_false] at hm
  all_goals (try (rcases hm with rfl | rfl | rfl)) <;> (try subst hm) <;> simp_all [modProject]

theorem increment_keys (p : Nat) (kv : Kv) {k : Key} (hw : k.WF) (hk : ∀ id, k ≠ .data (.top .projects) id) :
    getK (runCall (incrementEvents p) kv).2 k = getK kv k := by
  unfold runCall incrementEvents Coll.update
  cases hc : projectsC.getById p kv with
  | error e => rfl
  | ok r =>
    show getK (putK kv (.data (.top .projects) r.id) (projectsC.enc { r with eventsCount := (r.eventsCount + 1) % 2 ^ 64 })) k = _
    rw [getK_putK _ (by trivial) hw, if_neg]
    rintro rfl
    exact hk _ rfl

theorem track_keys {S : Meta.Env Q} {p n : Nat} {kv kv' : Kv} (h : Runs S (TrackReq p) kv n kv') {k : Key} (hw : k.WF) (hk : ¬ KeyOf p k) : getK kv' k = getK kv k := by
  induction h with
  | refl => rfl
  | step r _ hr hp ih =>
    refine Eq.trans ?_ ih
    by_cases hm : k.mod = .coll (.top .projects)
    · rcases hp with hp | hp | hp
      · refine exec_same S hr (fun h => ?_) _ k hw rfl
        cases r <;> simp only [ResolveReq] at hp <;> simp [Req.mods, hm] at h
        all_goals (rename_i ty _ _ _; cases ty <;> simp [PropType.coll] at h)
      · refine exec_same S hr (fun h => ?_) _ k hw rfl
        cases r <;> simp only [SendReq] at hp <;> simp [Req.mods, hm] at h
      · subst hp
        exact increment_keys p _ hw fun id e => hk (.inr ⟨id, e⟩)
    · exact exec_same S hr (fun h => hk (.inl (track_mods hp h hm))) _ k hw rfl

/-- Rows with property `P` are added, nothing else. -/
def Appends {α : Type} (P : Str × List NamedValue → Prop) (x : M α) : Prop := ∀ w, ∃ l, (x w).2.rows = w.rows ++ l ∧ ∀ y ∈ l, P y

theorem Appends.of_noRows {α : Type} {P : Str × List NamedValue → Prop} {x : M α} (h : NoRows x) : Appends P x := fun w => ⟨[], by simp [h w], by simp⟩

theorem Appends.bind {α β : Type} {P : Str × List NamedValue → Prop} {x : M α} {f : α → M β} (hx : Appends P x) (hf : ∀ a, Appends P (f a)) : Appends P (x.bind f) := by
  intro w
  obtain ⟨l, h1, h2⟩ := hx w
  unfold M.bind
  rcases hx' : x w with ⟨_ | a, w1⟩ <;> rw [hx'] at h1
  · exact ⟨l, h1, h2⟩
  · obtain ⟨l', h3, h4⟩ := hf a w1
    refine ⟨l ++ l', by rw [← List.append_assoc]; exact h3.trans (by rw [← h1]), fun y hy => ?_⟩
    rcases List.mem_append.mp hy with hy | hy
    · exact h2 y hy
    · exact h4 y hy

theorem Appends.insert {P : Str × List NamedValue → Prop} {t : Str} {vs : List NamedValue} (h : P (t, vs)) : Appends P (insertRow t vs) := by
  intro w
  unfold insertRow
  split
  · exact ⟨[], by simp, by simp⟩
  · exact ⟨[(t, vs)], rfl, by simpa using h⟩

/-- Spec: a row of the project. -/
def RowOf (p : Nat) (x : Str × List NamedValue) : Prop := val x.2 kProjectId = i64 p

theorem val_head (n : Str) (v : Value) (l : List NamedValue) : val (nv n v :: l) n = v := by simp [val, Storage.supplied, nv]

theorem sendTrack_appends (E : Env Track) (p : Nat) (req : Track) (r : Resolved) : Appends (RowOf p) (sendTrack E p req r) := by
  unfold sendTrack
  refine (Appends.of_noRows (NoTbl.call _).noRows).bind fun isNew => ?_
  refine (Appends.of_noRows (propCells_noTbl _ _ _ _).noRows).bind fun _ => ?_
  refine (Appends.of_noRows (NoTbl.each _ fun _ => valueCells_noTbl _ _ _ _).noRows).bind fun _ => ?_
  refine (Appends.of_noRows (utmCells_noTbl _ _ _).noRows).bind fun _ => ?_
  dsimp only
  refine Appends.bind ?_ fun _ => ?_
  · split
    · refine (Appends.of_noRows (NoTbl.call _).noRows).bind fun _ => ?_
      refine (Appends.of_noRows (NoTbl.read _).noRows).bind fun _ => ?_
      refine .insert ?_
      exact val_head _ _ _
    · exact .of_noRows (NoTbl.pure _).noRows
  · refine (Appends.of_noRows (NoTbl.call _).noRows).bind fun _ => ?_
    refine .insert ?_
    exact val_head _ _ _

theorem sendIdentify_appends (sys : Str → Str) (p g : Nat) (t : Time) (vals : GroupValues) : Appends (RowOf p) (sendIdentify sys p g t vals) := by
  unfold sendIdentify
  refine (Appends.of_noRows (NoTbl.call _).noRows).bind fun _ => ?_
  refine (Appends.of_noRows (valueCells_noTbl _ _ _ _).noRows).bind fun _ => ?_
  refine .insert ?_
  exact val_head _ _ _

theorem executeTrack_appends {E : Env Track} {token : Str} {req : Track} {w : World} {project : Project} (hp : getByToken token w.kv = .ok project) :
    ∃ l, (executeTrack E token req w).2.rows = w.rows ++ l ∧ ∀ y ∈ l, RowOf project.id y := by
  have h : executeTrack E token req w = ((resolveTrack E project.id req).bind fun r =>
        (sendTrack E project.id req r).bind fun _ => (call (incrementEvents project.id)).bind fun _ => M.pure ()) w := by
    simp [executeTrack, M.bind, read, callRaw, hp]
  rw [h]
  exact ((Appends.of_noRows (resolveTrack_noRows _ _ _)).bind fun r => (sendTrack_appends _ _ _ _).bind fun _ =>
    .of_noRows ((NoTbl.call _).bind fun _ => NoTbl.pure _).noRows) w

theorem executeIdentify_appends {sys : Str → Str} {now : Time} {token : Str} {req : Identify} {w : World} {project : Project} (hp : getByToken token w.kv = .ok project) :
    ∃ l, (executeIdentify sys now token req w).2.rows = w.rows ++ l ∧ ∀ y ∈ l, RowOf project.id y := by
  have h : executeIdentify sys now token req w = ((call (getOrCreateGroup project.id req.group req.group)).bind fun grp =>
  (resolveProperties sys now project.id (.group grp.id) req.props).bind fun props =>
  (each (fun pv => (propertyToValue sys project.id (groupCol 0) pv).bind fun v => M.pure (⟨pv.1.id, v⟩ : PropVal)) (props.getD [])).bind fun vals =>
  (call (groupCreateOrUpdate project.id grp.id req.id vals)).bind fun gv =>
  (call (dictCreateKey project.id (groupCol grp.id) kId gv.id req.id)).bind fun _ =>
  sendIdentify sys project.id grp.id req.time gv) w := by
    simp [executeIdentify, M.bind, read, callRaw, hp]
  rw [h]
  exact ((Appends.of_noRows (NoTbl.call _).noRows).bind fun grp => (Appends.of_noRows (resolveProperties_noRows _ _ _ _ _)).bind fun _ =>
    (Appends.of_noRows (NoTbl.each _ fun _ => (propertyToValue_noTbl _ _ _ _).bind fun _ => .pure _).noRows).bind fun _ =>
    (Appends.of_noRows (NoTbl.call _).noRows).bind fun _ => (Appends.of_noRows (NoTbl.call _).noRows).bind fun _ => sendIdentify_appends _ _ _ _ _) w

/-- Requests served with the naming and the bound on transformers of the deployment. -/
def HttpReq.Fits (S : Meta.Env Q) (K : Nat) : HttpReq → Prop
  | .track E _ _ => E.sys = S.sys ∧ E.Bounded K
  | .identify sys _ _ _ => sys = S.sys

def HttpReq.token : HttpReq → Str
  | .track _ t _ => t
  | .identify _ _ t _ => t

/-- How many metadata requests a request makes at most. -/
def HttpReq.cost (K : Nat) : HttpReq → Nat
  | .track _ _ req => 2 * (req.props.getD []).length + 3 * (req.groups.getD []).length + K + 13
  | .identify _ _ _ req => 2 * (req.props.getD []).length + 4

/-- C79: whatever a request does, accepted, refused or panicking. With a token of no project nothing changes. Otherwise
the metadata stays one reached by metadata requests, every key outside the project of the token keeps its value (but for
records of projects, which hold the event counters), and every row added has the project's id. -/
theorem C79_confined {S : Meta.Env Q} (hsys : ∀ n, '/' ∉ S.sys n) {K : Nat} {r : HttpReq} (hf : r.Fits S K) {n : Nat} {w : World} (h : Hist S n w.kv) :
    (∃ e, getByToken r.token w.kv = .error e ∧ (r.exec w).2 = w) ∨
    ∃ project, getByToken r.token w.kv = .ok project ∧ (∃ m, m ≤ r.cost K ∧ Hist S (n + m) (r.exec w).2.kv) ∧
      (∀ k : Key, k.WF → ¬ KeyOf project.id k → getK (r.exec w).2.kv k = getK w.kv k) ∧
      ∃ l, (r.exec w).2.rows = w.rows ++ l ∧ ∀ y ∈ l, RowOf project.id y := by
  cases r with
  | track E token req =>
    rcases executeTrack_follows hf.1 hsys hf.2 token req w with ⟨e, h1, h2⟩ | ⟨project, m, h1, h2, h3⟩
    · exact .inl ⟨e, h1, by simp [HttpReq.exec, h2]⟩
    · exact .inr ⟨project, h1, ⟨m, h2, h3.hist h⟩, fun k hw hk => track_keys h3 hw hk, executeTrack_appends h1⟩
  | identify sys now token req =>
    have hf : sys = S.sys := hf
    subst hf
    rcases executeIdentify_follows hsys now token req w with ⟨e, h1, h2⟩ | ⟨project, m, h1, h2, h3⟩
    · exact .inl ⟨e, h1, by simp [HttpReq.exec, h2]⟩
    · refine .inr ⟨project, h1, ⟨m, h2, h3.hist h⟩, fun k hw hk => ?_, executeIdentify_appends h1⟩
      exact runs_same (fun r hr hm => hk (.inl (identify_mods hr hm))) h3 k hw rfl

/-- The metadata stays a history over any sequence of requests, also with panics and poisoned locks between. -/
theorem C79_history {S : Meta.Env Q} (hsys : ∀ n, '/' ∉ S.sys n) {K : Nat} (l : List HttpReq) (hf : ∀ r ∈ l, r.Fits S K) {n : Nat} (a : App)
    (h : Hist S n a.world.kv) : ∃ m, m ≤ (l.map (HttpReq.cost K)).sum ∧ Hist S (n + m) (a.run l).2.world.kv := by
  induction l generalizing n a with
  | nil => exact ⟨0, Nat.zero_le _, h⟩
  | cons r l ih =>
    have h1 : ∃ m, m ≤ r.cost K ∧ Hist S (n + m) (a.step r).2.world.kv := by
      have h2 : (a.step r).2.world = a.world ∨ (a.step r).2.world = (r.exec a.world).2 := by
        cases r <;> simp only [App.step, HttpReq.exec] <;> split <;> simp
      rcases h2 with h2 | h2
      · exact ⟨0, Nat.zero_le _, by rw [h2]; exact h⟩
      · rw [h2]
        rcases C79_confined hsys (hf r (by simp)) h with ⟨e, -, h3⟩ | ⟨project, -, h3, -⟩
        · exact ⟨0, Nat.zero_le _, by rw [h3]; exact h⟩
        · exact h3
    obtain ⟨m, hm, h3⟩ := h1
    obtain ⟨m', hm', h4⟩ := ih (fun r hr => hf r (List.mem_cons_of_mem _ hr)) (a.step r).2 h3
    exact ⟨m + m', by simp only [List.map_cons, List.sum_cons]; omega, by rw [← Nat.add_assoc]; exact h4⟩

/-- Names of system columns have no slash. -/
def exSys (n : Str) : Str := n.filter (· ≠ '/')
def exSysEnv : Meta.Env Unit := { exEnv with sys := exSys }
def exSysIngest : Env Track := { exIngest with sys := exSys }
theorem exSlash (n : Str) : '/' ∉ exSysEnv.sys n := by simp [exSysEnv, exSys]

/-- The hypotheses are met in the example project. -/
theorem exSetup_hist (S : Meta.Env Unit) : Hist S 2 (runReqs S exSetup []) := by
  refine Hist.of_run S exSetup ?_
  intro r hr
  simp only [exSetup, List.mem_cons, List.not_mem_nil, or_false] at hr
  rcases hr with rfl | rfl
  · exact ⟨by decide, by decide, by decide⟩
  · exact ⟨by decide, by decide⟩

example : Hist exSysEnv 2 (runReqs exSysEnv exSetup []) ∧ (HttpReq.track exSysIngest exToken (exTrack (some "u".toList) none [])).Fits exSysEnv 0 ∧
    (getByToken exToken (runReqs exSysEnv exSetup [])).toOption.map (·.id) = some 1 :=
  ⟨exSetup_hist exSysEnv, ⟨rfl, exBounded⟩, by decide +kernel⟩

/-! ## C48 -/

/-- C48 as stated: the row stored for an accepted identify request holds, for each string sent for a dictionary property, a
number which the dictionary of the group's own table decodes to the string. -/
def C48_full : Prop := ∀ (sys : Str → Str) (now : Time) (token : Str) (req : Identify) (w w' : World) (project : Project) (grp : Group) (n s : Str)
  (r : Property) (vs : List NamedValue), executeIdentify sys now token req w = (.ok (), w') → getByToken token w.kv = .ok project →
  (runCall (getOrCreateGroup project.id req.group req.group) w.kv).1 = .ok grp → (n, .string s) ∈ req.props.getD [] →
  (propsC project.id (.group grp.id)).getBy .name n w'.kv = .ok r → r.isDictionary = true → (groupCol grp.id, vs) ∈ w'.rows.drop w.rows.length →
  ∃ k, k < 2 ^ 64 ∧ val vs (r.columnName sys) = i64 k ∧ dictGetValue project.id (groupCol grp.id) (r.columnName sys) k w'.kv = .ok s

/-- What goes wrong: an identify request leaves every dictionary of a group but the first as it was (but for that of the
group's own identifiers), so no new string can ever be decoded there. -/
theorem C48_other_groups {S : Meta.Env Q} (hsys : ∀ n, '/' ∉ S.sys n) (now : Time) (token : Str) (req : Identify) (w : World) (p g : Nat) (d : Str)
    (hg : g ≠ 0) (hd : d ≠ kId) (hw : '/' ∉ d) (k : Nat) :
    dictGetValue p (groupCol g) d k (executeIdentify S.sys now token req w).2.kv = dictGetValue p (groupCol g) d k w.kv := by
  have key : Same (.dict p (groupCol g) d) w.kv (executeIdentify S.sys now token req w).2.kv := by
    rcases executeIdentify_follows hsys now token req w with ⟨e, h1, h2⟩ | ⟨project, m, h1, h2, h3⟩
    · rw [h2]; exact .refl _ _
    · refine runs_same (fun r hr hm => ?_) h3
      cases r <;> simp only [IdentifyReq] at hr <;> simp [Req.mods] at hm
      · obtain ⟨-, h5, h6⟩ := hm
        rw [hr.2] at h5
        exact hg (groupCol_inj.mp h5)
      · obtain ⟨-, -, h6⟩ := hm
        exact hd (h6.trans hr.2.2)
  unfold dictGetValue
  rw [key (.dictKey p (groupCol g) d k) ⟨slash_groupCol g, hw⟩ rfl]

/-- C48 (partial): for the first group the conversion is right: the cell made for the string is decoded to it by the dictionary of the
group's table, also after any number of further ingestion requests. Missing: the other groups. -/
theorem C48_partial {S : Meta.Env Q} {p : Nat} {r : Property} (hr : r.isDictionary = true) (hdt : r.dictType = some .int64)
    (hw : '/' ∉ r.columnName S.sys) (hid : r.columnName S.sys ≠ kId) {n m : Nat} {w : World}
    (h : Runs S (Req.NoPut p (groupCol 0) (r.columnName S.sys)) [] n w.kv) (hn : n + 1 + m < 2 ^ 62) (s : Str) :
    ∃ c w1, propertyToValue S.sys p (groupCol 0) (r, .string s) w = (.ok c, w1) ∧
      ∀ kv', Runs S (fun x => TrackReq p x ∨ IdentifyReq p x) w1.kv m kv' → decodeCell p (groupCol 0) (r.columnName S.sys) kv' c = .ok s := by
  obtain ⟨c, w1, h1, h2⟩ := C46_partial (E := S) S.sys hr hdt ⟨slash_groupCol 0, hw⟩ h hn (by show n + 1 < 2 ^ 64; omega) s
  refine ⟨c, w1, h1, fun kv' hk => h2 kv' (runs_mono (fun x hx => ?_) hk)⟩
  rcases hx with (hx | hx | hx) | hx
  · cases x <;> simp only [ResolveReq] at hx <;> simp only [Req.NoPut]
    rintro ⟨-, e, -⟩
    rw [hx.2.1] at e
    revert e; unfold kEvents groupCol kGroup_; decide +kernel
  · cases x <;> simp only [SendReq] at hx <;> trivial
  · subst hx; trivial
  · cases x <;> simp only [IdentifyReq] at hx <;> simp only [Req.NoPut]
    rintro ⟨-, -, e⟩
    exact hid (e.symm.trans hx.2.2)

def exGroups : List (Req Unit) := exSetup ++ [.groupName 1 "user".toList "user".toList, .groupName 1 "org".toList "org".toList]
def exGroupSchema : List Field := [exField kProjectId .int64, exField kId .int64, exField kVersion .int64, exField kCreatedAt .timestamp]
def exGroupWorld : World := ⟨runReqs exEnv exGroups [], fun n => if n = kEvents then exTbl exSchema else exTbl exGroupSchema, []⟩
def exIdentify (g : Str) : Identify := ⟨g, "acme".toList, ⟨5#64, 0⟩, some [("plan".toList, .string "gold".toList)]⟩

/-- The row of an identify request for the second group cannot be decoded. -/
theorem C48_violated : ¬ C48_full := by
  intro h
  have h1 : (executeIdentify id ⟨5#64, 0⟩ exToken (exIdentify "org".toList) exGroupWorld).1 = .ok () := by decide +kernel
  generalize hw' : (executeIdentify id ⟨5#64, 0⟩ exToken (exIdentify "org".toList) exGroupWorld).2 = w' at *
  have h2 : ∃ project, getByToken exToken exGroupWorld.kv = .ok project ∧ project.id = 1 := by
    have : ((getByToken exToken exGroupWorld.kv).toOption.map (·.id)) = some 1 := by decide +kernel
    cases e : getByToken exToken exGroupWorld.kv with
    | error x => rw [e] at this; cases this
    | ok r => rw [e] at this; exact ⟨r, rfl, by simpa [Except.toOption] using this⟩
  have h3 : ∃ grp, (runCall (getOrCreateGroup 1 "org".toList "org".toList) exGroupWorld.kv).1 = .ok grp ∧ grp.id = 1 := by
    have : ((runCall (getOrCreateGroup 1 "org".toList "org".toList) exGroupWorld.kv).1.toOption.map (·.id)) = some 1 := by decide +kernel
    cases e : (runCall (getOrCreateGroup 1 "org".toList "org".toList) exGroupWorld.kv).1 with
    | error x => rw [e] at this; cases this
    | ok r => rw [e] at this; exact ⟨r, rfl, by simpa [Except.toOption] using this⟩
  have h4 : ∃ r, (propsC 1 (.group 1)).getBy .name "plan".toList w'.kv = .ok r ∧ r.isDictionary = true ∧ r.columnName id = "g_1_str_0".toList := by
    rw [← hw']
    have : ((propsC 1 (.group 1)).getBy .name "plan".toList (executeIdentify id ⟨5#64, 0⟩ exToken (exIdentify "org".toList) exGroupWorld).2.kv).toOption.map
      (fun r => (r.isDictionary, r.columnName id)) = some (true, "g_1_str_0".toList) := by decide +kernel
    cases e : (propsC 1 (.group 1)).getBy .name "plan".toList (executeIdentify id ⟨5#64, 0⟩ exToken (exIdentify "org".toList) exGroupWorld).2.kv with
    | error x => rw [e] at this; cases this
    | ok r => rw [e] at this; refine ⟨r, rfl, ?_⟩; simpa [Except.toOption] using this
  obtain ⟨project, hp, hp1⟩ := h2
  obtain ⟨grp, hg, hg1⟩ := h3
  obtain ⟨r, hr, hr1, hr2⟩ := h4
  have h5 : ∃ vs, (groupCol 1, vs) ∈ w'.rows.drop exGroupWorld.rows.length ∧ val vs "g_1_str_0".toList = i64 1 := by
    rw [← hw']
    have : (((executeIdentify id ⟨5#64, 0⟩ exToken (exIdentify "org".toList) exGroupWorld).2.rows.drop exGroupWorld.rows.length)[0]?.map
      fun x => (x.1, val x.2 "g_1_str_0".toList)) = some (groupCol 1, i64 1) := by decide +kernel
    rw [Option.map_eq_some_iff] at this
    obtain ⟨x, h6, h7⟩ := this
    injection h7 with h7 h8
    exact ⟨x.2, by rw [← h7]; exact List.mem_of_getElem? h6, h8⟩
  obtain ⟨vs, hvs, hv⟩ := h5
  obtain ⟨k, hk, h6, h7⟩ := h id ⟨5#64, 0⟩ exToken (exIdentify "org".toList) exGroupWorld w' project grp "plan".toList "gold".toList r vs
    (Prod.ext h1 hw') hp (by rw [hp1]; exact hg) (by decide) (by rw [hp1, hg1]; exact hr) hr1 (by rw [hg1]; exact hvs)
  rw [hr2, hv] at h6
  have hk1 : k = 1 := by
    simp only [i64, Value.int64.injEq, Option.some.injEq] at h6
    have := congrArg BitVec.toNat h6
    rw [BitVec.toNat_ofNat, BitVec.toNat_ofNat, Nat.mod_eq_of_lt hk] at this
    exact this.symm
  rw [hp1, hg1, hr2, hk1, ← hw'] at h7
  have h8 : dictGetValue 1 (groupCol 1) "g_1_str_0".toList 1 (executeIdentify id ⟨5#64, 0⟩ exToken (exIdentify "org".toList) exGroupWorld).2.kv = .error .notFound := by
    decide +kernel
  rw [h8] at h7
  cases h7

/-- For the first group the same request is decoded. -/
example : ((executeIdentify id ⟨5#64, 0⟩ exToken (exIdentify "user".toList) exGroupWorld).2.rows.map fun x => val x.2 "g_0_str_0".toList) = [i64 1] ∧
    dictGetValue 1 (groupCol 0) "g_0_str_0".toList 1 (executeIdentify id ⟨5#64, 0⟩ exToken (exIdentify "user".toList) exGroupWorld).2.kv = .ok "gold".toList := by
  decide +kernel

/-! ## C78 -/

/-- C78 as stated: a request with both ids makes them one user: from then on the user id alone, and the anonymous id alone, are resolved
to the user of that request. -/
def C78_full : Prop := ∀ (n m : Nat) (p : Nat) (u a : Str) (w w1 : World) (x : Nat × Option GroupValues) (kv' : Kv), Hist exEnv n w.kv →
  resolveUser p (some u) (some a) w = (.ok x, w1) → Runs exEnv (fun _ => True) w1.kv m kv' → Resolves p 0 kv' (.real u) x.1 ∧ Resolves p 0 kv' (.anon a) x.1

/-- C78 (partial): a request with one id fixes the user of that id for good. Missing: requests with both. -/
theorem C78_partial {S : Meta.Env Q} {n m : Nat} {p : Nat} {w w1 : World} {x : Nat × Option GroupValues} {kv' : Kv} (h : Hist S n w.kv) :
    (∀ u, resolveUser p (some u) none w = (.ok x, w1) → Runs S (fun _ => True) w1.kv m kv' → Resolves p 0 kv' (.real u) x.1) ∧
    (∀ a, resolveUser p none (some a) w = (.ok x, w1) → Runs S (fun _ => True) w1.kv m kv' → Resolves p 0 kv' (.anon a) x.1) := by
  constructor
  · intro u hu hr
    obtain ⟨g, w2, h1, h2⟩ := bind_ok hu
    obtain ⟨_, w3, h3, h4⟩ := bind_ok h2
    cases h4
    obtain ⟨c1, c2⟩ := call_ok h1
    obtain ⟨d1, d2⟩ := call_ok h3
    have hlt : g.id < 2 ^ 64 := groupGet_lt c1
    have hrun : Runs S (fun _ => True) w2.kv 1 w1.kv := by
      have e : (Req.dictPut p kEvents (groupCol 0) g.id u : Req Q).exec S w2.kv = w1.kv := by
        show (runCall (dictCreateKey p kEvents (groupCol 0) g.id u) w2.kv).2 = _
        simp only [runCall, d1]
      rw [← e]
      exact .step _ .refl ⟨⟨slash_kEvents, slash_groupCol 0⟩, hlt⟩ trivial
    exact C30_stable h (e := .real u) (id := g.id) (kv1 := w2.kv) (by rw [resolve_real, c1]; rfl) (hrun.trans hr)
  · intro a ha hr
    obtain ⟨id, w2, h1, h2⟩ := bind_ok ha
    obtain ⟨_, w3, h3, h4⟩ := bind_ok h2
    cases h4
    obtain ⟨c1, c2⟩ := call_ok h1
    obtain ⟨d1, d2⟩ := call_ok h3
    have hlt : id < 2 ^ 64 := anonymousId_lt c1
    have hrun : Runs S (fun _ => True) w2.kv 1 w1.kv := by
      have e : (Req.dictPut p kEvents (groupCol 0) id a : Req Q).exec S w2.kv = w1.kv := by
        show (runCall (dictCreateKey p kEvents (groupCol 0) id a) w2.kv).2 = _
        simp only [runCall, d1]
      rw [← e]
      exact .step _ .refl ⟨⟨slash_kEvents, slash_groupCol 0⟩, hlt⟩ trivial
    exact C30_stable h (e := .anon a) (id := id) (kv1 := w2.kv) c1 (hrun.trans hr)

/-- What happens instead, whenever the anonymous id is not known as a user id: the roles are swapped. The user id becomes an anonymous id and
the anonymous id a user id, for good. -/
theorem C78_swapped {S : Meta.Env Q} {n m : Nat} {p : Nat} {u a : Str} {w w1 : World} {x : Nat × Option GroupValues} {kv' : Kv} (h : Hist S n w.kv)
    (hnew : ∀ id, ¬ Resolves p 0 w.kv (.real a) id) (hx : resolveUser p (some u) (some a) w = (.ok x, w1)) (hr : Runs S (fun _ => True) w1.kv m kv') :
    Resolves p 0 kv' (.anon u) x.1 ∧ Resolves p 0 kv' (.real a) x.1 := by
  obtain ⟨g, w2, h1, h2⟩ := bind_ok hx
  cases h2
  obtain ⟨c1, c2⟩ := callRaw_ok h1
  refine C31_same_partial (m := m) h (vs := []) (fun v hv => by cases hv) hnew (r := g) (by rw [c1]) ?_
  rw [c1]
  exact hr

/-- A returning user (known as 1) with both ids is counted as another user (2), while the user id alone stays 1. -/
theorem C78_violated : ¬ C78_full := by
  intro h
  let w : World := ⟨runReqs exEnv [.groupGet 1 0 exB []] [], fun _ => .create 2, []⟩
  have h1 : Hist exEnv 1 w.kv := Hist.step (.groupGet 1 0 exB []) .start (fun v hv => by cases hv)
  have h2 : ((resolveUser 1 (some exB) (some exA) w).1.toOption.map (·.1)) = some 2 := by decide +kernel
  cases e : resolveUser 1 (some exB) (some exA) w with
  | mk a w1 =>
    cases a with
    | error x => rw [e] at h2; cases h2
    | ok x =>
      have hx : x.1 = 2 := by rw [e] at h2; simpa [Except.toOption] using h2
      obtain ⟨h3, -⟩ := h 1 0 1 exB exA w w1 x w1.kv h1 e .refl
      obtain ⟨r, h4, h5⟩ := h3 []
      have h6 : ((groupGetOrCreate 1 0 exB [] (resolveUser 1 (some exB) (some exA) w).2.kv).toOption.map (·.1.id)) = some 1 := by decide +kernel
      rw [e] at h6
      dsimp only at h6
      rw [h4] at h6
      simp [Except.toOption] at h6
      omega

/-- The hypotheses of `C78_swapped` are met by the first request in an empty project. -/
example : ((resolveUser 1 (some exB) (some exA) ⟨[], fun _ => .create 2, []⟩).1.toOption.map (·.1)) = some 1 ∧
    (∀ id, ¬ Resolves 1 0 [] (.real exA) id) := by
  refine ⟨by decide +kernel, fun id h => ?_⟩
  obtain ⟨r, h1, -⟩ := h []
  have h2 : (groupGetOrCreate 1 0 exA [] []).toOption.map (·.2.length) = some 2 := by decide +kernel
  rw [h1] at h2
  simp [Except.toOption] at h2

end OptiPrism.Ingest
