import Verif.Ingest.Numbers

/-!
# C110: every stored event has a number of its own
-/

namespace OptiPrism.Ingest

open OptiPrism.Meta
open OptiPrism.Storage (Value NamedValue)

variable {Q : Type}

/-- What happens to the running service: a request to the ingestion endpoints, or one to the metadata by any other part. -/
inductive Act (Q : Type) where
  | http (r : HttpReq)
  | admin (r : Req Q)

def App.act (S : Meta.Env Q) (a : App) : Act Q → App
  | .http r => (a.step r).2
  | .admin r => { a with world := { a.world with kv := r.exec S a.world.kv } }

def App.acts (S : Meta.Env Q) (a : App) (l : List (Act Q)) : App := l.foldl (App.act S) a

def Act.Fits (S : Meta.Env Q) (K : Nat) : Act Q → Prop
  | .http r => r.Fits S K
  | .admin r => r.Ok

def Act.cost (K : Nat) : Act Q → Nat
  | .http r => r.cost K
  | .admin _ => 1

/-- Spec: the rows stored in a table for a project, in order. -/
def rowsOf (t : Str) (p : Nat) (rows : List (Str × List NamedValue)) : List (Str × List NamedValue) :=
  rows.filter fun x => x.1 = t ∧ val x.2 kProjectId = i64 p

/-- Spec: the numbers in a column of some rows are all there, and rise from row to row. -/
def Rising (col : Str) (rows : List (Str × List NamedValue)) : Prop :=
  ∃ ns : List Nat, rows.map (fun x => storedKey (val x.2 col)) = ns.map some ∧ ns.Pairwise (· < ·)

/-- The UTM properties are not stored in the column of the numbers. -/
def UtmApart (sys : Str → Str) : Prop :=
  ∀ n ∈ ["UTM Source".toList, "UTM Medium".toList, "UTM Campaign".toList, "UTM Term".toList, "UTM Content".toList], sys n ≠ "event_id".toList

theorem kEventId_eq : kEventId = "event_id".toList := by decide +kernel

theorem act_numbers {S : Meta.Env Q} (hsys : ∀ n, '/' ∉ S.sys n) (hutm : UtmApart S.sys) {K : Nat} {c : Ctr} (hc : c.project < 2 ^ 64) {x : Act Q} (hx : x.Fits S K) {a : App} {n : Nat}
    (h : Hist S n a.world.kv) (hn : n + x.cost K < 2 ^ 62) :
    (∃ m, m ≤ x.cost K ∧ Hist S (n + m) (a.act S x).world.kv) ∧ NumOk c a.world (a.act S x).world := by
  have refl : NumOk c a.world a.world := ⟨Nat.le_refl _, [], [], by simp, rfl, .nil, by simp⟩
  have hu : ∀ n ∈ ["UTM Source".toList, "UTM Medium".toList, "UTM Campaign".toList, "UTM Term".toList, "UTM Content".toList], S.sys n ≠ kEventId := by
    rw [kEventId_eq]; exact hutm
  cases x with
  | admin r =>
    have one : Runs S (fun _ => True) a.world.kv 1 (r.exec S a.world.kv) := .step r .refl hx trivial
    refine ⟨⟨1, Nat.le_refl _, one.hist h⟩, ?_⟩
    exact ⟨(runs_counted c one (hist_counted c h (by omega)) (by simp only [Act.cost] at hn; omega)).2, [], [], by simp [App.act], rfl, .nil, by simp⟩
  | http r =>
    cases r with
    | track E token req =>
      obtain ⟨k1, k2, -⟩ := executeTrack_numbers hc hx.1 hsys hu hx.2 token req a.world n h hn
      show _ ∧ NumOk c a.world (a.step (.track E token req)).2.world
      simp only [App.act, App.step]
      split
      · exact ⟨⟨0, Nat.zero_le _, h⟩, refl⟩
      · exact ⟨k1, k2⟩
    | identify sys now token req =>
      have hx : sys = S.sys := hx
      subst hx
      obtain ⟨k1, k2, -⟩ := executeIdentify_numbers hc hsys now token req a.world n h hn
      show _ ∧ NumOk c a.world (a.step (.identify S.sys now token req)).2.world
      simp only [App.act, App.step]
      split
      · exact ⟨⟨0, Nat.zero_le _, h⟩, refl⟩
      · exact ⟨k1, k2⟩

theorem acts_numbers {S : Meta.Env Q} (hsys : ∀ n, '/' ∉ S.sys n) (hutm : UtmApart S.sys) {K : Nat} {c : Ctr} (hc : c.project < 2 ^ 64) (l : List (Act Q)) (hx : ∀ x ∈ l, x.Fits S K)
    {a : App} {n : Nat} (h : Hist S n a.world.kv) (hn : n + (l.map (Act.cost K)).sum < 2 ^ 62) : NumOk c a.world (a.acts S l).world := by
  induction l generalizing a n with
  | nil => exact ⟨Nat.le_refl _, [], [], by simp [App.acts], rfl, .nil, by simp⟩
  | cons x l ih =>
    simp only [List.map_cons, List.sum_cons] at hn
    obtain ⟨⟨m, hm, h1⟩, h2⟩ := act_numbers hsys hutm hc (hx x (by simp)) h (by omega)
    exact h2.trans (ih (fun y hy => hx y (List.mem_cons_of_mem _ hy)) h1 (by omega))

/-- C110: start with any store reached by metadata requests and no rows. Whatever requests of any kind follow, accepted, refused or
panicking: the rows stored for a project in the events table have rising, hence distinct, numbers. -/
theorem C110_events {S : Meta.Env Q} (hsys : ∀ n, '/' ∉ S.sys n) (hutm : UtmApart S.sys) {K : Nat} (l : List (Act Q)) (hx : ∀ x ∈ l, x.Fits S K)
    {a : App} {n : Nat} (h : Hist S n a.world.kv) (hr : a.world.rows = []) (hn : n + (l.map (Act.cost K)).sum < 2 ^ 62) {p : Nat} (hp : p < 2 ^ 64) :
    Rising "event_id".toList (rowsOf "events".toList p (a.acts S l).world.rows) := by
  obtain ⟨-, new, ns, h1, h2, h3, -⟩ := acts_numbers hsys hutm (c := .events p) hp l hx h hn
  have e : "events".toList = kEvents := by decide +kernel
  rw [h1, hr, List.nil_append, ← kEventId_eq, e]
  exact ⟨ns, h2, h3⟩

/-- C110 for groups: likewise the versions in the table of a kind of groups. -/
theorem C110_versions {S : Meta.Env Q} (hsys : ∀ n, '/' ∉ S.sys n) (hutm : UtmApart S.sys) {K : Nat} (l : List (Act Q)) (hx : ∀ x ∈ l, x.Fits S K)
    {a : App} {n : Nat} (h : Hist S n a.world.kv) (hr : a.world.rows = []) (hn : n + (l.map (Act.cost K)).sum < 2 ^ 62) {p : Nat} (hp : p < 2 ^ 64) (g : Nat) :
    Rising "version".toList (rowsOf (groupCol g) p (a.acts S l).world.rows) := by
  obtain ⟨-, new, ns, h1, h2, h3, -⟩ := acts_numbers hsys hutm (c := .versions p g) hp l hx h hn
  have e : "version".toList = kVersion := by decide +kernel
  rw [h1, hr, List.nil_append, e]
  exact ⟨ns, h2, h3⟩

/-- The hypotheses are met: two events of one user, one of another, with a metadata request between. -/
def exActs : List (Act Unit) := [.http (.track exSysIngest exToken (exTrack (some "u".toList) none [])), .http (.track exSysIngest exToken (exTrack (some "v".toList) none [])),
  .admin (.projectCreate ⟨0, 0⟩ exProj), .http (.track exSysIngest exToken (exTrack (some "u".toList) none []))]

example : UtmApart exSysEnv.sys ∧ (∀ x ∈ exActs, x.Fits exSysEnv 0) := by
  refine ⟨by unfold UtmApart; decide +kernel, ?_⟩
  intro x hx
  simp only [exActs, List.mem_cons, List.not_mem_nil, or_false] at hx
  rcases hx with rfl | rfl | rfl | rfl
  · exact ⟨rfl, exBounded⟩
  · exact ⟨rfl, exBounded⟩
  · exact ⟨by decide, by decide, by decide⟩
  · exact ⟨rfl, exBounded⟩

example : (rowsOf "events".toList 1 ((⟨{ exWorld with kv := runReqs exSysEnv exSetup [] }, false, false⟩ : App).acts exSysEnv exActs).world.rows).map
    (fun x => storedKey (val x.2 "event_id".toList)) = [some 1, some 2, some 3, some 4, some 5] := by decide +kernel

end OptiPrism.Ingest
