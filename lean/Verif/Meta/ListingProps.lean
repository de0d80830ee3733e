import Verif.Meta.Listing
import Verif.Meta.ProjectsProps

/-!
# C69: a listing shows exactly the live records
-/

namespace OptiPrism.Meta

open OptiPrism.Storage (Bytes)

variable {R Q : Type}

/-- The listing succeeds, its records are those that can be got by an identifier, and no identifier occurs
twice in it. -/
def ListExact (c : Coll R) (kv : Kv) : Prop :=
  ∃ l, c.list kv = .ok l ∧ (∀ r, r ∈ l ↔ ∃ id, c.getById id kv = .ok r) ∧ (l.map c.id).Nodup

theorem ListExact.of {c : Coll R} {norm : R → R} {Valid : R → Prop} (ok : c.Ok norm Valid) {kv : Kv} (hc : Clean kv) (h : Reach c Valid kv) :
    ListExact c kv := by
  have hi := h.inv ok
  obtain ⟨l, h1, h2, h3⟩ := list_spec hc hi
  refine ⟨l, h1, fun r => (h2 r).trans (exists_congr fun id => ?_), h3⟩
  rw [getById_eq hi]
  cases c.live kv id <;> simp

/-- C69: in every history, for every module but projects (below) and teams (whose listing is another). -/
theorem C69_list_exact {E : Env Q} {n : Nat} {kv : Kv} (h : Hist E n kv) (hn : n < 2 ^ 62) :
    (∀ p, ListExact (eventsC p) kv) ∧ ListExact accountsC kv ∧ ListExact orgsC kv ∧ (∀ p, ListExact (customC p) kv) ∧
    (∀ p, ListExact (dashboardsC p) kv) ∧ (∀ p, ListExact (reportsC E.bc p) kv) ∧ ListExact backupsC kv ∧
    ∀ p ty, ListExact (propsC p ty) kv :=
  ⟨fun p => .of (events_ok p) h.clean (hist_events h hn p), .of accounts_ok h.clean (hist_accounts h hn),
   .of orgs_ok h.clean (hist_orgs h hn), fun p => .of (custom_ok p) h.clean (hist_customs h hn p),
   fun p => .of (dashboards_ok p) h.clean (hist_dashboards h hn p), fun p => .of (reports_ok E.bc p) h.clean (hist_reports h hn p),
   .of backups_ok h.clean (hist_backups h hn), fun p ty => .of (props_ok p ty) h.clean (hist_props h hn p ty)⟩

/-- C69 for projects, in histories that keep names and tokens apart. -/
theorem C69_projects_partial {E : Env Q} {T : Str → Bool} {n : Nat} {kv : Kv} (h : SepHist E T n kv) (hn : n < 2 ^ 62) :
    ListExact projectsC kv := by
  have hi := (h.inv hn).1
  obtain ⟨l, h1, h2, h3⟩ := list_spec (c := pbase) h.hist.clean hi.base
  refine ⟨l, h1, fun r => (h2 r).trans (exists_congr fun id => ?_), h3⟩
  rw [hi.getById, show pbase.live kv id = projectsC.live kv id from rfl]
  cases projectsC.live kv id <;> simp

/-- `list`, teams.rs 110-131: the loop ends after the first team. Which one is first is that of the keys;
here it is the first of the store. -/
def teamList (o : Nat) (kv : Kv) : Except Err (List Team) :=
  readAll (teamsC o).dec ((entries (teamsC o).ns.listPrefix kv).take 1)

theorem readAll_length {α : Type} {dec : Bytes → Option α} {l : List (Str × Bytes)} {as : List α} (h : readAll dec l = .ok as) :
    as.length = l.length := by
  have := congrArg List.length (readAll_map h)
  simpa using this.symm

/-- C69 for teams: the listing is a live team if there is one, never more. -/
theorem C69_teams_partial {E : Env Q} {n : Nat} {kv : Kv} (h : Hist E n kv) (hn : n < 2 ^ 62) (o : Nat) :
    ∃ l, teamList o kv = .ok l ∧ l.length ≤ 1 ∧ (∀ r ∈ l, ∃ id, (teamsC o).getById id kv = .ok r) ∧
      ((∃ id r, (teamsC o).getById id kv = .ok r) → l ≠ []) := by
  have hi := (hist_teams h hn o).inv (teams_ok o)
  obtain ⟨l, h1, h2, -⟩ := list_spec h.clean hi
  have hm := readAll_map h1
  obtain ⟨l', h1', hm'⟩ := readAll_ok (dec := (teamsC o).dec) ((entries (teamsC o).ns.listPrefix kv).take 1) (by
    intro e he
    have : (teamsC o).dec e.2 ∈ l.map some := by rw [← hm]; exact List.mem_map.mpr ⟨e, List.mem_of_mem_take he, rfl⟩
    obtain ⟨a, -, ha⟩ := List.mem_map.mp this
    exact ⟨a, ha.symm⟩)
  have hlen := readAll_length h1'
  refine ⟨l', h1', ?_, ?_, ?_⟩
  · rw [hlen, List.length_take]; omega
  · intro r hr
    obtain ⟨e, he, hd⟩ := (hm' r).mp hr
    have : (teamsC o).dec e.2 ∈ l.map some := by rw [← hm]; exact List.mem_map.mpr ⟨e, List.mem_of_mem_take he, rfl⟩
    rw [hd] at this
    obtain ⟨a, ha, hae⟩ := List.mem_map.mp this
    injection hae with hae
    subst hae
    obtain ⟨id, hid⟩ := (h2 a).mp ha
    exact ⟨id, by rw [getById_eq hi, hid]⟩
  · rintro ⟨id, r, hr⟩ hnil
    have hr' : r ∈ l := (h2 r).mpr ⟨id, by rw [getById_eq hi] at hr; cases hl : (teamsC o).live kv id <;> rw [hl] at hr <;> simp at hr; exact congrArg some hr⟩
    have hlen2 := readAll_length h1
    rw [hnil, List.length_take] at hlen
    have : 0 < l.length := List.length_pos_iff.mpr (fun e => by rw [e] at hr'; cases hr')
    simp only [List.length_nil] at hlen
    omega

theorem exTeams_hist : Hist exEnv 2 (runReqs exEnv exTeams []) := by
  refine Hist.of_run exEnv exTeams ?_
  intro r hr
  simp only [exTeams, List.mem_cons, List.not_mem_nil, or_false] at hr
  rcases hr with rfl | rfl <;> exact ⟨by decide, by decide⟩

/-- C69 fails for teams: of two live teams only one is listed. -/
theorem C69_teams_violated : ∃ kv, Hist exEnv 2 kv ∧ ∃ l r1 r2, teamList 1 kv = .ok l ∧ (teamsC 1).getById 1 kv = .ok r1 ∧
    (teamsC 1).getById 2 kv = .ok r2 ∧ r1.id ≠ r2.id ∧ ¬ (r1 ∈ l ∧ r2 ∈ l) := by
  refine ⟨_, exTeams_hist, ?_⟩
  have hi := (hist_teams exTeams_hist (by decide) 1).inv (teams_ok 1)
  obtain ⟨l, h1, h2, -, -⟩ := C69_teams_partial exTeams_hist (by decide) 1
  have e1 : ((teamsC 1).getById 1 (runReqs exEnv exTeams [])).toOption.map (·.id) = some 1 := by decide +kernel
  have e2 : ((teamsC 1).getById 2 (runReqs exEnv exTeams [])).toOption.map (·.id) = some 2 := by decide +kernel
  cases g1 : (teamsC 1).getById 1 (runReqs exEnv exTeams []) with
  | error x => rw [g1] at e1; cases e1
  | ok r1 => cases g2 : (teamsC 1).getById 2 (runReqs exEnv exTeams []) with
    | error x => rw [g2] at e2; cases e2
    | ok r2 =>
      rw [g1] at e1; rw [g2] at e2
      simp only [Except.toOption, Option.map_some, Option.some.injEq] at e1 e2
      refine ⟨l, r1, r2, h1, rfl, rfl, by omega, ?_⟩
      rintro ⟨m1, m2⟩
      match l, h2, m1, m2 with
      | [], _, m1, _ => cases m1
      | [a], _, m1, m2 =>
        rw [List.mem_singleton] at m1 m2
        subst m1 m2
        omega

/-- A concrete listing: two dashboards of a project, one of another, the first deleted. -/
def exDash (p : Nat) (n : Str) : Req Unit :=
  .dashboardCreate p ⟨0, 0⟩ ⟨0, ⟨0, 0⟩, 1, none, none, 0, none, n, none, []⟩

def exListing : List (Req Unit) := [exDash 1 "a".toList, exDash 1 "b".toList, exDash 2 "c".toList, .dashboardDelete 1 1]

example : Hist exEnv 4 (runReqs exEnv exListing []) ∧
    (((dashboardsC 1).list (runReqs exEnv exListing [])).toOption.map (·.map fun d => (d.id, d.name))) = some [(2, "b".toList)] := by
  refine ⟨Hist.of_run exEnv exListing ?_, by decide +kernel⟩
  intro r hr
  simp only [exListing, List.mem_cons, List.not_mem_nil, or_false] at hr
  rcases hr with rfl | rfl | rfl | rfl
  · exact ⟨by decide, by decide, by simp⟩
  · exact ⟨by decide, by decide, by simp⟩
  · exact ⟨by decide, by decide, by simp⟩
  · trivial

end OptiPrism.Meta
