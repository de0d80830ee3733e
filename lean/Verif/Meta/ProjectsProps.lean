import Verif.Meta.Projects
import Verif.Meta.SystemProps

/-!
# C35 and C27 for projects

Names and tokens are kept in one index. While no name is ever equal to a token — said by a shape `T` that all
requested tokens have and no requested name has, as generated tokens do in practice — lookups by token are
exact. Without it the claims are false.
-/

namespace OptiPrism.Meta

variable {Q : Type} {T : Str → Bool}

theorem getBy_idx {kv : Kv} (h : PInv T kv) (s : Str) (r : Project) :
    projectsC.getBy .name s kv = .ok r ↔ (∃ id, projectsC.getById id kv = .ok r) ∧ (r.name = s ∨ r.token = s) := by
  have hok : ∀ id r, projectsC.getById id kv = .ok r ↔ projectsC.live kv id = some r := fun id r => by
    rw [h.getById]; cases projectsC.live kv id <;> simp
  unfold Coll.getBy getIndex
  have hi := h.idx s
  rw [show Key.idx projectsC.ns .name s = projIdx s from rfl]
  cases hv : getK kv (projIdx s) with
  | none =>
    simp only [reduceCtorEq, false_iff]
    rintro ⟨⟨id, hr⟩, hs⟩
    have := (hi _).mpr ⟨id, rfl, mem_keysAt.mpr ⟨r, (hok _ _).mp hr, by simpa [Project.keys, eq_comm] using hs⟩⟩
    rw [hv] at this
    cases this
  | some v =>
    obtain ⟨id, rfl, hk⟩ := (hi v).mp hv
    obtain ⟨r0, hl, hs⟩ := mem_keysAt.mp hk
    have hlt : id < 2 ^ 64 := by have := (h.live hl).2.2.1; have := h.lt; omega
    simp only [readU64, le64_length, if_true, fromLE_le64 hlt, hok]
    constructor
    · intro e
      rw [hl] at e
      cases e
      exact ⟨⟨id, hl⟩, by simpa [Project.keys, eq_comm] using hs⟩
    · rintro ⟨⟨id', hr⟩, hs'⟩
      have := h.owner hk (mem_keysAt.mpr ⟨r, hr, by simpa [Project.keys, eq_comm] using hs'⟩)
      rw [this]; exact hr

theorem getBy_error {kv : Kv} (h : PInv T kv) (s : Str) : (∃ r, projectsC.getBy .name s kv = .ok r) ∨ projectsC.getBy .name s kv = .error .notFound := by
  unfold Coll.getBy getIndex
  rw [show Key.idx projectsC.ns .name s = projIdx s from rfl]
  cases hv : getK kv (projIdx s) with
  | none => exact .inr rfl
  | some v =>
    obtain ⟨id, rfl, hk⟩ := (h.idx s v).mp hv
    obtain ⟨r0, hl, hs⟩ := mem_keysAt.mp hk
    have hlt : id < 2 ^ 64 := by have := (h.live hl).2.2.1; have := h.lt; omega
    refine .inl ⟨r0, ?_⟩
    simp only [readU64, le64_length, if_true, fromLE_le64 hlt]
    rw [h.getById, hl]

theorem live_sep {kv : Kv} (h : PInv T kv) {id : Nat} {r : Project} (hr : projectsC.getById id kv = .ok r) :
    projectsC.live kv id = some r ∧ r.Sep T := by
  rw [h.getById] at hr
  cases hl : projectsC.live kv id with
  | none => rw [hl] at hr; cases hr
  | some r' => rw [hl] at hr; cases hr; exact ⟨rfl, (h.live hl).2.2.2⟩

/-- C35, for histories whose tokens and names have different shapes: looking up a token-shaped string gives
exactly the live project with that token. -/
theorem C35_partial {E : Env Q} {n : Nat} {kv : Kv} (h : SepHist E T n kv) (hn : n < 2 ^ 62) {t : Str} (ht : T t = true) :
    (∀ r, getByToken t kv = .ok r ↔ (∃ id, projectsC.getById id kv = .ok r) ∧ r.token = t) ∧
    ((∀ id r, projectsC.getById id kv = .ok r → r.token ≠ t) → getByToken t kv = .error .notFound) := by
  have hi := (h.inv hn).1
  have key : ∀ r, getByToken t kv = .ok r ↔ (∃ id, projectsC.getById id kv = .ok r) ∧ r.token = t := by
    intro r
    unfold getByToken
    rw [getBy_idx hi]
    constructor
    · rintro ⟨⟨id, hr⟩, hs | hs⟩
      · have := (live_sep hi hr).2.2.1; rw [hs, ht] at this; cases this
      · exact ⟨⟨id, hr⟩, hs⟩
    · rintro ⟨hr, hs⟩; exact ⟨hr, .inr hs⟩
  refine ⟨key, fun hno => ?_⟩
  rcases getBy_error hi t with ⟨r, hr⟩ | hr
  · obtain ⟨⟨id, h1⟩, h2⟩ := (key r).mp hr
    exact absurd h2 (hno id r h1)
  · exact hr

/-- C35: live projects have different tokens. -/
theorem C35_distinct_partial {E : Env Q} {n : Nat} {kv : Kv} (h : SepHist E T n kv) (hn : n < 2 ^ 62) {id id' : Nat} {r r' : Project}
    (h1 : projectsC.getById id kv = .ok r) (h2 : projectsC.getById id' kv = .ok r') (e : r.token = r'.token) : id = id' := by
  have hi := (h.inv hn).1
  exact hi.owner (s := r.token) (mem_keysAt.mpr ⟨r, (live_sep hi h1).1, by simp [Project.keys]⟩)
    (mem_keysAt.mpr ⟨r', (live_sep hi h2).1, by rw [e]; simp [Project.keys]⟩)

/-- Whatever string is looked up, with the same hypothesis: the project found has it as its token or as its
name. So a name given as a token is accepted. -/
theorem C35_accepts {E : Env Q} {n : Nat} {kv : Kv} (h : SepHist E T n kv) (hn : n < 2 ^ 62) (s : Str) (r : Project) :
    getByToken s kv = .ok r ↔ (∃ id, projectsC.getById id kv = .ok r) ∧ (r.name = s ∨ r.token = s) := getBy_idx (h.inv hn).1 s r

/-- C27 for projects, same hypothesis: names are distinct, creates are refused exactly if the name or the
token is taken. -/
theorem C27_projects_partial {E : Env Q} {n : Nat} {kv : Kv} (h : SepHist E T n kv) (hn : n < 2 ^ 62) :
    (∀ id id' r r', projectsC.getById id kv = .ok r → projectsC.getById id' kv = .ok r' → r.name = r'.name → id = id') ∧
    ∀ now req, (Req.projectCreate (Q := Q) now req).Ok → T req.name = false → T req.token = true →
      ((runCall (projectCreate now req) kv).1 = .error .alreadyExists ↔
        ∃ id r, projectsC.getById id kv = .ok r ∧ (r.name = req.name ∨ r.token = req.token)) := by
  obtain ⟨hi, hle⟩ := h.inv hn
  constructor
  · intro id id' r r' h1 h2 e
    exact hi.owner (s := r.name) (mem_keysAt.mpr ⟨r, (live_sep hi h1).1, by simp [Project.keys]⟩)
      (mem_keysAt.mpr ⟨r', (live_sep hi h2).1, by rw [e]; simp [Project.keys]⟩)
  · intro now req hr hn' ht
    rcases projectCreate_spec hi (by omega) (now := now) hr hn' ht with ⟨⟨j, hj⟩, e⟩ | ⟨hno, kv', e, -⟩
    · rw [runCall, e]
      refine iff_of_true rfl ?_
      rcases hj with hj | hj
      · obtain ⟨r, hl, hk⟩ := mem_keysAt.mp hj
        refine ⟨j, r, by rw [hi.getById, hl], ?_⟩
        simp only [Project.keys, List.mem_cons, List.not_mem_nil, or_false] at hk
        rcases hk with hk | hk
        · exact .inl hk.symm
        · have := (hi.live hl).2.2.2.2.2; rw [← hk, hn'] at this; cases this
      · obtain ⟨r, hl, hk⟩ := mem_keysAt.mp hj
        refine ⟨j, r, by rw [hi.getById, hl], ?_⟩
        simp only [Project.keys, List.mem_cons, List.not_mem_nil, or_false] at hk
        rcases hk with hk | hk
        · have := (hi.live hl).2.2.2.2.1; rw [← hk, ht] at this; cases this
        · exact .inr hk.symm
    · rw [runCall, e]
      refine iff_of_false (by simp) ?_
      rintro ⟨id, r, h1, h2⟩
      obtain ⟨hl, -⟩ := live_sep hi h1
      refine hno id ?_
      rcases h2 with h2 | h2
      · exact .inl (mem_keysAt.mpr ⟨r, hl, by simp [Project.keys, h2]⟩)
      · exact .inr (mem_keysAt.mpr ⟨r, hl, by simp [Project.keys, h2]⟩)

/-! ## Without the hypothesis -/

def exProj (name token : Str) : Project :=
  ⟨0, ⟨0, 0⟩, 1, none, none, 1, name, none, none, token, 60, 0⟩

def exA : Str := "a".toList
def exB : Str := "b".toList
def exTok : Str := "t1".toList

/-- C35 is false: the name of a project is accepted as its token, although no project has that token. -/
theorem C35_violated : let kv := Req.exec exEnv (.projectCreate ⟨0, 0⟩ (exProj exA exTok)) []
    Hist exEnv 1 kv ∧ (getByToken exA kv).toOption.map (·.token) = some exTok ∧ exA ≠ exTok := by
  refine ⟨Hist.step _ .start ⟨by decide, by decide, by decide⟩, by decide +kernel, by decide +kernel⟩

/-- C35 is false: a project created with its name as its token and renamed afterwards is no longer found by
its token. -/
theorem C35_lost_token :
    let kv := runReqs exEnv [.projectCreate ⟨0, 0⟩ (exProj exA exA), .projectUpdate 1 ⟨1, 0⟩ { updatedBy := 1, name := some exB }] []
    Hist exEnv 2 kv ∧ (projectsC.getById 1 kv).toOption.map (·.token) = some exA ∧
      (getByToken exA kv).toOption.map (·.token) = none := by
  refine ⟨Hist.of_run exEnv [_, _] ?_, by decide +kernel, by decide +kernel⟩
  intro r hr
  simp only [List.mem_cons, List.not_mem_nil, or_false] at hr
  rcases hr with rfl | rfl
  · exact ⟨by decide, by decide, by decide⟩
  · exact ⟨by decide, by simp⟩

/-- C27 is false for projects: a create is refused although no live project has the name (or the token). -/
theorem C27_projects_violated : let kv := Req.exec exEnv (.projectCreate ⟨0, 0⟩ (exProj exA exTok)) []
    Hist exEnv 1 kv ∧
    (match (runCall (projectCreate ⟨1, 0⟩ (exProj exTok exB)) kv).1 with | .error e => some e | .ok _ => none) = some .alreadyExists ∧
    ∀ id r, projectsC.getById id kv = .ok r → r.name ≠ exTok ∧ r.token ≠ exB := by
  refine ⟨Hist.step _ .start ⟨by decide, by decide, by decide⟩, by decide +kernel, ?_⟩
  intro id r hr
  have hs : SepHist exEnv (fun s => decide (s = exTok)) 1 (Req.exec exEnv (.projectCreate ⟨0, 0⟩ (exProj exA exTok)) []) :=
    .step _ .start ⟨by decide, by decide, by decide⟩ ⟨by decide +kernel, by decide +kernel⟩
  obtain ⟨hi, hle⟩ := hs.inv (by decide)
  obtain ⟨hl, hsep⟩ := live_sep hi hr
  have := hi.live hl
  have h1 : id = 1 := by omega
  subst h1
  have e1 : (projectsC.getById 1 (Req.exec exEnv (.projectCreate ⟨0, 0⟩ (exProj exA exTok)) [])).toOption.map (fun r => (r.name, r.token)) =
    some (exA, exTok) := by decide +kernel
  rw [hr] at e1
  simp only [Except.toOption, Option.map_some, Option.some.injEq, Prod.mk.injEq] at e1
  rw [e1.1, e1.2]
  decide +kernel

/-- The hypotheses of the partial theorems can be met: two projects. -/
example : ∃ kv, SepHist exEnv (fun s => decide (s.length = 2)) 2 kv ∧
    (getByToken "t2".toList kv).toOption.map (·.name) = some exB := by
  refine ⟨_, .step (.projectCreate ⟨0, 0⟩ (exProj exB "t2".toList)) (.step (.projectCreate ⟨0, 0⟩ (exProj exA exTok)) .start ?_ ?_) ?_ ?_, ?_⟩
  · exact ⟨by decide, by decide, by decide⟩
  · exact ⟨by decide +kernel, by decide +kernel⟩
  · exact ⟨by decide, by decide, by decide⟩
  · exact ⟨by decide +kernel, by decide +kernel⟩
  · decide +kernel

end OptiPrism.Meta
