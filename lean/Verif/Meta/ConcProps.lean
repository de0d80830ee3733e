import Verif.Meta.Conc
import Verif.Meta.SystemProps

/-!
# C26 and C70: creates that overlap

Executions are any interleavings of any number of create calls of one module, step by step. They are right as
long as no call commits after another one has changed something it has read; nothing in the code prevents
this, and then identifiers and names are given out twice.
-/

namespace OptiPrism.Meta

variable {R : Type}

/-- The programs are creates of the collection, with records as the types allow them. -/
def Creates (c : Coll R) (Vd : R → Prop) (p : Prog R) : Prop := ∃ keys mk, p = c.createProg keys mk ∧ (Op.create keys mk).Ok c Vd

/-- Every execution without stale reads has the effect and the answers of the calls one after the other, in the
order of their commits. -/
theorem C26_serializable {α : Type} {P : Prog α → Prop} {kv : Kv} {s : Sys α} (h : VExecs P kv s) : Serial kv s.log s.kv := h.good.serial

theorem serial_creates {c : Coll R} {norm : R → R} {Vd : R → Prop} (ok : c.Ok norm Vd) {kv kv' : Kv} {l : List (Nat × Prog R × R)} (h : Serial kv l kv')
    (hi : c.Inv Vd kv) (hl : lastId kv c.ns + l.length < 2 ^ 63) (hp : ∀ e ∈ l, Creates c Vd e.2.1) :
    c.Inv Vd kv' ∧ lastId kv' c.ns = lastId kv c.ns + l.length ∧
    (∀ e ∈ l, lastId kv c.ns < c.id e.2.2 ∧ c.id e.2.2 ≤ lastId kv' c.ns ∧ c.live kv' (c.id e.2.2) = some (norm e.2.2)) ∧
    (l.map fun e => c.id e.2.2).Pairwise (· < ·) := by
  induction h with
  | nil => exact ⟨hi, rfl, by simp, by simp⟩
  | @snoc l kv1 kv2 t p a hs e ih =>
    rw [List.length_append, List.length_singleton] at hl
    obtain ⟨i1, i2, i3, i4⟩ := ih (by omega) (fun e he => hp e (List.mem_append_left _ he))
    obtain ⟨keys, mk, rfl, ho⟩ := hp (t, p, a) (by simp)
    rw [createProg_call] at e
    obtain ⟨hk, hid, hv⟩ := ho
    rcases create_spec ok i1 (by omega) hk hid hv with ⟨-, e'⟩ | ⟨-, kv1', e', j1, j2, j3⟩
    · rw [e'] at e; cases e
    · rw [e'] at e
      injection e with e
      injection e with e1 e2
      subst e1 e2
      refine ⟨j1, by rw [j2, i2, List.length_append, List.length_singleton]; omega, ?_, ?_⟩
      · intro e he
        rw [List.mem_append, List.mem_singleton] at he
        rcases he with he | rfl
        · obtain ⟨k1, k2, k3⟩ := i3 e he
          refine ⟨k1, by omega, ?_⟩
          rw [j3, if_neg (by omega)]
          exact k3
        · dsimp only
          rw [hid]
          refine ⟨by omega, by omega, ?_⟩
          rw [j3, if_pos rfl]
      · rw [List.map_append, List.pairwise_append]
        refine ⟨i4, by simp, ?_⟩
        intro x hx y hy
        obtain ⟨e, he, rfl⟩ := List.mem_map.mp hx
        simp only [List.map_cons, List.map_nil, List.mem_singleton] at hy
        subst hy
        rw [hid]
        have := (i3 e he).2.1
        omega

/-- C26, for all interleavings in which no create commits on stale reads: the identifiers given out are
distinct — they increase in the order of the commits — and new, and every created record is there afterwards.
Missing: the interleavings in which two creates read the same counter value. -/
theorem C26_partial {c : Coll R} {norm : R → R} {Vd : R → Prop} (ok : c.Ok norm Vd) {kv : Kv} (hi : c.Inv Vd kv) {s : Sys R}
    (h : VExecs (Creates c Vd) kv s) (hl : lastId kv c.ns + s.log.length < 2 ^ 63) :
    (s.log.map fun e => c.id e.2.2).Pairwise (· < ·) ∧
    ∀ e ∈ s.log, lastId kv c.ns < c.id e.2.2 ∧ c.getById (c.id e.2.2) s.kv = .ok (norm e.2.2) := by
  obtain ⟨h1, -, h3, h4⟩ := serial_creates ok h.good.serial hi hl h.good.progs
  refine ⟨h4, fun e he => ⟨(h3 e he).1, ?_⟩⟩
  rw [getById_eq h1, (h3 e he).2.2]

/-- C70, for the same interleavings: afterwards no two live records share a unique value. -/
theorem C70_partial {c : Coll R} {norm : R → R} {Vd : R → Prop} (ok : c.Ok norm Vd) {kv : Kv} (hi : c.Inv Vd kv) {s : Sys R}
    (h : VExecs (Creates c Vd) kv s) (hl : lastId kv c.ns + s.log.length < 2 ^ 63) {i : Ix × (R → Option Str)} (hm : i ∈ c.ixs)
    {id id' : Nat} {r r' : R} (h1 : c.getById id s.kv = .ok r) (h2 : c.getById id' s.kv = .ok r') {x : Str} (hx : i.2 r = some x) (hx' : i.2 r' = some x) :
    id = id' := by
  obtain ⟨hj, -, -, -⟩ := serial_creates ok h.good.serial hi hl h.good.progs
  have hget : ∀ id r, c.getById id s.kv = .ok r → c.live s.kv id = some r := by
    intro id r h
    rw [getById_eq hj] at h
    cases hl : c.live s.kv id with
    | none => rw [hl] at h; cases h
    | some y => rw [hl] at h; injection h with h; rw [h]
  obtain ⟨v1, e1⟩ : ∃ v, getK s.kv (.idx c.ns i.1 x) = some v ∧ v = le64 id := ⟨_, (hj.idx i hm x _).mpr ⟨id, r, rfl, hget _ _ h1, hx⟩, rfl⟩
  have e2 := (hj.idx i hm x _).mpr ⟨id', r', rfl, hget _ _ h2, hx'⟩
  rw [e1.1] at e2
  injection e2 with e2
  have l1 := (Inv.live_id hj (hget _ _ h1)).2.2.1
  have l2 := (Inv.live_id hj (hget _ _ h2)).2.2.1
  have := lastId_lt hj
  exact le64_inj (by omega) (by omega) (e1.2.symm.trans e2)

/-! ## What the code allows -/

/-- `Teams::create`, teams.rs 68-101, as a program. -/
def teamProg (name : Str) : Prog Team :=
  (teamsC 1).createProg [some (.idx (.teams 1) .name name)] fun id => ⟨id, ⟨0, 0⟩, 1, none, none, 1, name⟩

/-- The interleaved calls are those of the sequential model. -/
theorem teamProg_call (name : Str) : (teamProg name).call = teamCreate 1 ⟨0, 0⟩ 1 name := createProg_call ..

theorem teamProg_creates (name : Str) : Creates (teamsC 1) Team.Valid (teamProg name) :=
  ⟨_, _, rfl, teamCreate_ok (now := ⟨0, 0⟩) (name := name) (by decide) (by decide)⟩

def runN (t n : Nat) : List (Act Team) := List.replicate n (.run t)

/-- The first create checks its name and reads the counter, then the second one runs, then the first goes on. -/
def exOverlap : List (Act Team) := .start 1 (teamProg "a".toList) :: runN 1 2 ++ .start 2 (teamProg "b".toList) :: runN 2 6 ++ runN 1 4

def answers (o : Option (Sys Team)) : Option (List (Nat × Nat)) := o.map fun s => s.log.map fun e => (e.1, e.2.2.id)

theorem run_execs {acts : List (Act Team)} {s : Sys Team} (h : (Sys.init []).runActs acts = some s) (ha : ∀ t p, Act.start t p ∈ acts → ∃ n, p = teamProg n) :
    Execs (Creates (teamsC 1) Team.Valid) [] s :=
  Execs.of_run acts .init (fun t p hm => by obtain ⟨n, rfl⟩ := ha t p hm; exact teamProg_creates n) h

theorem mem_runN {t n : Nat} {u : Nat} {p : Prog Team} : Act.start u p ∉ runN t n := by
  intro h
  have := (List.mem_replicate.mp h).2
  cases this

/-- C26 fails: two overlapping creates are both answered with identifier 1, and only one team exists
afterwards. -/
theorem C26_violated : ∃ s, Execs (Creates (teamsC 1) Team.Valid) [] s ∧ s.log.map (fun e => (e.1, e.2.2.id)) = [(2, 1), (1, 1)] ∧
    ∀ id, id ≠ 1 → getK s.kv (.data (.teams 1) id) = none := by
  have e : ((Sys.init []).runActs exOverlap).map (fun s => (s.log.map (fun e => (e.1, e.2.2.id)), s.kv.map (·.1))) =
      some ([(2, 1), (1, 1)], [(Key.idx (.teams 1) .name "a".toList).render, (Key.data (.teams 1) 1).render, (Key.seq (.teams 1)).render,
        (Key.idx (.teams 1) .name "b".toList).render]) := by decide +kernel
  cases hs : (Sys.init []).runActs exOverlap with
  | none => rw [hs] at e; cases e
  | some s =>
    rw [hs] at e
    simp only [Option.map_some, Option.some.injEq, Prod.mk.injEq] at e
    refine ⟨s, run_execs hs ?_, e.1, ?_⟩
    · intro t p hm
      simp only [exOverlap, List.mem_append, List.mem_cons, mem_runN, or_false, false_or, Act.start.injEq, List.cons_append] at hm
      rcases hm with ⟨-, rfl⟩ | ⟨-, rfl⟩ <;> exact ⟨_, rfl⟩
    · intro id hid
      unfold getK Kv.get
      rw [List.find?_eq_none.mpr, Option.map_none]
      intro x hx hr
      have hm : x.1 ∈ s.kv.map (·.1) := List.mem_map.mpr ⟨x, hx, rfl⟩
      rw [e.2, of_decide_eq_true hr] at hm
      simp only [List.mem_cons, List.not_mem_nil, or_false] at hm
      rcases hm with hm | hm | hm | hm
      · have := (render_eq (k := .data (.teams 1) id) trivial (k' := .idx (.teams 1) .name "a".toList) trivial).mp hm; cases this
      · have := (render_eq (k := .data (.teams 1) id) trivial (k' := .data (.teams 1) 1) trivial).mp hm
        injection this with _ this
        exact hid this
      · have := (render_eq (k := .data (.teams 1) id) trivial (k' := .seq (.teams 1)) trivial).mp hm; cases this
      · have := (render_eq (k := .data (.teams 1) id) trivial (k' := .idx (.teams 1) .name "b".toList) trivial).mp hm; cases this

/-- A create that has read the counter long ago: 1 reads, 2 and 3 are done one after the other, 1 sets the counter back,
and 4, which starts after all of them, gets the identifier of 3. -/
def exStale : List (Act Team) := .start 1 (teamProg "a".toList) :: runN 1 2 ++ .start 2 (teamProg "b".toList) :: runN 2 6 ++
  .start 3 (teamProg "c".toList) :: runN 3 6 ++ runN 1 4 ++ .start 4 (teamProg "d".toList) :: runN 4 6

/-- C26 fails even for two creates that do not overlap, if a third one overlaps both: calls 3 and 4. -/
theorem C26_stale_violated : ∃ s, Execs (Creates (teamsC 1) Team.Valid) [] s ∧
    s.log.map (fun e => (e.1, e.2.2.id)) = [(2, 1), (3, 2), (1, 1), (4, 2)] := by
  have e : ((Sys.init []).runActs exStale).map (fun s => s.log.map (fun e => (e.1, e.2.2.id))) = some [(2, 1), (3, 2), (1, 1), (4, 2)] := by decide +kernel
  cases hs : (Sys.init []).runActs exStale with
  | none => rw [hs] at e; cases e
  | some s =>
    rw [hs] at e
    simp only [Option.map_some, Option.some.injEq] at e
    refine ⟨s, run_execs hs ?_, e⟩
    intro t p hm
    simp only [exStale, List.mem_append, List.mem_cons, mem_runN, or_false, false_or, Act.start.injEq, List.cons_append, or_assoc] at hm
    rcases hm with ⟨-, rfl⟩ | ⟨-, rfl⟩ | ⟨-, rfl⟩ | ⟨-, rfl⟩ <;> exact ⟨_, rfl⟩

/-- The first create has only checked its name when the second one runs. -/
def exSameName : List (Act Team) := .start 1 (teamProg "a".toList) :: runN 1 1 ++ .start 2 (teamProg "a".toList) :: runN 2 6 ++ runN 1 5

/-- C70 fails: two live teams with one name. -/
theorem C70_violated : ∃ s r r', Execs (Creates (teamsC 1) Team.Valid) [] s ∧ (teamsC 1).getById 1 s.kv = .ok r ∧ (teamsC 1).getById 2 s.kv = .ok r' ∧
    r.name = r'.name := by
  have e : ((Sys.init []).runActs exSameName).map (fun s => (((teamsC 1).getById 1 s.kv).toOption.map (·.name), ((teamsC 1).getById 2 s.kv).toOption.map (·.name))) =
      some (some "a".toList, some "a".toList) := by decide +kernel
  cases hs : (Sys.init []).runActs exSameName with
  | none => rw [hs] at e; cases e
  | some s =>
    rw [hs] at e
    simp only [Option.map_some, Option.some.injEq, Prod.mk.injEq] at e
    cases g1 : (teamsC 1).getById 1 s.kv with
    | error x => rw [g1] at e; cases e.1
    | ok r => cases g2 : (teamsC 1).getById 2 s.kv with
      | error x => rw [g2] at e; cases e.2
      | ok r' =>
        rw [g1, g2] at e
        simp only [Except.toOption, Option.map_some, Option.some.injEq] at e
        refine ⟨s, r, r', run_execs hs ?_, g1, g2, by rw [e.1, e.2]⟩
        intro t p hm
        simp only [exSameName, List.mem_append, List.mem_cons, mem_runN, or_false, false_or, Act.start.injEq, List.cons_append] at hm
        rcases hm with ⟨-, rfl⟩ | ⟨-, rfl⟩ <;> exact ⟨_, rfl⟩

/-- A case of `C26_partial` with overlap: the second create reads its counter after the first has committed. -/
def exGood : List (Act Team) := .start 1 (teamProg "a".toList) :: .start 2 (teamProg "b".toList) :: runN 1 1 ++ runN 2 1 ++ runN 1 5 ++ runN 2 5

/-- `Valid`, computed. -/
def validB (s : Sys Team) : Act Team → Bool
  | .run t => match s.tx t with
    | none => true
    | some x => match x.prog with
      | .ret (.ok _) => x.reads.all fun e => getK s.kv e.1 = e.2
      | _ => true
  | _ => true

theorem validB_valid {s : Sys Team} {a : Act Team} (h : validB s a = true) : Valid s a := by
  cases a with
  | start t p => trivial
  | timeout t => trivial
  | run t =>
    intro x a hx hp e he
    unfold validB at h
    dsimp only at h
    rw [hx] at h
    dsimp only at h
    rw [hp] at h
    exact of_decide_eq_true (List.all_eq_true.mp h e he)

def runValid : Sys Team → List (Act Team) → Option (Sys Team)
  | s, [] => some s
  | s, a :: as => if validB s a then (match s.step a with | none => none | some s' => runValid s' as) else none

theorem runValid_execs (acts : List (Act Team)) : ∀ {s s' : Sys Team}, VExecs (Creates (teamsC 1) Team.Valid) [] s →
    (∀ t p, Act.start t p ∈ acts → ∃ n, p = teamProg n) → runValid s acts = some s' → VExecs (Creates (teamsC 1) Team.Valid) [] s' := by
  induction acts with
  | nil => intro s s' h _ e; injection e with e; exact e ▸ h
  | cons a as ih =>
    intro s s' h hp e
    unfold runValid at e
    split at e
    · rename_i hv
      split at e
      · cases e
      · rename_i s1 h1
        refine ih (h.step a (fun t p ea => ?_) (validB_valid hv) h1) (fun t p hm => hp t p (List.mem_cons_of_mem _ hm)) e
        obtain ⟨n, rfl⟩ := hp t p (ea ▸ List.mem_cons_self ..)
        exact teamProg_creates n
    · cases e

example : ∃ s, VExecs (Creates (teamsC 1) Team.Valid) [] s ∧ s.log.map (fun e => (e.1, e.2.2.id)) = [(1, 1), (2, 2)] := by
  have e : answers (runValid (Sys.init []) exGood) = some [(1, 1), (2, 2)] := by decide +kernel
  cases hs : runValid (Sys.init []) exGood with
  | none => rw [hs] at e; cases e
  | some s =>
    rw [hs] at e
    simp only [answers, Option.map_some, Option.some.injEq] at e
    refine ⟨s, runValid_execs exGood .init ?_ hs, e⟩
    intro t p hm
    simp only [exGood, List.mem_append, List.mem_cons, mem_runN, or_false, false_or, Act.start.injEq, List.cons_append] at hm
    rcases hm with ⟨-, rfl⟩ | ⟨-, rfl⟩ <;> exact ⟨_, rfl⟩

end OptiPrism.Meta
