import Verif.Meta.SystemReach

/-!
# Projects: names and tokens in one index

projects.rs 24-46 makes the keys of names and of tokens with the same index name, so that one index holds
both. The invariant: the index contains exactly the names and tokens of the live projects.
-/

namespace OptiPrism.Meta

open OptiPrism.Storage (Bytes)

variable {Q : Type} {T : Str → Bool}

theorem Steps.get {P : Key → Prop} {a b : Kv} (h : Steps P a b) {k : Key} (hk : k.WF) (hne : ∀ k', P k' → k' ≠ k) :
    getK b k = getK a k := by
  induction h with
  | refl => rfl
  | put v _ hw hp ih => rw [getK_putK _ hw hk, if_neg (Ne.symm (hne _ hp)), ih]
  | del _ hw hp ih => rw [getK_delK _ hw hk, if_neg (Ne.symm (hne _ hp)), ih]

/-- The projects without their indexes. -/
def pbase : Coll Project := ⟨.top .projects, [], Project.enc, Project.dec, Project.id⟩

/-- What a project is found by. -/
def Project.keys (r : Project) : List Str := [r.name, r.token]

def keysAt (l : Nat → Option Project) (id : Nat) : List Str := ((l id).map Project.keys).getD []

/-- Valid, and the token is of the shape `T` the name is not of. -/
def Project.Sep (T : Str → Bool) (r : Project) : Prop := r.Valid ∧ T r.name = false ∧ T r.token = true

structure PInv (T : Str → Bool) (kv : Kv) : Prop where
  seq : ∀ v, getK kv (.seq (.top .projects)) = some v → v.length = 8
  data : ∀ id v, getK kv (.data (.top .projects) id) = some v →
    ∃ r, Project.dec v = some r ∧ r.id = id ∧ 0 < id ∧ id ≤ lastId kv (.top .projects) ∧ r.Sep T
  idx : ∀ s v, getK kv (projIdx s) = some v ↔ ∃ id, v = le64 id ∧ s ∈ keysAt (projectsC.live kv) id

theorem PInv.base {kv : Kv} (h : PInv T kv) : pbase.Inv (Project.Sep T) kv :=
  ⟨h.seq, fun id v hv => h.data id v hv, by simp [pbase]⟩

theorem PInv.lt {kv : Kv} (h : PInv T kv) : lastId kv (.top .projects) < 2 ^ 64 := lastId_lt h.base

theorem PInv.live {kv : Kv} (h : PInv T kv) {id : Nat} {r : Project} (hl : projectsC.live kv id = some r) :
    r.id = id ∧ 0 < id ∧ id ≤ lastId kv (.top .projects) ∧ r.Sep T := Inv.live_id h.base hl

theorem PInv.getById {kv : Kv} (h : PInv T kv) (id : Nat) :
    projectsC.getById id kv = match projectsC.live kv id with | none => .error .notFound | some r => .ok r := by
  unfold Coll.getById Coll.live
  cases hv : getK kv (.data projectsC.ns id) with
  | none => rfl
  | some v => obtain ⟨r, h1, -⟩ := h.data id v hv; simp [projectsC, h1]

theorem mem_keysAt {l : Nat → Option Project} {id : Nat} {s : Str} : s ∈ keysAt l id ↔ ∃ r, l id = some r ∧ s ∈ r.keys := by
  unfold keysAt
  cases l id <;> simp

theorem PInv.owner {kv : Kv} (h : PInv T kv) {id id' : Nat} {s : Str} (h1 : s ∈ keysAt (projectsC.live kv) id)
    (h2 : s ∈ keysAt (projectsC.live kv) id') : id = id' := by
  have e1 := (h.idx s _).mpr ⟨id, rfl, h1⟩
  have e2 := (h.idx s _).mpr ⟨id', rfl, h2⟩
  rw [e1] at e2
  injection e2 with e2
  obtain ⟨r, hr, -⟩ := mem_keysAt.mp h1
  obtain ⟨r', hr', -⟩ := mem_keysAt.mp h2
  have := h.lt
  have := (h.live hr).2.2.1
  have := (h.live hr').2.2.1
  exact le64_inj (by omega) (by omega) e2

theorem projects_norm {r : Project} (h : r.Sep T) : r.norm.Sep T := ⟨⟨h.1.head, h.1.org, h.1.dur, h.1.count⟩, h.2⟩

/-- A change of one record with the matching change of the index keeps the invariant. -/
theorem PInv.step {kv kv' : Kv} (h : PInv T kv) {id : Nat} {new : Option Project} (hid : 0 < id)
    (hlast : lastId kv (.top .projects) ≤ lastId kv' (.top .projects))
    (hseq : ∀ v, getK kv' (.seq (.top .projects)) = some v → v.length = 8)
    (hnew : ∀ r, new = some r → r.id = id ∧ id ≤ lastId kv' (.top .projects) ∧ r.Sep T)
    (hdata : ∀ j, getK kv' (.data (.top .projects) j) = if j = id then new.map Project.enc else getK kv (.data (.top .projects) j))
    (hfree : ∀ r s, new = some r → s ∈ r.keys → ∀ j, s ∈ keysAt (projectsC.live kv) j → j = id)
    (hidx : ∀ s, getK kv' (projIdx s) = if s ∈ (new.map Project.keys).getD [] then some (le64 id)
      else if s ∈ keysAt (projectsC.live kv) id then none else getK kv (projIdx s)) : PInv T kv' := by
  have hdec : ∀ r, new = some r → Project.dec r.enc = some r.norm := fun r hr => Project.dec_enc r (hnew r hr).2.2.1
  have hkeys : ∀ j, keysAt (projectsC.live kv') j = if j = id then (new.map Project.keys).getD [] else keysAt (projectsC.live kv) j := by
    intro j
    have hd := hdata j
    unfold keysAt Coll.live
    rw [show projectsC.ns = .top .projects from rfl, hd]
    by_cases hj : j = id
    · rw [if_pos hj, if_pos hj]
      cases hn : new with
      | none => rfl
      | some r => simp only [Option.map_some, Option.bind_some, Option.getD_some, show projectsC.dec = Project.dec from rfl, hdec r hn]; rfl
    · rw [if_neg hj, if_neg hj]
  refine ⟨hseq, ?_, ?_⟩
  · intro j v hv
    rw [hdata] at hv
    by_cases hj : j = id
    · rw [if_pos hj] at hv
      obtain ⟨r, hr, rfl⟩ := Option.map_eq_some_iff.mp hv
      obtain ⟨h1, h2, h3⟩ := hnew r hr
      exact ⟨r.norm, hdec r hr, by rw [hj]; exact h1, by omega, by omega, projects_norm h3⟩
    · rw [if_neg hj] at hv
      obtain ⟨r, h1, h2, h3, h4, h5⟩ := h.data j v hv
      exact ⟨r, h1, h2, h3, by omega, h5⟩
  · intro s v
    rw [hidx]
    by_cases hs : s ∈ (new.map Project.keys).getD []
    · rw [if_pos hs]
      constructor
      · intro e
        injection e with e
        exact ⟨id, e.symm, by rw [hkeys, if_pos rfl]; exact hs⟩
      · rintro ⟨j, rfl, hj⟩
        rw [hkeys] at hj
        by_cases e : j = id
        · rw [e]
        · rw [if_neg e] at hj
          cases hn : new with
          | none => rw [hn] at hs; simp at hs
          | some r => rw [hn] at hs; exact absurd (hfree r s hn hs j hj) e
    · rw [if_neg hs]
      by_cases ho : s ∈ keysAt (projectsC.live kv) id
      · rw [if_pos ho]
        constructor
        · intro e; cases e
        · rintro ⟨j, rfl, hj⟩
          rw [hkeys] at hj
          by_cases e : j = id
          · rw [if_pos e] at hj; exact absurd hj hs
          · rw [if_neg e] at hj; exact absurd (h.owner hj ho) e
      · rw [if_neg ho, h.idx]
        constructor
        · rintro ⟨j, e1, e2⟩
          refine ⟨j, e1, ?_⟩
          rw [hkeys, if_neg]
          · exact e2
          · rintro rfl; exact ho e2
        · rintro ⟨j, e1, e2⟩
          refine ⟨j, e1, ?_⟩
          rw [hkeys] at e2
          by_cases e : j = id
          · rw [if_pos e] at e2; exact absurd e2 hs
          · rw [if_neg e] at e2; exact e2

theorem PInv.agree {kv kv' : Kv} (h : PInv T kv) (ha : AgreeOn (.top .projects) kv kv') : PInv T kv' := by
  have hl : projectsC.live kv' = projectsC.live kv := funext fun j => ha.live (c := projectsC) j
  have hla : lastId kv' (.top .projects) = lastId kv (.top .projects) := ha.last
  refine ⟨fun v hv => h.seq v (by rw [← ha _ rfl]; exact hv), fun id v hv => ?_, fun s v => ?_⟩
  · rw [hla]; exact h.data id v (by rw [← ha _ rfl]; exact hv)
  · rw [hl, ha _ rfl]; exact h.idx s v

theorem clash_iff {kv : Kv} (h : PInv T kv) (s : Str) : (getK kv (projIdx s)).isSome = true ↔ ∃ j, s ∈ keysAt (projectsC.live kv) j := by
  rw [Option.isSome_iff_exists]
  constructor
  · rintro ⟨v, hv⟩; obtain ⟨j, -, hj⟩ := (h.idx s v).mp hv; exact ⟨j, hj⟩
  · rintro ⟨j, hj⟩; exact ⟨_, (h.idx s _).mpr ⟨j, rfl, hj⟩⟩

theorem putIdx_get (kv : Kv) (s t : Str) (v : Bytes) : getK (putK kv (projIdx t) v) (projIdx s) = if s = t then some v else getK kv (projIdx s) := by
  unfold projIdx
  rw [getK_putK _ (wf_idx _ _ _) (wf_idx _ _ _)]
  simp

theorem delIdx_get (kv : Kv) (s t : Str) : getK (delK kv (projIdx t)) (projIdx s) = if s = t then none else getK kv (projIdx s) := by
  unfold projIdx
  rw [getK_delK _ (wf_idx _ _ _) (wf_idx _ _ _)]
  simp

theorem updateIndex_append (a b : List (Option Key × Option Key)) (id : Nat) (kv : Kv) :
    updateIndex (a ++ b) id kv = updateIndex b id (updateIndex a id kv) := by
  induction a generalizing kv with
  | nil => rfl
  | cons p a ih => obtain ⟨k, p⟩ := p; simp only [List.cons_append, updateIndex]; rw [ih]

/-- The keys of one field of an update request. -/
def pairOpt (q : Option Str) (cur : Str) : List (Option Key × Option Key) :=
  match q with | none => [] | some n => [(some (projIdx n), some (projIdx cur))]

theorem pairs_eq (q : ProjectUpd) (r : Project) : q.pairs r = pairOpt q.name r.name ++ pairOpt q.token r.token := rfl

theorem pairOpt_get (q : Option Str) (cur : Str) (id : Nat) (kv : Kv) (h : getK kv (projIdx cur) = some (le64 id)) (s : Str) :
    getK (updateIndex (pairOpt q cur) id kv) (projIdx s) =
      if s = q.getD cur then some (le64 id) else if s = cur then none else getK kv (projIdx s) := by
  cases q with
  | none =>
    simp only [pairOpt, updateIndex, Option.getD_none]
    by_cases e : s = cur
    · rw [if_pos e, e, h]
    · rw [if_neg e, if_neg e]
  | some n =>
    simp only [pairOpt, updateIndex, Option.getD_some, ne_eq, Option.some.injEq, projIdx, Key.idx.injEq, true_and]
    have e := putIdx_get
    have e2 := delIdx_get
    unfold projIdx at e e2
    rw [e]
    by_cases hs : s = n
    · rw [if_pos hs, if_pos hs]
    · rw [if_neg hs, if_neg hs]
      by_cases hn : n = cur
      · rw [if_neg (by simp [hn]), if_neg (by rw [← hn]; exact hs)]
      · rw [if_pos hn, e2]

theorem pairOpt_in (q : Option Str) (cur : Str) : PairsIn (IdxOf (.top .projects)) (pairOpt q cur) := by
  cases q with
  | none => exact pairs_nil _
  | some n => exact pairs_one (.top .projects) .name (some n) (some cur)

theorem pairOpt_clash {kv : Kv} (h : PInv T kv) (q : Option Str) (cur : Str) : clashUpdate (pairOpt q cur) kv = true ↔
    q.getD cur ≠ cur ∧ ∃ j, q.getD cur ∈ keysAt (projectsC.live kv) j := by
  cases q with
  | none => simp [pairOpt, clashUpdate]
  | some n =>
    simp only [pairOpt, clashUpdate, List.any_cons, List.any_nil, Bool.or_false, Bool.and_eq_true, decide_eq_true_eq,
      Option.getD_some, ne_eq, Option.some.injEq, projIdx, Key.idx.injEq, true_and]
    rw [show Key.idx (.top .projects) .name n = projIdx n from rfl, clash_iff h]

theorem live_none {kv : Kv} (h : PInv T kv) {id : Nat} (hid : lastId kv (.top .projects) < id) : projectsC.live kv id = none := by
  cases hx : projectsC.live kv id with
  | none => rfl
  | some r => have := (h.live hx).2.2.1; omega

def projMk (now : Time) (req : Project) (id : Nat) : Project :=
  { req with id := id, createdAt := now, updatedAt := none, updatedBy := none, eventsCount := 0 }

/-- Create: refused exactly if a live project has the name or the token. -/
theorem projectCreate_spec {kv : Kv} (h : PInv T kv) (hl : lastId kv (.top .projects) + 1 < 2 ^ 64) {now : Time} {req : Project}
    (hr : req.createdBy < 2 ^ 64 ∧ req.orgId < 2 ^ 64 ∧ req.sessionDuration < 2 ^ 64) (hn : T req.name = false) (ht : T req.token = true) :
    ((∃ j, req.name ∈ keysAt (projectsC.live kv) j ∨ req.token ∈ keysAt (projectsC.live kv) j) ∧
      projectCreate now req kv = .error .alreadyExists) ∨
    ((∀ j, ¬ (req.name ∈ keysAt (projectsC.live kv) j ∨ req.token ∈ keysAt (projectsC.live kv) j)) ∧
      ∃ kv', projectCreate now req kv = .ok (projMk now req (lastId kv (.top .projects) + 1), kv') ∧ PInv T kv' ∧
        lastId kv' (.top .projects) = lastId kv (.top .projects) + 1) := by
  have hns : nextSeq (.seq (.top .projects)) kv = _ := nextSeq_eq h.base hl
  by_cases hc : clashInsert [some (projIdx req.name), some (projIdx req.token)] kv = true
  · refine .inl ⟨?_, by unfold projectCreate Coll.create; rw [if_pos hc]⟩
    simp only [clashInsert, List.any_cons, List.any_nil, Bool.or_false, Bool.or_eq_true, clash_iff h] at hc
    rcases hc with ⟨j, hj⟩ | ⟨j, hj⟩
    · exact ⟨j, .inl hj⟩
    · exact ⟨j, .inr hj⟩
  · have e : projectCreate now req kv = .ok (projMk now req (lastId kv (.top .projects) + 1),
        insertIndex [some (projIdx req.name), some (projIdx req.token)] (lastId kv (.top .projects) + 1)
          (putK (putK kv (.seq (.top .projects)) (le64 (lastId kv (.top .projects) + 1))) (.data (.top .projects) (lastId kv (.top .projects) + 1))
            (projMk now req (lastId kv (.top .projects) + 1)).enc)) := by
      unfold projectCreate Coll.create
      rw [if_neg hc, show projectsC.ns = .top .projects from rfl, hns]
      rfl
    simp only [clashInsert, List.any_cons, List.any_nil, Bool.or_false, Bool.or_eq_true, not_or, clash_iff h, not_exists] at hc
    refine .inr ⟨fun j hj => hj.elim (hc.1 j) (hc.2 j), _, e, ?_⟩
    clear e hns
    generalize hid : lastId kv (.top .projects) + 1 = id at *
    generalize hkv : insertIndex [some (projIdx req.name), some (projIdx req.token)] id
        (putK (putK kv (.seq (.top .projects)) (le64 id)) (.data (.top .projects) id) (projMk now req id).enc) = kv'
    have g : ∀ k : Key, k.WF → (∀ ns ix s, k ≠ .idx ns ix s) → getK kv' k =
        if k = .data (.top .projects) id then some (projMk now req id).enc else if k = .seq (.top .projects) then some (le64 id) else getK kv k := by
      intro k hk hne
      rw [← hkv]
      simp only [insertIndex, projIdx]
      rw [getK_putK _ (wf_idx _ _ _) hk, if_neg (hne _ _ _), getK_putK _ (wf_idx _ _ _) hk, if_neg (hne _ _ _),
        getK_putK _ (wf_data _ _) hk, getK_putK _ (wf_seq _) hk]
    have gi : ∀ s, getK kv' (projIdx s) =
        if s = req.token then some (le64 id) else if s = req.name then some (le64 id) else getK kv (projIdx s) := by
      intro s
      rw [← hkv]
      simp only [insertIndex]
      rw [putIdx_get, putIdx_get]
      unfold projIdx
      rw [getK_putK _ (wf_data _ _) (wf_idx _ _ _), getK_putK _ (wf_seq _) (wf_idx _ _ _)]
      simp only [reduceCtorEq, if_false]
    have hseq := g (.seq (.top .projects)) (wf_seq _) (by intro _ _ _ e; cases e)
    rw [if_neg (by intro e; cases e), if_pos rfl] at hseq
    have hlast : lastId kv' (.top .projects) = id := by
      unfold lastId
      rw [hseq]
      exact fromLE_le64 hl
    have hfresh : projectsC.live kv id = none := live_none h (by omega)
    refine ⟨h.step (id := id) (new := some (projMk now req id)) (by omega) (by omega) ?_ ?_ ?_ ?_ ?_, hlast⟩
    · intro v hv
      rw [hseq] at hv
      injection hv with hv
      rw [← hv, le64_length]
    · rintro _ ⟨⟩
      exact ⟨rfl, by omega, ⟨⟨hl, hr.1, optOk_none⟩, hr.2.1, hr.2.2, Nat.two_pow_pos 64⟩, hn, ht⟩
    · intro j
      rw [g _ (wf_data _ _) (by intro _ _ _ e; cases e)]
      simp
    · rintro _ s ⟨⟩ hs j hj
      simp only [Project.keys, projMk, List.mem_cons, List.not_mem_nil, or_false] at hs
      rcases hs with rfl | rfl
      · exact absurd hj (hc.1 j)
      · exact absurd hj (hc.2 j)
    · intro s
      rw [gi]
      simp only [Option.map_some, Option.getD_some, Project.keys, projMk, keysAt, hfresh, Option.map_none, Option.getD_none, List.mem_cons,
        List.not_mem_nil, or_false, if_false]
      by_cases h1 : s = req.token
      · simp [h1]
      · by_cases h2 : s = req.name <;> simp [h1, h2]

/-- A record change with index keys given by `q.pairs`. -/
theorem projectUpdate_spec {kv : Kv} (h : PInv T kv) {id : Nat} {q : ProjectUpd} {r : Project} {t : Project → Project}
    (hl : projectsC.live kv id = some r) (hid : (t r).id = r.id) (hn : (t r).name = q.name.getD r.name) (htk : (t r).token = q.token.getD r.token)
    (hsep : (t r).Sep T) :
    ((∃ j, j ≠ id ∧ ∃ s ∈ (t r).keys, s ∈ keysAt (projectsC.live kv) j) ∧
      projectsC.update id q.pairs (fun r => .ok (t r)) kv = .error .alreadyExists) ∨
    ((∀ j, j ≠ id → ∀ s ∈ (t r).keys, s ∉ keysAt (projectsC.live kv) j) ∧
      ∃ kv', projectsC.update id q.pairs (fun r => .ok (t r)) kv = .ok (t r, kv') ∧ PInv T kv' ∧
        lastId kv' (.top .projects) = lastId kv (.top .projects)) := by
  obtain ⟨h1, h2, h3, h4⟩ := h.live hl
  have hg : projectsC.getById id kv = .ok r := by rw [h.getById, hl]
  have hkr : keysAt (projectsC.live kv) id = r.keys := by simp [keysAt, hl]
  have hnt : r.name ≠ r.token := fun e => by have := h4.2.1; rw [e, h4.2.2] at this; cases this
  have hnt' : (t r).name ≠ (t r).token := fun e => by have := hsep.2.1; rw [e, hsep.2.2] at this; cases this
  have hown : ∀ s ∈ r.keys, ∀ j, s ∈ keysAt (projectsC.live kv) j → j = id := fun s hs j hj => h.owner hj (by rw [hkr]; exact hs)
  have hcl : clashUpdate (q.pairs r) kv = true ↔ ∃ j, j ≠ id ∧ ∃ s ∈ (t r).keys, s ∈ keysAt (projectsC.live kv) j := by
    have e : clashUpdate (q.pairs r) kv = (clashUpdate (pairOpt q.name r.name) kv || clashUpdate (pairOpt q.token r.token) kv) := by
      rw [pairs_eq]; simp [clashUpdate, List.any_append]
    rw [e, Bool.or_eq_true, pairOpt_clash h, pairOpt_clash h, ← hn, ← htk]
    simp only [Project.keys, List.mem_cons, List.not_mem_nil, or_false, exists_eq_or_imp, exists_eq_left]
    have nr : T (t r).name = false := hsep.2.1
    have tr : T (t r).token = true := hsep.2.2
    constructor
    · rintro (⟨hne, j, hj⟩ | ⟨hne, j, hj⟩)
      · refine ⟨j, ?_, .inl hj⟩
        rintro rfl
        rw [hkr] at hj
        simp only [Project.keys, List.mem_cons, List.not_mem_nil, or_false] at hj
        rcases hj with hj | hj
        · exact hne hj
        · rw [hj, h4.2.2] at nr; cases nr
      · refine ⟨j, ?_, .inr hj⟩
        rintro rfl
        rw [hkr] at hj
        simp only [Project.keys, List.mem_cons, List.not_mem_nil, or_false] at hj
        rcases hj with hj | hj
        · rw [hj, h4.2.1] at tr; cases tr
        · exact hne hj
    · rintro ⟨j, hj, hk | hk⟩
      · refine .inl ⟨fun e => hj (hown r.name (by simp [Project.keys]) j (by rw [← e]; exact hk)), j, hk⟩
      · refine .inr ⟨fun e => hj (hown r.token (by simp [Project.keys]) j (by rw [← e]; exact hk)), j, hk⟩
  unfold Coll.update
  rw [hg]
  dsimp only
  by_cases hc : clashUpdate (q.pairs r) kv = true
  · rw [if_pos hc]; exact .inl ⟨hcl.mp hc, rfl⟩
  · rw [if_neg hc]
    have hfree : ∀ j, j ≠ id → ∀ s ∈ (t r).keys, s ∉ keysAt (projectsC.live kv) j :=
      fun j hj s hs hk => hc (hcl.mpr ⟨j, hj, s, hs, hk⟩)
    have hid' : projectsC.id (t r) = id := hid.trans h1
    rw [hid']
    refine .inr ⟨hfree, _, rfl, ?_⟩
    generalize hkv : updateIndex (q.pairs r) id (putK kv (.data projectsC.ns id) (projectsC.enc (t r))) = kv'
    have hst : Steps (IdxOf (.top .projects)) (putK kv (.data (.top .projects) id) (t r).enc) kv' := by
      rw [← hkv]
      exact updateIndex_steps _ (by rw [pairs_eq]; exact (pairOpt_in _ _).append (pairOpt_in _ _)) _ _
    have g : ∀ k : Key, k.WF → (∀ ix s, k ≠ .idx (.top .projects) ix s) → getK kv' k =
        if k = .data (.top .projects) id then some (t r).enc else getK kv k := by
      intro k hk hne
      rw [hst.get hk (fun k' hk' e => by obtain ⟨ix, s, e'⟩ := hk'; exact hne ix s (e ▸ e')), getK_putK _ (wf_data _ _) hk]
    have gi : ∀ s, getK kv' (projIdx s) = if s = (t r).token then some (le64 id) else if s = r.token then none else
        if s = (t r).name then some (le64 id) else if s = r.name then none else getK kv (projIdx s) := by
      intro s
      have hidx : ∀ s, getK (putK kv (.data (.top .projects) id) (t r).enc) (projIdx s) = getK kv (projIdx s) := fun s => by
        unfold projIdx; rw [getK_putK _ (wf_data _ _) (wf_idx _ _ _), if_neg (by intro e; cases e)]
      have k1 : getK kv (projIdx r.name) = some (le64 id) := (h.idx _ _).mpr ⟨id, rfl, by rw [hkr]; simp [Project.keys]⟩
      have k2 : getK kv (projIdx r.token) = some (le64 id) := (h.idx _ _).mpr ⟨id, rfl, by rw [hkr]; simp [Project.keys]⟩
      have a1 := pairOpt_get q.name r.name id (putK kv (.data (.top .projects) id) (t r).enc) (by rw [hidx]; exact k1)
      rw [← hkv, pairs_eq, updateIndex_append]
      have := pairOpt_get q.token r.token id (updateIndex (pairOpt q.name r.name) id (putK kv (.data (.top .projects) id) (t r).enc)) (by
        rw [a1, hidx, k2]
        by_cases e : r.token = q.name.getD r.name
        · rw [if_pos e]
        · rw [if_neg e, if_neg (Ne.symm hnt)]) s
      rw [htk, hn]
      refine this.trans ?_
      rw [a1, hidx]
    have hseq := g (.seq (.top .projects)) (wf_seq _) (by intro _ _ e; cases e)
    rw [if_neg (by intro e; cases e)] at hseq
    have hlast : lastId kv' (.top .projects) = lastId kv (.top .projects) := by unfold lastId; rw [hseq]
    refine ⟨h.step (id := id) (new := some (t r)) h2 (by omega) ?_ ?_ ?_ ?_ ?_, hlast⟩
    · intro v hv; rw [hseq] at hv; exact h.seq v hv
    · rintro _ ⟨⟩; exact ⟨hid', by omega, hsep⟩
    · intro j
      rw [g _ (wf_data _ _) (by intro _ _ e; cases e)]
      simp
    · rintro _ s ⟨⟩ hs j hj
      exact Decidable.byContradiction fun e => hfree j e s hs hj
    · intro s
      rw [gi, hkr]
      simp only [Option.map_some, Option.getD_some, Project.keys, List.mem_cons, List.not_mem_nil, or_false]
      have nr : (t r).name ≠ r.token := fun e => by have := hsep.2.1; rw [e, h4.2.2] at this; cases this
      by_cases c1 : s = (t r).token
      · simp [c1]
      · by_cases c2 : s = r.token
        · subst c2; rw [if_neg c1, if_pos rfl, if_neg (fun o => o.elim (fun e => nr e.symm) c1), if_pos (.inr rfl)]
        · by_cases c3 : s = (t r).name
          · rw [if_neg c1, if_neg c2, if_pos c3, if_pos (.inl c3)]
          · by_cases c4 : s = r.name
            · rw [if_neg c1, if_neg c2, if_neg c3, if_pos c4, if_neg (fun o => o.elim c3 c1), if_pos (.inl c4)]
            · simp [c1, c2, c3, c4]

theorem projectDelete_spec {kv : Kv} (h : PInv T kv) {id : Nat} {r : Project} (hl : projectsC.live kv id = some r) :
    ∃ kv', projectsC.delete id kv = .ok (r, kv') ∧ PInv T kv' ∧ lastId kv' (.top .projects) = lastId kv (.top .projects) ∧
      projectsC.live kv' id = none := by
  obtain ⟨h1, h2, h3, h4⟩ := h.live hl
  have hg : projectsC.getById id kv = .ok r := by rw [h.getById, hl]
  have hkr : keysAt (projectsC.live kv) id = r.keys := by simp [keysAt, hl]
  have hnt : r.name ≠ r.token := fun e => by have := h4.2.1; rw [e, h4.2.2] at this; cases this
  unfold Coll.delete
  rw [hg]
  refine ⟨_, rfl, ?_⟩
  generalize hkv : deleteIndex (keysOf projectsC.ns projectsC.ixs r) (delK kv (.data projectsC.ns id)) = kv'
  replace hkv : delK (delK (delK kv (.data (.top .projects) id)) (projIdx r.name)) (projIdx r.token) = kv' := hkv
  have g : ∀ k : Key, k.WF → (∀ ix s, k ≠ .idx (.top .projects) ix s) → getK kv' k =
      if k = .data (.top .projects) id then none else getK kv k := by
    intro k hk hne
    rw [← hkv]
    unfold projIdx
    rw [getK_delK _ (wf_idx _ _ _) hk, if_neg (hne _ _), getK_delK _ (wf_idx _ _ _) hk, if_neg (hne _ _), getK_delK _ (wf_data _ _) hk]
  have hseq := g (.seq (.top .projects)) (wf_seq _) (by intro _ _ e; cases e)
  rw [if_neg (by intro e; cases e)] at hseq
  have hlast : lastId kv' (.top .projects) = lastId kv (.top .projects) := by unfold lastId; rw [hseq]
  have hdata := fun j => g (.data (.top .projects) j) (wf_data _ _) (by intro _ _ e; cases e)
  refine ⟨h.step (id := id) (new := none) h2 (by omega) ?_ ?_ ?_ ?_ ?_, hlast, ?_⟩
  · intro v hv; rw [hseq] at hv; exact h.seq v hv
  · intro _ e; cases e
  · intro j; rw [hdata]; simp
  · intro _ _ e; cases e
  · intro s
    rw [← hkv, delIdx_get, delIdx_get, hkr]
    have : getK (delK kv (.data (.top .projects) id)) (projIdx s) = getK kv (projIdx s) := by
      unfold projIdx; rw [getK_delK _ (wf_data _ _) (wf_idx _ _ _), if_neg (by intro e; cases e)]
    rw [this]
    simp only [Project.keys, Option.map_none, Option.getD_none, List.mem_cons, List.not_mem_nil, or_false, if_false]
    by_cases c1 : s = r.token
    · simp [c1]
    · by_cases c2 : s = r.name <;> simp [c1, c2]
  · unfold Coll.live
    rw [show projectsC.ns = .top .projects from rfl, hdata, if_pos rfl]
    rfl

/-! ## Histories -/

/-- Tokens in the requests have the shape `T`, names have not. -/
def Req.Sep (T : Str → Bool) : Req Q → Prop
  | .projectCreate _ r => T r.name = false ∧ T r.token = true
  | .projectUpdate _ _ q => (∀ n, q.name = some n → T n = false) ∧ ∀ t, q.token = some t → T t = true
  | _ => True

/-- `Hist` with requests that keep names and tokens apart. -/
inductive SepHist (E : Env Q) (T : Str → Bool) : Nat → Kv → Prop
  | start : SepHist E T 0 []
  | step {n : Nat} {kv : Kv} (r : Req Q) : SepHist E T n kv → r.Ok → r.Sep T → SepHist E T (n + 1) (r.exec E kv)

theorem SepHist.hist {E : Env Q} {n : Nat} {kv : Kv} (h : SepHist E T n kv) : Hist E n kv := by
  induction h with
  | start => exact .start
  | step r _ h1 _ ih => exact ih.step r h1

theorem apply_sep {q : ProjectUpd} {r : Project} {now : Time} (h : r.Sep T) (h1 : q.updatedBy < 2 ^ 64 ∧ ∀ d, q.sessionDuration = some d → d < 2 ^ 64)
    (h2 : (∀ n, q.name = some n → T n = false) ∧ ∀ t, q.token = some t → T t = true) : (q.apply now r).Sep T := by
  refine ⟨⟨⟨h.1.head.id, h.1.head.createdBy, optOk_some h1.1⟩, h.1.org, ?_, h.1.count⟩, ?_, ?_⟩
  · show q.sessionDuration.getD r.sessionDuration < _
    cases e : q.sessionDuration with
    | none => exact h.1.dur
    | some d => exact h1.2 d e
  · show T (q.name.getD r.name) = false
    cases e : q.name with
    | none => exact h.2.1
    | some d => exact h2.1 d e
  · show T (q.token.getD r.token) = true
    cases e : q.token with
    | none => exact h.2.2
    | some d => exact h2.2 d e

theorem getById_none {kv : Kv} (h : PInv T kv) {id : Nat} (hl : projectsC.live kv id = none) : projectsC.getById id kv = .error .notFound := by
  rw [h.getById, hl]

theorem update_missing {kv : Kv} (h : PInv T kv) {id : Nat} (hl : projectsC.live kv id = none) (ps : Project → List (Option Key × Option Key))
    (f : Project → Except Err Project) : projectsC.update id ps f kv = .error .notFound := by
  unfold Coll.update
  rw [getById_none h hl]

/-- In every history of separated requests the project index holds exactly names and tokens. -/
theorem SepHist.inv {E : Env Q} {n : Nat} {kv : Kv} (h : SepHist E T n kv) (hn : n < 2 ^ 62) :
    PInv T kv ∧ lastId kv (.top .projects) ≤ n := by
  induction h with
  | start =>
    refine ⟨⟨?_, ?_, ?_⟩, Nat.le_refl _⟩
    · intro v hv; exact absurd hv (by simp [getK, Kv.get])
    · intro id v hv; exact absurd hv (by simp [getK, Kv.get])
    · intro s v
      refine ⟨fun hv => absurd hv (by simp [getK, Kv.get]), fun ⟨id, _, hv⟩ => ?_⟩
      obtain ⟨r, hr, -⟩ := mem_keysAt.mp hv
      simp [Coll.live, getK, Kv.get] at hr
  | @step n kv r hh hr hs ih =>
    obtain ⟨hi, hle⟩ := ih (by omega)
    by_cases hm : Mod.coll (.top .projects) ∈ r.mods
    · have same : ∀ {α : Type} {c : Call α} {e : Err}, c kv = .error e → PInv T (runCall c kv).2 ∧ lastId (runCall c kv).2 (.top .projects) ≤ n + 1 := by
        intro α c e h; rw [runCall, h]; exact ⟨hi, by dsimp only; omega⟩
      have done : ∀ {α : Type} {c : Call α} {r : α} {kv' : Kv}, c kv = .ok (r, kv') → PInv T kv' → lastId kv' (.top .projects) ≤ n + 1 →
          PInv T (runCall c kv).2 ∧ lastId (runCall c kv).2 (.top .projects) ≤ n + 1 := by
        intro α c r kv' h h1 h2; rw [runCall, h]; exact ⟨h1, h2⟩
      cases r <;> simp [Req.mods] at hm
      case projectCreate now req =>
        show PInv T (runCall (projectCreate now req) kv).2 ∧ lastId (runCall (projectCreate now req) kv).2 _ ≤ _
        rcases projectCreate_spec hi (by omega) (now := now) hr hs.1 hs.2 with ⟨-, e⟩ | ⟨-, kv', e, h1, h2⟩
        · exact same e
        · exact done e h1 (by omega)
      case projectUpdate id now q =>
        show PInv T (runCall (projectUpdate id now q) kv).2 ∧ lastId (runCall (projectUpdate id now q) kv).2 _ ≤ _
        cases hl : projectsC.live kv id with
        | none => exact same (update_missing hi hl _ _)
        | some r =>
          rcases projectUpdate_spec hi (q := q) (t := q.apply now) hl rfl rfl rfl (apply_sep (hi.live hl).2.2.2 hr hs) with ⟨-, e⟩ | ⟨-, kv', e, h1, h2⟩
          · exact same e
          · exact done e h1 (by omega)
      case projectIncrement id =>
        show PInv T (runCall (incrementEvents id) kv).2 ∧ lastId (runCall (incrementEvents id) kv).2 _ ≤ _
        cases hl : projectsC.live kv id with
        | none => exact same (update_missing hi hl _ _)
        | some r =>
          have hv := (hi.live hl).2.2.2
          rcases projectUpdate_spec hi (q := { updatedBy := 0 }) (t := fun r => { r with eventsCount := (r.eventsCount + 1) % 2 ^ 64 }) hl rfl rfl rfl
            ⟨⟨hv.1.head, hv.1.org, hv.1.dur, Nat.mod_lt _ (Nat.two_pow_pos 64)⟩, hv.2⟩ with ⟨-, e⟩ | ⟨-, kv', e, h1, h2⟩
          · exact same e
          · exact done e h1 (by omega)
      case projectDelete id =>
        show PInv T (runCall (projectsC.delete id) kv).2 ∧ lastId (runCall (projectsC.delete id) kv).2 _ ≤ _
        cases hl : projectsC.live kv id with
        | none => exact same (e := .notFound) (by unfold Coll.delete; rw [getById_none hi hl])
        | some r =>
          obtain ⟨kv', e, h1, h2, -⟩ := projectDelete_spec hi hl
          exact done e h1 (by omega)
    · have ha := exec_agree E hr hm kv
      exact ⟨hi.agree ha, by rw [ha.last]; omega⟩

end OptiPrism.Meta
