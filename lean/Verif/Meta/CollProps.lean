import Verif.Meta.Coll

/-!
# C25, C27: identifiers and names in any history

Histories are lists of operations on one collection, mixed with arbitrary changes to the rest of the
store (`env`: every call of another collection or module; that those calls do not touch this collection
is `create_agree`, `update_agree`, `delete_agree` and, for the other modules, shown where they are
modelled). The specification is a table of live records and the last identifier.
-/

namespace OptiPrism.Meta

variable {R : Type}

inductive Op (R : Type) where
  | create (keys : List (Option Key)) (mk : Nat → R)
  | update (id : Nat) (pairs : R → List (Option Key × Option Key)) (f : R → Except Err R) (target : R → R)
  | delete (id : Nat)
  | get (id : Nat)
  | find (ix : Ix) (s : Str)
  | env (g : Kv → Kv)

/-- The call and its answer; `env` answers nothing. -/
def Op.exec (c : Coll R) : Op R → Kv → Option (Except Err R) × Kv
  | .create keys mk, kv => ((some (runCall (c.create keys mk) kv).1), (runCall (c.create keys mk) kv).2)
  | .update id pairs f _, kv => ((some (runCall (c.update id pairs f) kv).1), (runCall (c.update id pairs f) kv).2)
  | .delete id, kv => ((some (runCall (c.delete id) kv).1), (runCall (c.delete id) kv).2)
  | .get id, kv => (some (c.getById id kv), kv)
  | .find ix s, kv => (some (c.getBy ix s kv), kv)
  | .env g, kv => (none, g kv)

/-- What the modules guarantee of the calls they make (shown for each of them): index keys are those of
the record, updates keep the identifier and pass the indexes whose value may change. -/
def Op.Ok (c : Coll R) (Valid : R → Prop) : Op R → Prop
  | .create keys mk => (∀ id, keys = keysOf c.ns c.ixs (mk id)) ∧ (∀ id, c.id (mk id) = id) ∧ ∀ id, id < 2 ^ 64 → Valid (mk id)
  | .update _ pairs f target => (∀ r r', f r = .ok r' → r' = target r) ∧ (∀ r, c.id (target r) = c.id r) ∧
      (∀ r, Valid r → Valid (target r)) ∧
      ∃ sel : List (Ix × (R → Option Str)), (∀ i ∈ sel, i ∈ c.ixs) ∧ (sel.map (·.1)).Nodup ∧
        (∀ r, pairs r = pairsOf c.ns sel r (target r)) ∧ ∀ r, ∀ i ∈ c.ixs, i ∉ sel → i.2 (target r) = i.2 r
  | .find ix _ => ∃ i ∈ c.ixs, i.1 = ix
  | .env g => ∀ kv, AgreeOn c.ns kv (g kv)
  | _ => True

def runOps (c : Coll R) : List (Op R) → Kv → List (Option (Except Err R)) × Kv
  | [], kv => ([], kv)
  | op :: ops, kv => ((op.exec c kv).1 :: (runOps c ops (op.exec c kv).2).1, (runOps c ops (op.exec c kv).2).2)

/-! ## The specification -/

/-- Live records by identifier, and the last identifier used. -/
structure Spec (R : Type) where
  live : Nat → Option R
  last : Nat

/-- Some live record other than `id` has a value of `r` in one of the unique fields. -/
def Spec.Taken (s : Spec R) (fields : List (R → Option Str)) (id : Nat) (r : R) : Prop :=
  ∃ f ∈ fields, ∃ x id' r', id' ≠ id ∧ f r = some x ∧ s.live id' = some r' ∧ f r' = some x

/-- One step of the specification. `norm r` is the stored form of a record. -/
inductive Spec.Step (c : Coll R) (norm : R → R) (s : Spec R) : Op R → Option (Except Err R) → Spec R → Prop
  | createTaken {keys mk} : s.Taken (c.ixs.map (·.2)) (s.last + 1) (mk (s.last + 1)) →
      Step c norm s (.create keys mk) (some (.error .alreadyExists)) s
  | create {keys mk} : ¬ s.Taken (c.ixs.map (·.2)) (s.last + 1) (mk (s.last + 1)) →
      Step c norm s (.create keys mk) (some (.ok (mk (s.last + 1))))
        ⟨fun j => if j = s.last + 1 then some (norm (mk (s.last + 1))) else s.live j, s.last + 1⟩
  | updateMissing {id pairs f t} : s.live id = none → Step c norm s (.update id pairs f t) (some (.error .notFound)) s
  | updateTaken {id pairs f t r} : s.live id = some r → s.Taken (c.ixs.map (·.2)) id (t r) →
      Step c norm s (.update id pairs f t) (some (.error .alreadyExists)) s
  | updateRefused {id pairs f t r e} : s.live id = some r → ¬ s.Taken (c.ixs.map (·.2)) id (t r) → f r = .error e →
      Step c norm s (.update id pairs f t) (some (.error e)) s
  | update {id pairs f t r} : s.live id = some r → ¬ s.Taken (c.ixs.map (·.2)) id (t r) → f r = .ok (t r) →
      Step c norm s (.update id pairs f t) (some (.ok (t r)))
        ⟨fun j => if j = id then some (norm (t r)) else s.live j, s.last⟩
  | deleteMissing {id} : s.live id = none → Step c norm s (.delete id) (some (.error .notFound)) s
  | delete {id r} : s.live id = some r →
      Step c norm s (.delete id) (some (.ok r)) ⟨fun j => if j = id then none else s.live j, s.last⟩
  | getMissing {id} : s.live id = none → Step c norm s (.get id) (some (.error .notFound)) s
  | get {id r} : s.live id = some r → Step c norm s (.get id) (some (.ok r)) s
  | findMissing {i x} : i ∈ c.ixs → (∀ id r, s.live id = some r → i.2 r ≠ some x) →
      Step c norm s (.find i.1 x) (some (.error .notFound)) s
  | find {i x id r} : i ∈ c.ixs → s.live id = some r → i.2 r = some x → Step c norm s (.find i.1 x) (some (.ok r)) s
  | env {g} : Step c norm s (.env g) none s

inductive Spec.Run (c : Coll R) (norm : R → R) : Spec R → List (Op R) → List (Option (Except Err R)) → Spec R → Prop
  | nil {s} : Run c norm s [] [] s
  | cons {s s1 s2 op a ops as} : Spec.Step c norm s op a s1 → Run c norm s1 ops as s2 → Run c norm s (op :: ops) (a :: as) s2

/-- What the store says. -/
def Coll.abs (c : Coll R) (kv : Kv) : Spec R := ⟨c.live kv, lastId kv c.ns⟩

theorem taken_abs {c : Coll R} {kv : Kv} {id : Nat} {r : R} :
    c.TakenBy kv id r ↔ (c.abs kv).Taken (c.ixs.map (·.2)) id r := by
  unfold Coll.TakenBy Spec.Taken Coll.abs
  constructor
  · rintro ⟨i, hi, h⟩
    exact ⟨i.2, List.mem_map.mpr ⟨i, hi, rfl⟩, h⟩
  · rintro ⟨f, hf, h⟩
    obtain ⟨i, hi, rfl⟩ := List.mem_map.mp hf
    exact ⟨i, hi, h⟩

theorem taken_fresh {c : Coll R} {Valid : R → Prop} {kv : Kv} (h : c.Inv Valid kv) {r : R} :
    c.Taken kv r ↔ (c.abs kv).Taken (c.ixs.map (·.2)) (lastId kv c.ns + 1) r := by
  rw [← taken_abs]
  unfold Coll.TakenBy Coll.Taken
  constructor
  · rintro ⟨i, hi, x, id, r', h1, h2, h3⟩
    refine ⟨i, hi, x, id, r', ?_, h1, h2, h3⟩
    have := (Inv.live_id h h2).2.2.1
    omega
  · rintro ⟨i, hi, x, id, r', -, h1, h2, h3⟩
    exact ⟨i, hi, x, id, r', h1, h2, h3⟩

theorem Spec.ext' {a b : Spec R} (h1 : ∀ id, a.live id = b.live id) (h2 : a.last = b.last) : a = b := by
  cases a; cases b; simp only [Spec.mk.injEq]; exact ⟨funext h1, h2⟩

theorem step_refines {c : Coll R} {norm : R → R} {Valid : R → Prop} (ok : c.Ok norm Valid) {kv : Kv} (h : c.Inv Valid kv)
    (hl : lastId kv c.ns + 1 < 2 ^ 64) {op : Op R} (ho : op.Ok c Valid) :
    Spec.Step c norm (c.abs kv) op (op.exec c kv).1 (c.abs (op.exec c kv).2) ∧ c.Inv Valid (op.exec c kv).2 ∧
      lastId (op.exec c kv).2 c.ns ≤ lastId kv c.ns + 1 := by
  cases op with
  | create keys mk =>
    obtain ⟨hk, hid, hv⟩ := ho
    rcases create_spec ok h hl hk hid hv with ⟨ht, e⟩ | ⟨ht, kv', e, hi, hla, hli⟩
    · simp only [Op.exec, runCall, e]
      exact ⟨.createTaken ((taken_fresh h).mp ht), h, by omega⟩
    · simp only [Op.exec, runCall, e]
      refine ⟨?_, hi, by omega⟩
      have := Spec.Step.create (c := c) (norm := norm) (s := c.abs kv) (keys := keys) (mk := mk)
        (fun e => ht ((taken_fresh h).mpr e))
      rw [show c.abs kv' = _ from Spec.ext' (b := ⟨fun j => if j = lastId kv c.ns + 1 then
        some (norm (mk (lastId kv c.ns + 1))) else c.live kv j, lastId kv c.ns + 1⟩) ?_ hla]
      · exact this
      · intro j
        show c.live kv' j = _
        rw [hli]
        by_cases hj : j = lastId kv c.ns + 1
        · simp [hj]
        · simp [hj]
  | update id pairs f t =>
    obtain ⟨hf, hid, hv, sel, hs, hsn, hp, hrest⟩ := ho
    rcases update_spec ok h (id := id) hs hsn hf hp hrest hid hv with ⟨hn, e⟩ | ⟨r, hr, ⟨ht, e⟩ | ⟨ht, ⟨er, hfe, e⟩ | ⟨hfo, kv', e, hi, hla, hli⟩⟩⟩
    · simp only [Op.exec, runCall, e]
      exact ⟨.updateMissing hn, h, by omega⟩
    · simp only [Op.exec, runCall, e]
      exact ⟨.updateTaken hr (taken_abs.mp ht), h, by omega⟩
    · simp only [Op.exec, runCall, e]
      exact ⟨.updateRefused hr (fun e => ht (taken_abs.mpr e)) hfe, h, by omega⟩
    · simp only [Op.exec, runCall, e]
      refine ⟨?_, hi, by omega⟩
      rw [show c.abs kv' = _ from Spec.ext' (b := ⟨fun j => if j = id then some (norm (t r)) else c.live kv j, lastId kv c.ns⟩) hli hla]
      exact .update (s := c.abs kv) hr (fun e => ht (taken_abs.mpr e)) hfo
  | delete id =>
    rcases delete_spec ok h id with ⟨hn, e⟩ | ⟨r, kv', hr, e, hi, hla, hli⟩
    · simp only [Op.exec, runCall, e]
      exact ⟨.deleteMissing hn, h, by omega⟩
    · simp only [Op.exec, runCall, e]
      refine ⟨?_, hi, by omega⟩
      rw [show c.abs kv' = _ from Spec.ext' (b := ⟨fun j => if j = id then none else c.live kv j, lastId kv c.ns⟩) hli hla]
      exact .delete (s := c.abs kv) hr
  | get id =>
    simp only [Op.exec]
    refine ⟨?_, h, by omega⟩
    rw [getById_eq h]
    cases hr : c.live kv id with
    | none => exact .getMissing hr
    | some r => exact .get hr
  | find ix x =>
    obtain ⟨i, hi, rfl⟩ := ho
    simp only [Op.exec]
    refine ⟨?_, h, by omega⟩
    rcases (getBy_eq h hi x _).mp rfl with ⟨id, r, hr, hx, e⟩ | ⟨hn, e⟩
    · rw [e]; exact .find (s := c.abs kv) hi hr hx
    · rw [e]; exact .findMissing (s := c.abs kv) hi hn
  | env g =>
    have ha := ho kv
    refine ⟨?_, ha.inv h, ?_⟩
    · simp only [Op.exec]
      rw [show c.abs (g kv) = c.abs kv from Spec.ext' ha.live ha.last]
      exact .env
    · simp only [Op.exec]
      rw [ha.last]; omega

/-! ## The properties -/

/-- C27 (and the sequential half of C25) as a refinement: in every history, every answer and every state
is one the specification table allows. -/
theorem C27_refines {c : Coll R} {norm : R → R} {Valid : R → Prop} (ok : c.Ok norm Valid) (ops : List (Op R))
    (kv : Kv) (h : c.Inv Valid kv) (ho : ∀ op ∈ ops, op.Ok c Valid) (hl : lastId kv c.ns + ops.length < 2 ^ 64) :
    Spec.Run c norm (c.abs kv) ops (runOps c ops kv).1 (c.abs (runOps c ops kv).2) ∧ c.Inv Valid (runOps c ops kv).2 := by
  induction ops generalizing kv with
  | nil => exact ⟨.nil, h⟩
  | cons op ops ih =>
    simp only [List.length_cons] at hl
    obtain ⟨h1, h2, h3⟩ := step_refines ok h (by omega) (ho op (List.mem_cons_self ..))
    obtain ⟨h4, h5⟩ := ih (op.exec c kv).2 h2 (fun o hm => ho o (List.mem_cons_of_mem _ hm)) (by omega)
    exact ⟨.cons h1 h4, h5⟩

theorem empty_inv (c : Coll R) (Valid : R → Prop) : c.Inv Valid [] := by
  refine ⟨?_, ?_, ?_⟩
  · intro v hv; simp [getK, Kv.get] at hv
  · intro id v hv; simp [getK, Kv.get] at hv
  · intro i _ x v
    simp [getK, Kv.get, Coll.live]

/-- The states reachable from an empty store. -/
def Reach (c : Coll R) (Valid : R → Prop) (kv : Kv) : Prop :=
  ∃ ops : List (Op R), (∀ op ∈ ops, op.Ok c Valid) ∧ ops.length + 1 < 2 ^ 64 ∧ kv = (runOps c ops []).2

theorem Reach.inv {c : Coll R} {norm : R → R} {Valid : R → Prop} (ok : c.Ok norm Valid) {kv : Kv} (h : Reach c Valid kv) :
    c.Inv Valid kv := by
  obtain ⟨ops, ho, hl, rfl⟩ := h
  have hz : lastId [] c.ns = 0 := by simp [lastId, getK, Kv.get]
  exact (C27_refines ok ops [] (empty_inv c Valid) ho (by rw [hz]; omega)).2

theorem runOps_last {c : Coll R} {norm : R → R} {Valid : R → Prop} (ok : c.Ok norm Valid) (ops : List (Op R))
    (kv : Kv) (h : c.Inv Valid kv) (ho : ∀ op ∈ ops, op.Ok c Valid) (hl : lastId kv c.ns + ops.length < 2 ^ 64) :
    lastId (runOps c ops kv).2 c.ns ≤ lastId kv c.ns + ops.length := by
  induction ops generalizing kv with
  | nil => exact Nat.le_refl _
  | cons op ops ih =>
    simp only [List.length_cons] at hl ⊢
    obtain ⟨-, h2, h3⟩ := step_refines ok h (by omega) (ho op (List.mem_cons_self ..))
    have := ih (op.exec c kv).2 h2 (fun o hm => ho o (List.mem_cons_of_mem _ hm)) (by omega)
    simp only [runOps]
    omega

/-- There is room for one more identifier. -/
theorem Reach.room {c : Coll R} {norm : R → R} {Valid : R → Prop} (ok : c.Ok norm Valid) {kv : Kv} (h : Reach c Valid kv) :
    lastId kv c.ns + 1 < 2 ^ 64 := by
  obtain ⟨ops, ho, hl, rfl⟩ := h
  have hz : lastId [] c.ns = 0 := by simp [lastId, getK, Kv.get]
  have := runOps_last ok ops [] (empty_inv c Valid) ho (by rw [hz]; omega)
  omega

/-- C27: looking up by a unique field returns exactly the live record with that value. -/
theorem C27_lookup {c : Coll R} {norm : R → R} {Valid : R → Prop} (ok : c.Ok norm Valid) {kv : Kv} (h : Reach c Valid kv)
    {i : Ix × (R → Option Str)} (hi : i ∈ c.ixs) (x : Str) (r : R) :
    c.getBy i.1 x kv = .ok r ↔ (∃ id, c.getById id kv = .ok r) ∧ i.2 r = some x := by
  have hv := h.inv ok
  rw [getBy_eq hv hi]
  have hget : ∀ id, c.getById id kv = .ok r ↔ c.live kv id = some r := by
    intro id
    rw [getById_eq hv]
    cases c.live kv id <;> simp
  constructor
  · rintro (⟨id, r', hl, hx, e⟩ | ⟨-, e⟩)
    · injection e with e
      subst e
      exact ⟨⟨id, (hget id).mpr hl⟩, hx⟩
    · cases e
  · rintro ⟨⟨id, hl⟩, hx⟩
    exact Or.inl ⟨id, r, (hget id).mp hl, hx, rfl⟩

/-- C27: unique fields of live records are pairwise distinct. -/
theorem C27_distinct {c : Coll R} {norm : R → R} {Valid : R → Prop} (ok : c.Ok norm Valid) {kv : Kv} (h : Reach c Valid kv)
    {i : Ix × (R → Option Str)} (hi : i ∈ c.ixs) {id id' : Nat} {r r' : R} (h1 : c.getById id kv = .ok r)
    (h2 : c.getById id' kv = .ok r') {x : Str} (hx : i.2 r = some x) (hx' : i.2 r' = some x) : id = id' := by
  have hv := h.inv ok
  have hget : ∀ id r, c.getById id kv = .ok r → c.live kv id = some r := by
    intro id r
    rw [getById_eq hv]
    cases c.live kv id <;> simp
  exact Inv.distinct hv hi (hget _ _ h1) (hget _ _ h2) hx hx'

/-- C27: `create` fails with AlreadyExists iff a live record has one of the values; otherwise it
succeeds. -/
theorem C27_create {c : Coll R} {norm : R → R} {Valid : R → Prop} (ok : c.Ok norm Valid) {kv : Kv} (h : Reach c Valid kv)
    {keys : List (Option Key)} {mk : Nat → R} (ho : (Op.create keys mk).Ok c Valid) :
    ((runCall (c.create keys mk) kv).1 = .error .alreadyExists ↔
      ∃ i ∈ c.ixs, ∃ x id r', i.2 (mk 0) = some x ∧ c.getById id kv = .ok r' ∧ i.2 r' = some x) ∧
    ((runCall (c.create keys mk) kv).1 ≠ .error .alreadyExists → ∃ r, (runCall (c.create keys mk) kv).1 = .ok r) := by
  have hv := h.inv ok
  have hget : ∀ id r, c.getById id kv = .ok r ↔ c.live kv id = some r := by
    intro id r
    rw [getById_eq hv]
    cases c.live kv id <;> simp
  have hix : ∀ i ∈ c.ixs, ∀ id, i.2 (mk id) = i.2 (mk 0) := by
    intro i hi id
    have e := (ho.1 id).symm.trans (ho.1 0)
    unfold keysOf at e
    have := List.map_inj_left.mp e i hi
    exact (map_idx_eq _ _ _ _).mp this
  have ht : c.Taken kv (mk (lastId kv c.ns + 1)) ↔
      ∃ i ∈ c.ixs, ∃ x id r', i.2 (mk 0) = some x ∧ c.getById id kv = .ok r' ∧ i.2 r' = some x := by
    unfold Coll.Taken
    constructor
    · rintro ⟨i, hi, x, id, r', e1, e2, e3⟩
      exact ⟨i, hi, x, id, r', by rw [← hix i hi (lastId kv c.ns + 1), e1], (hget _ _).mpr e2, e3⟩
    · rintro ⟨i, hi, x, id, r', e1, e2, e3⟩
      exact ⟨i, hi, x, id, r', by rw [hix i hi, e1], (hget _ _).mp e2, e3⟩
  rw [← ht]
  rcases create_spec ok hv (h.room ok) ho.1 ho.2.1 ho.2.2 with ⟨h1, e⟩ | ⟨h1, kv', e, -⟩
  · simp [runCall, e, h1]
  · simp [runCall, e, h1]

/-- C27: `update` fails with NotFound iff there is no such record, and otherwise with AlreadyExists iff a
different live record has one of the new values (apart from the errors of the request's own check). -/
theorem C27_update {c : Coll R} {norm : R → R} {Valid : R → Prop} (ok : c.Ok norm Valid) {kv : Kv} (h : Reach c Valid kv)
    {id : Nat} {pairs : R → List (Option Key × Option Key)} {f : R → Except Err R} {t : R → R}
    (ho : (Op.update id pairs f t).Ok c Valid) {r : R} (hr : c.getById id kv = .ok r) (hf : f r = .ok (t r)) :
    ((runCall (c.update id pairs f) kv).1 = .error .alreadyExists ↔
      ∃ i ∈ c.ixs, ∃ x id' r', id' ≠ id ∧ i.2 (t r) = some x ∧ c.getById id' kv = .ok r' ∧ i.2 r' = some x) ∧
    ((runCall (c.update id pairs f) kv).1 ≠ .error .alreadyExists → (runCall (c.update id pairs f) kv).1 = .ok (t r)) := by
  have hv := h.inv ok
  have hget : ∀ id r, c.getById id kv = .ok r ↔ c.live kv id = some r := by
    intro id r
    rw [getById_eq hv]
    cases c.live kv id <;> simp
  have ht : c.TakenBy kv id (t r) ↔
      ∃ i ∈ c.ixs, ∃ x id' r', id' ≠ id ∧ i.2 (t r) = some x ∧ c.getById id' kv = .ok r' ∧ i.2 r' = some x := by
    unfold Coll.TakenBy
    simp only [hget]
  rw [← ht]
  obtain ⟨h1, h2, h3, sel, hs, hsn, hp, hrest⟩ := ho
  rcases update_spec ok hv (id := id) hs hsn h1 hp hrest h2 h3 with ⟨hn, e⟩ | ⟨r', hr', ⟨hk, e⟩ | ⟨hk, ⟨er, hfe, e⟩ | ⟨hfo, kv', e, -⟩⟩⟩
  · rw [(hget id r).mp hr] at hn; simp at hn
  · rw [(hget id r).mp hr] at hr'
    injection hr' with hr'
    subst hr'
    simp [runCall, e, hk]
  · rw [(hget id r).mp hr] at hr'
    injection hr' with hr'
    subst hr'
    rw [hf] at hfe
    cases hfe
  · rw [(hget id r).mp hr] at hr'
    injection hr' with hr'
    subst hr'
    simp [runCall, e, hk]

/-- C27: after a successful update that changes the value of a unique field, the old value is free. -/
theorem C27_rename_frees {c : Coll R} {norm : R → R} {Valid : R → Prop} (ok : c.Ok norm Valid) {kv : Kv} (h : Reach c Valid kv)
    {id : Nat} {pairs : R → List (Option Key × Option Key)} {f : R → Except Err R} {t : R → R}
    (ho : (Op.update id pairs f t).Ok c Valid) {r r1 : R} (hr : c.getById id kv = .ok r) {kv' : Kv}
    (hu : c.update id pairs f kv = .ok (r1, kv')) {i : Ix × (R → Option Str)} (hi : i ∈ c.ixs) {x y : Str}
    (hx : i.2 r = some x) (hy : i.2 r1 = some y) (hne : y ≠ x) :
    c.getBy i.1 x kv' = .error .notFound ∧ c.getBy i.1 y kv' = .ok (norm r1) := by
  have hv := h.inv ok
  have hget : ∀ id r, c.getById id kv = .ok r ↔ c.live kv id = some r := by
    intro id r
    rw [getById_eq hv]
    cases c.live kv id <;> simp
  obtain ⟨h1, h2, h3, sel, hs, hsn, hp, hrest⟩ := ho
  rcases update_spec ok hv (id := id) hs hsn h1 hp hrest h2 h3 with ⟨hn, e⟩ | ⟨r', hr', ⟨hk, e⟩ | ⟨hk, ⟨er, hfe, e⟩ | ⟨hfo, kv2, e, hinv, hla, hli⟩⟩⟩
  · rw [hu] at e; cases e
  · rw [hu] at e; cases e
  · rw [hu] at e; cases e
  · rw [(hget id r).mp hr] at hr'
    injection hr' with hr'
    subst hr'
    rw [hu] at e
    simp only [Except.ok.injEq, Prod.mk.injEq] at e
    obtain ⟨rfl, rfl⟩ := e
    refine ⟨(getBy_eq hinv hi x _).mpr (Or.inr ⟨fun j r2 hj hjx => ?_, rfl⟩), (getBy_eq hinv hi y _).mpr (Or.inl ⟨id, norm (t r), ?_, ?_, rfl⟩)⟩
    · rw [hli] at hj
      by_cases hd : j = id
      · rw [if_pos hd] at hj
        injection hj with hj
        rw [← hj, ok.ix_norm _ i hi, hy] at hjx
        injection hjx with hjx
        exact hne hjx
      · rw [if_neg hd] at hj
        exact hd (Inv.distinct hv hi hj ((hget id r).mp hr) hjx hx)
    · rw [hli, if_pos rfl]
    · rw [ok.ix_norm _ i hi, hy]

/-- C27: after a deletion the record is gone and its unique values are free. -/
theorem C27_delete_frees {c : Coll R} {norm : R → R} {Valid : R → Prop} (ok : c.Ok norm Valid) {kv : Kv} (h : Reach c Valid kv)
    {id : Nat} {r : R} (hr : c.getById id kv = .ok r) :
    ∃ kv', c.delete id kv = .ok (r, kv') ∧ c.getById id kv' = .error .notFound ∧
      ∀ i ∈ c.ixs, ∀ x, i.2 r = some x → c.getBy i.1 x kv' = .error .notFound := by
  have hv := h.inv ok
  have hget : ∀ id r, c.getById id kv = .ok r ↔ c.live kv id = some r := by
    intro id r
    rw [getById_eq hv]
    cases c.live kv id <;> simp
  rcases delete_spec ok hv id with ⟨hn, -⟩ | ⟨r', kv', hr', e, hinv, hla, hli⟩
  · rw [(hget id r).mp hr] at hn; simp at hn
  · rw [(hget id r).mp hr] at hr'
    injection hr' with hr'
    subst hr'
    refine ⟨kv', e, ?_, ?_⟩
    · rw [getById_eq hinv, hli, if_pos rfl]
    · intro i hi x hx
      refine (getBy_eq hinv hi x _).mpr (Or.inr ⟨fun j r2 hj hjx => ?_, rfl⟩)
      rw [hli] at hj
      by_cases hd : j = id
      · rw [if_pos hd] at hj; simp at hj
      · rw [if_neg hd] at hj
        exact hd (Inv.distinct hv hi hj ((hget id r).mp hr) hjx hx)

/-- The identifiers answered by the successful creates of a history. -/
def createdIds (c : Coll R) : List (Op R) → List (Option (Except Err R)) → List Nat
  | .create _ _ :: ops, some (.ok r) :: as => c.id r :: createdIds c ops as
  | _ :: ops, _ :: as => createdIds c ops as
  | _, _ => []

theorem created_of_run {c : Coll R} {norm : R → R} {Valid : R → Prop} {s s' : Spec R} {ops : List (Op R)}
    {as : List (Option (Except Err R))} (h : Spec.Run c norm s ops as s') (ho : ∀ op ∈ ops, op.Ok c Valid) :
    s.last ≤ s'.last ∧ (createdIds c ops as).Pairwise (· < ·) ∧ ∀ n ∈ createdIds c ops as, s.last < n ∧ n ≤ s'.last := by
  induction h with
  | nil => simp [createdIds]
  | @cons s s1 s2 op a ops as hs hr ih =>
    obtain ⟨i1, i2, i3⟩ := ih (fun o hm => ho o (List.mem_cons_of_mem _ hm))
    have hop := ho op (List.mem_cons_self ..)
    have keep : s1.last = s.last → createdIds c (op :: ops) (a :: as) = createdIds c ops as →
        s.last ≤ s2.last ∧ (createdIds c (op :: ops) (a :: as)).Pairwise (· < ·) ∧
          ∀ n ∈ createdIds c (op :: ops) (a :: as), s.last < n ∧ n ≤ s2.last := by
      intro e1 e2
      rw [e2, ← e1]
      exact ⟨i1, i2, i3⟩
    cases hs with
    | create _ =>
      simp only at i1 i3
      simp only [createdIds, hop.2.1]
      refine ⟨by omega, List.pairwise_cons.mpr ⟨fun n hn => (i3 n hn).1, i2⟩, ?_⟩
      intro n hn
      rcases List.mem_cons.mp hn with rfl | hn
      · omega
      · have := i3 n hn; omega
    | _ => exact keep rfl rfl

/-- C25: in any sequential history the identifiers given out are strictly increasing — so pairwise
distinct and never reused, whatever was deleted in between (as long as the 64-bit counter does not
overflow). -/
theorem C25_ids_increase {c : Coll R} {norm : R → R} {Valid : R → Prop} (ok : c.Ok norm Valid) (ops : List (Op R))
    (ho : ∀ op ∈ ops, op.Ok c Valid) (hl : ops.length < 2 ^ 64) :
    (createdIds c ops (runOps c ops []).1).Pairwise (· < ·) := by
  have hz : lastId [] c.ns = 0 := by simp [lastId, getK, Kv.get]
  exact (created_of_run (C27_refines ok ops [] (empty_inv c Valid) ho (by rw [hz]; omega)).1 ho).2.1

end OptiPrism.Meta
