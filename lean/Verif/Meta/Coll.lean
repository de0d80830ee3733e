import Verif.Meta.Kv
import Verif.Util

/-!
# Collections: the pattern shared by the metadata modules

accounts.rs, organizations.rs, projects.rs, teams.rs, events.rs, custom_events.rs, properties.rs,
dashboards.rs, reports.rs and backups.rs all keep their records under `ns/data/<id>`, take identifiers
from `ns id_seq` and keep zero, one or two unique indexes `ns/idx/<index>/<value> ↦ id`. This file has
the pattern once, with the record type, its codec and its indexes as parameters, and proves what the
operations do; the modules instantiate it.
-/

namespace OptiPrism.Meta

open OptiPrism.Storage (Bytes toLE fromLE toLE_length fromLE_toLE)

/-- A collection of records `R`. -/
structure Coll (R : Type) where
  ns : Ns
  ixs : List (Ix × (R → Option Str))
  enc : R → Bytes
  dec : Bytes → Option R
  id : R → Nat

variable {R : Type}

/-- The index keys of a record for the given indexes. -/
def keysOf (ns : Ns) (sel : List (Ix × (R → Option Str))) (r : R) : List (Option Key) :=
  sel.map fun i => (i.2 r).map (Key.idx ns i.1)

/-- `get_by_id_` (e.g. events.rs 122-137). -/
def Coll.getById (c : Coll R) (id : Nat) (kv : Kv) : Except Err R :=
  match getK kv (.data c.ns id) with
  | none => .error .notFound
  | some v => match c.dec v with
    | none => .error .codec
    | some r => .ok r

/-- `get_by_name_` (events.rs 195-208), `get_by_email`, `get_by_token`. -/
def Coll.getBy (c : Coll R) (ix : Ix) (s : Str) (kv : Kv) : Except Err R :=
  match getIndex (.idx c.ns ix s) kv with
  | .error e => .error e
  | .ok id => c.getById id kv

/-- `create` (events.rs 139-193, accounts.rs 64-80, organizations.rs 64-87, teams.rs 68-101,
projects.rs 66-94, custom_events.rs 129-171 after validation). `keys` are the index keys made from the
request, `mk` builds the record from the new identifier. -/
def Coll.create (c : Coll R) (keys : List (Option Key)) (mk : Nat → R) : Call R := fun kv =>
  if clashInsert keys kv then .error .alreadyExists else
  match nextSeq (.seq c.ns) kv with
  | .error e => .error e
  | .ok (id, kv) =>
    let r := mk id
    let kv := putK kv (.data c.ns (c.id r)) (c.enc r)
    .ok (r, insertIndex keys (c.id r) kv)

/-- `update` (events.rs 265-317, accounts.rs 121-167, organizations.rs 117-159, teams.rs 133-166,
projects.rs 135-174, custom_events.rs 214-270): `pairs` lists new and previous index keys for the
fields present in the request, `f` is the new record (it may fail: custom event validation). -/
def Coll.update (c : Coll R) (id : Nat) (pairs : R → List (Option Key × Option Key)) (f : R → Except Err R) : Call R :=
  fun kv =>
  match c.getById id kv with
  | .error e => .error e
  | .ok r =>
    if clashUpdate (pairs r) kv then .error .alreadyExists else
    match f r with
    | .error e => .error e
    | .ok r' =>
      let kv := putK kv (.data c.ns (c.id r')) (c.enc r')
      .ok (r', updateIndex (pairs r) id kv)

/-- `delete` (events.rs 386-400 and so on). -/
def Coll.delete (c : Coll R) (id : Nat) : Call R := fun kv =>
  match c.getById id kv with
  | .error e => .error e
  | .ok r => .ok (r, deleteIndex (keysOf c.ns c.ixs r) (delK kv (.data c.ns id)))

/-! ## The index functions on one family of keys -/

/-- One index with its new and previous value. -/
abbrev Tri := Ix × Option Str × Option Str

def triKeys (ns : Ns) (l : List Tri) : List (Option Key × Option Key) :=
  l.map fun t => (t.2.1.map (Key.idx ns t.1), t.2.2.map (Key.idx ns t.1))

theorem map_idx_eq (ns : Ns) (ix : Ix) (a b : Option Str) :
    a.map (Key.idx ns ix) = b.map (Key.idx ns ix) ↔ a = b := by
  cases a <;> cases b <;> simp

theorem getK_updateIndex_other (ns : Ns) (l : List Tri) (id : Nat) (kv : Kv) (k : Key) (hk : k.WF)
    (h : ∀ ix x, k ≠ .idx ns ix x) : getK (updateIndex (triKeys ns l) id kv) k = getK kv k := by
  induction l generalizing kv with
  | nil => rfl
  | cons t l ih =>
    obtain ⟨ix, new, prev⟩ := t
    have hd : ∀ kv : Kv, ∀ x, getK (delK kv (.idx ns ix x)) k = getK kv k := fun kv x => by
      rw [getK_delK _ (wf_idx _ _ _) hk, if_neg (h ix x)]
    have hp : ∀ kv : Kv, ∀ x v, getK (putK kv (.idx ns ix x) v) k = getK kv k := fun kv x v => by
      rw [getK_putK _ (wf_idx _ _ _) hk, if_neg (h ix x)]
    simp only [triKeys, List.map_cons, updateIndex]
    rw [show l.map (fun t : Tri => (t.2.1.map (Key.idx ns t.1), t.2.2.map (Key.idx ns t.1))) = triKeys ns l from rfl, ih]
    cases new <;> cases prev <;> simp [hd, hp]
    split <;> simp [hd]

theorem getK_updateIndex_ix (ns : Ns) (l : List Tri) (id : Nat) (kv : Kv) (ix : Ix) (x : Str)
    (h : ix ∉ l.map (·.1)) : getK (updateIndex (triKeys ns l) id kv) (.idx ns ix x) = getK kv (.idx ns ix x) := by
  induction l generalizing kv with
  | nil => rfl
  | cons t l ih =>
    obtain ⟨ix', new, prev⟩ := t
    simp only [List.map_cons, List.mem_cons, not_or] at h
    have hne : ∀ y, Key.idx ns ix x ≠ .idx ns ix' y := fun y e => h.1 (by injection e)
    have hd : ∀ kv : Kv, ∀ y, getK (delK kv (.idx ns ix' y)) (.idx ns ix x) = getK kv (.idx ns ix x) := fun kv y => by
      rw [getK_delK _ (wf_idx _ _ _) (wf_idx _ _ _), if_neg (hne y)]
    have hp : ∀ kv : Kv, ∀ y v, getK (putK kv (.idx ns ix' y) v) (.idx ns ix x) = getK kv (.idx ns ix x) := fun kv y v => by
      rw [getK_putK _ (wf_idx _ _ _) (wf_idx _ _ _), if_neg (hne y)]
    simp only [triKeys, List.map_cons, updateIndex]
    rw [show l.map (fun t : Tri => (t.2.1.map (Key.idx ns t.1), t.2.2.map (Key.idx ns t.1))) = triKeys ns l from rfl, ih _ h.2]
    cases new <;> cases prev <;> simp [hd, hp]
    split <;> simp [hd]

/-- What `update_index` leaves in an index it was given. -/
theorem getK_updateIndex (ns : Ns) (l : List Tri) (hn : (l.map (·.1)).Nodup) (id : Nat) (kv : Kv) {ix : Ix}
    {new prev : Option Str} (ht : (ix, new, prev) ∈ l) (x : Str) :
    getK (updateIndex (triKeys ns l) id kv) (.idx ns ix x) =
      if new = some x then some (le64 id) else if prev = some x then none else getK kv (.idx ns ix x) := by
  induction l generalizing kv with
  | nil => simp at ht
  | cons t l ih =>
    obtain ⟨ix', new', prev'⟩ := t
    simp only [List.map_cons, List.nodup_cons] at hn
    simp only [triKeys, List.map_cons, updateIndex]
    rw [show l.map (fun t : Tri => (t.2.1.map (Key.idx ns t.1), t.2.2.map (Key.idx ns t.1))) = triKeys ns l from rfl]
    rcases List.mem_cons.mp ht with he | ht
    · simp only [Prod.mk.injEq] at he
      obtain ⟨rfl, rfl, rfl⟩ := he
      rw [getK_updateIndex_ix _ _ _ _ _ _ hn.1]
      cases new with
      | none =>
        cases prev with
        | none => simp
        | some p =>
          simp only [Option.map_none, Option.map_some, ne_eq, reduceCtorEq, not_false_eq_true, if_true, if_false]
          rw [getK_delK _ (wf_idx _ _ _) (wf_idx _ _ _)]
          by_cases h : x = p
          · simp [h]
          · simp [h, Ne.symm h]
      | some n =>
        cases prev with
        | none =>
          simp only [Option.map_none, Option.map_some, ne_eq, reduceCtorEq, not_false_eq_true, if_true, if_false]
          rw [getK_putK _ (wf_idx _ _ _) (wf_idx _ _ _)]
          by_cases h : x = n
          · simp [h]
          · simp [h, Ne.symm h]
        | some p =>
          simp only [Option.map_some, ne_eq, Option.some.injEq, Key.idx.injEq, true_and]
          by_cases hnp : n = p
          · subst hnp
            simp only [not_true_eq_false, if_false]
            rw [getK_putK _ (wf_idx _ _ _) (wf_idx _ _ _)]
            by_cases h : x = n
            · simp [h]
            · simp [h, Ne.symm h]
          · simp only [hnp, not_false_eq_true, if_true]
            rw [getK_putK _ (wf_idx _ _ _) (wf_idx _ _ _), getK_delK _ (wf_idx _ _ _) (wf_idx _ _ _)]
            by_cases h : x = n
            · simp [h]
            · by_cases h2 : x = p
              · simp [h2, Ne.symm hnp, hnp]
              · simp [h, h2, Ne.symm h, Ne.symm h2]
    · have hne : ix ≠ ix' := fun e => hn.1 (by rw [← e]; exact List.mem_map.mpr ⟨_, ht, rfl⟩)
      rw [ih hn.2 _ ht]
      have hk : ∀ y, Key.idx ns ix x ≠ .idx ns ix' y := fun y e => hne (by injection e)
      have hd : ∀ kv : Kv, ∀ y, getK (delK kv (.idx ns ix' y)) (.idx ns ix x) = getK kv (.idx ns ix x) := fun kv y => by
        rw [getK_delK _ (wf_idx _ _ _) (wf_idx _ _ _), if_neg (hk y)]
      have hp : ∀ kv : Kv, ∀ y v, getK (putK kv (.idx ns ix' y) v) (.idx ns ix x) = getK kv (.idx ns ix x) := fun kv y v => by
        rw [getK_putK _ (wf_idx _ _ _) (wf_idx _ _ _), if_neg (hk y)]
      congr 2
      cases new' <;> cases prev' <;> simp [hd, hp]
      split <;> simp [hd]

/-! ## The invariant -/

/-- What a collection's codec and indexes must satisfy: distinct indexes, and reading back a written
record gives its stored form `norm r`, which has the same identifier and index values. -/
structure Coll.Ok (c : Coll R) (norm : R → R) (Valid : R → Prop) : Prop where
  nodup : (c.ixs.map (·.1)).Nodup
  dec_enc : ∀ r, Valid r → c.dec (c.enc r) = some (norm r)
  id_norm : ∀ r, c.id (norm r) = c.id r
  ix_norm : ∀ r, ∀ i ∈ c.ixs, i.2 (norm r) = i.2 r
  valid_norm : ∀ r, Valid r → Valid (norm r)

/-- The live records of a collection. -/
def Coll.live (c : Coll R) (kv : Kv) (id : Nat) : Option R := (getK kv (.data c.ns id)).bind c.dec

/-- The last identifier handed out. -/
def lastId (kv : Kv) (ns : Ns) : Nat :=
  match getK kv (.seq ns) with
  | none => 0
  | some v => fromLE v

structure Coll.Inv (c : Coll R) (Valid : R → Prop) (kv : Kv) : Prop where
  seq : ∀ v, getK kv (.seq c.ns) = some v → v.length = 8
  data : ∀ id v, getK kv (.data c.ns id) = some v →
    ∃ r, c.dec v = some r ∧ c.id r = id ∧ 0 < id ∧ id ≤ lastId kv c.ns ∧ Valid r
  idx : ∀ i ∈ c.ixs, ∀ x v, getK kv (.idx c.ns i.1 x) = some v ↔
    ∃ id r, v = le64 id ∧ c.live kv id = some r ∧ i.2 r = some x

theorem lastId_lt {c : Coll R} {Valid : R → Prop} {kv : Kv} (h : c.Inv Valid kv) : lastId kv c.ns < 2 ^ 64 := by
  unfold lastId
  split
  · decide
  · rename_i v hv
    have := OptiPrism.Storage.fromLE_lt v
    rw [h.seq v hv] at this
    exact this

theorem Inv.live_id {c : Coll R} {Valid : R → Prop} {kv : Kv} (h : c.Inv Valid kv) {id : Nat} {r : R}
    (hl : c.live kv id = some r) : c.id r = id ∧ 0 < id ∧ id ≤ lastId kv c.ns ∧ Valid r := by
  unfold Coll.live at hl
  cases hv : getK kv (.data c.ns id) with
  | none => rw [hv] at hl; simp at hl
  | some v =>
    rw [hv] at hl
    obtain ⟨r', h1, h2⟩ := h.data id v hv
    simp only [Option.bind_some] at hl
    rw [h1] at hl
    injection hl with hl
    subst hl
    exact h2

theorem getById_eq {c : Coll R} {Valid : R → Prop} {kv : Kv} (h : c.Inv Valid kv) (id : Nat) :
    c.getById id kv = match c.live kv id with | none => .error .notFound | some r => .ok r := by
  unfold Coll.getById Coll.live
  cases hv : getK kv (.data c.ns id) with
  | none => rfl
  | some v =>
    obtain ⟨r, h1, -⟩ := h.data id v hv
    simp [h1]

/-- In an invariant state no two live records share an index value. -/
theorem Inv.distinct {c : Coll R} {Valid : R → Prop} {kv : Kv} (h : c.Inv Valid kv) {i : Ix × (R → Option Str)}
    (hi : i ∈ c.ixs) {id id' : Nat} {r r' : R} {x : Str} (h1 : c.live kv id = some r) (h2 : c.live kv id' = some r')
    (hx : i.2 r = some x) (hx' : i.2 r' = some x) : id = id' := by
  have e1 := (h.idx i hi x (le64 id)).mpr ⟨id, r, rfl, h1, hx⟩
  have e2 := (h.idx i hi x (le64 id')).mpr ⟨id', r', rfl, h2, hx'⟩
  rw [e1] at e2
  injection e2 with e2
  have b := lastId_lt h
  have := (Inv.live_id h h1).2.2.1
  have := (Inv.live_id h h2).2.2.1
  exact le64_inj (by omega) (by omega) e2

theorem getBy_eq {c : Coll R} {Valid : R → Prop} {kv : Kv} (h : c.Inv Valid kv) {i : Ix × (R → Option Str)}
    (hi : i ∈ c.ixs) (x : Str) (a : Except Err R) :
    c.getBy i.1 x kv = a ↔ (∃ id r, c.live kv id = some r ∧ i.2 r = some x ∧ a = .ok r) ∨
      ((∀ id r, c.live kv id = some r → i.2 r ≠ some x) ∧ a = .error .notFound) := by
  have key : (∃ id r, c.live kv id = some r ∧ i.2 r = some x ∧ c.getBy i.1 x kv = .ok r) ∨
      ((∀ id r, c.live kv id = some r → i.2 r ≠ some x) ∧ c.getBy i.1 x kv = .error .notFound) := by
    cases hv : getK kv (.idx c.ns i.1 x) with
    | none =>
      refine Or.inr ⟨fun id r hl hx => ?_, by simp [Coll.getBy, getIndex, hv]⟩
      have := (h.idx i hi x (le64 id)).mpr ⟨id, r, rfl, hl, hx⟩
      rw [hv] at this
      simp at this
    | some v =>
      obtain ⟨id, r, rfl, hl, hx⟩ := (h.idx i hi x v).mp hv
      refine Or.inl ⟨id, r, hl, hx, ?_⟩
      have hlt : id < 2 ^ 64 := by have := lastId_lt h; have := (Inv.live_id h hl).2.2.1; omega
      simp only [Coll.getBy, getIndex, hv, readU64, le64_length, if_true, fromLE_le64 hlt]
      rw [getById_eq h, hl]
  constructor
  · rintro rfl
    exact key
  · rintro (⟨id, r, hl, hx, rfl⟩ | ⟨hno, rfl⟩)
    · rcases key with ⟨id', r', hl', hx', e⟩ | ⟨hno, -⟩
      · have := Inv.distinct h hi hl hl' hx hx'
        subst this
        rw [hl] at hl'
        injection hl' with hl'
        rw [e, hl']
      · exact absurd hx (hno id r hl)
    · rcases key with ⟨id', r', hl', hx', e⟩ | ⟨-, e⟩
      · exact absurd hx' (hno id' r' hl')
      · exact e

/-! ## Create -/

/-- Some live record has one of the index values of `r`. -/
def Coll.Taken (c : Coll R) (kv : Kv) (r : R) : Prop :=
  ∃ i ∈ c.ixs, ∃ x id r', i.2 r = some x ∧ c.live kv id = some r' ∧ i.2 r' = some x

theorem clashInsert_iff {c : Coll R} {Valid : R → Prop} {kv : Kv} (h : c.Inv Valid kv) (r : R) :
    clashInsert (keysOf c.ns c.ixs r) kv = true ↔ c.Taken kv r := by
  unfold clashInsert keysOf Coll.Taken
  rw [List.any_eq_true]
  constructor
  · rintro ⟨k, hk, hp⟩
    obtain ⟨i, hi, rfl⟩ := List.mem_map.mp hk
    cases hx : i.2 r with
    | none => rw [hx] at hp; simp at hp
    | some x =>
      rw [hx] at hp
      simp only [Option.map_some] at hp
      obtain ⟨v, hv⟩ := Option.isSome_iff_exists.mp hp
      obtain ⟨id, r', -, hl, hx'⟩ := (h.idx i hi x v).mp hv
      exact ⟨i, hi, x, id, r', hx, hl, hx'⟩
  · rintro ⟨i, hi, x, id, r', hx, hl, hx'⟩
    refine ⟨_, List.mem_map.mpr ⟨i, hi, rfl⟩, ?_⟩
    simp only [hx, Option.map_some]
    rw [(h.idx i hi x (le64 id)).mpr ⟨id, r', rfl, hl, hx'⟩]
    rfl

theorem nextSeq_eq {c : Coll R} {Valid : R → Prop} {kv : Kv} (h : c.Inv Valid kv) (hl : lastId kv c.ns + 1 < 2 ^ 64) :
    nextSeq (.seq c.ns) kv = .ok (lastId kv c.ns + 1, putK kv (.seq c.ns) (le64 (lastId kv c.ns + 1))) := by
  unfold nextSeq lastId at *
  cases hv : getK kv (.seq c.ns) with
  | none => rfl
  | some v =>
    rw [hv] at hl
    dsimp only at hl ⊢
    simp only [readU64, h.seq v hv, if_true]
    rw [Nat.mod_eq_of_lt hl]

theorem keysOf_tri (ns : Ns) (l : List (Ix × (R → Option Str))) (r : R) :
    (keysOf ns l r).map (fun k => (k, none)) = triKeys ns (l.map fun i => (i.1, i.2 r, none)) := by
  simp [keysOf, triKeys]

theorem keysOf_tri' (ns : Ns) (l : List (Ix × (R → Option Str))) (r : R) :
    (keysOf ns l r).map (fun k => (none, k)) = triKeys ns (l.map fun i => (i.1, none, i.2 r)) := by
  simp [keysOf, triKeys]

/-- What `create` does in an invariant state. -/
theorem create_spec {c : Coll R} {norm : R → R} {Valid : R → Prop} (ok : c.Ok norm Valid) {kv : Kv}
    (h : c.Inv Valid kv) (hl : lastId kv c.ns + 1 < 2 ^ 64) {keys : List (Option Key)} {mk : Nat → R}
    (hk : ∀ id, keys = keysOf c.ns c.ixs (mk id)) (hid : ∀ id, c.id (mk id) = id) (hv : ∀ id, id < 2 ^ 64 → Valid (mk id)) :
    (c.Taken kv (mk (lastId kv c.ns + 1)) ∧ c.create keys mk kv = .error .alreadyExists) ∨
    (¬ c.Taken kv (mk (lastId kv c.ns + 1)) ∧ ∃ kv', c.create keys mk kv = .ok (mk (lastId kv c.ns + 1), kv') ∧
      c.Inv Valid kv' ∧ lastId kv' c.ns = lastId kv c.ns + 1 ∧
      ∀ id, c.live kv' id = if id = lastId kv c.ns + 1 then some (norm (mk id)) else c.live kv id) := by
  generalize hn : lastId kv c.ns + 1 = n at *
  by_cases ht : c.Taken kv (mk n)
  · refine Or.inl ⟨ht, ?_⟩
    have := (clashInsert_iff h (mk n)).mpr ht
    rw [← hk n] at this
    simp [Coll.create, this]
  · refine Or.inr ⟨ht, ?_⟩
    have hc : clashInsert keys kv = false := by
      rw [hk n, Bool.eq_false_iff]
      exact fun e => ht ((clashInsert_iff h _).mp e)
    have hseq := nextSeq_eq h (by rw [hn]; exact hl)
    rw [hn] at hseq
    generalize hkv1 : putK (putK kv (.seq c.ns) (le64 n)) (.data c.ns n) (c.enc (mk n)) = kv1
    have e : c.create keys mk kv = .ok (mk n, updateIndex (triKeys c.ns (c.ixs.map fun i => (i.1, i.2 (mk n), none))) n kv1) := by
      simp only [Coll.create, hc, Bool.false_eq_true, if_false, hseq, hid]
      rw [insertIndex_eq, hk n, keysOf_tri, hkv1]
    refine ⟨_, e, ?_⟩
    generalize hkv2 : updateIndex (triKeys c.ns (c.ixs.map fun i => (i.1, i.2 (mk n), none))) n kv1 = kv2
    have gseq : getK kv2 (.seq c.ns) = some (le64 n) := by
      rw [← hkv2, getK_updateIndex_other _ _ _ _ _ (wf_seq _) (by simp), ← hkv1,
        getK_putK _ (wf_data _ _) (wf_seq _), if_neg (by simp), getK_putK _ (wf_seq _) (wf_seq _), if_pos rfl]
    have gdata : ∀ id, getK kv2 (.data c.ns id) = if id = n then some (c.enc (mk n)) else getK kv (.data c.ns id) := by
      intro id
      rw [← hkv2, getK_updateIndex_other _ _ _ _ _ (wf_data _ _) (by simp), ← hkv1,
        getK_putK _ (wf_data _ _) (wf_data _ _), getK_putK _ (wf_seq _) (wf_data _ _)]
      simp
    have gidx : ∀ i ∈ c.ixs, ∀ x, getK kv2 (.idx c.ns i.1 x) =
        if i.2 (mk n) = some x then some (le64 n) else getK kv (.idx c.ns i.1 x) := by
      intro i hi x
      rw [← hkv2, getK_updateIndex c.ns _ (by simpa [List.map_map, Function.comp_def] using ok.nodup) n kv1
        (ix := i.1) (new := i.2 (mk n)) (prev := none) (List.mem_map.mpr ⟨i, hi, rfl⟩)]
      rw [← hkv1, getK_putK _ (wf_data _ _) (wf_idx _ _ _), getK_putK _ (wf_seq _) (wf_idx _ _ _)]
      simp
    have hlast : lastId kv2 c.ns = n := by
      unfold lastId
      rw [gseq]
      exact fromLE_le64 hl
    have glive : ∀ id, c.live kv2 id = if id = n then some (norm (mk id)) else c.live kv id := by
      intro id
      unfold Coll.live
      rw [gdata]
      by_cases hd : id = n
      · subst hd; simp [ok.dec_enc _ (hv id hl)]
      · simp [hd]
    have hfresh : c.live kv n = none := by
      cases hx : c.live kv n with
      | none => rfl
      | some r => have := (Inv.live_id h hx).2.2.1; omega
    refine ⟨⟨?_, ?_, ?_⟩, hlast, glive⟩
    · intro v hv'
      rw [gseq] at hv'
      injection hv' with hv'
      rw [← hv', le64_length]
    · intro id v hv'
      rw [gdata] at hv'
      rw [hlast]
      by_cases hd : id = n
      · rw [if_pos hd] at hv'
        injection hv' with hv'
        refine ⟨norm (mk n), ?_, ?_, ?_, ?_, ok.valid_norm _ (hv n hl)⟩
        · rw [← hv']; exact ok.dec_enc _ (hv n hl)
        · rw [ok.id_norm, hid, hd]
        · omega
        · omega
      · rw [if_neg hd] at hv'
        obtain ⟨r, h1, h2, h3, h4, h5⟩ := h.data id v hv'
        exact ⟨r, h1, h2, h3, by omega, h5⟩
    · intro i hi x v
      rw [gidx i hi x]
      by_cases hx : i.2 (mk n) = some x
      · rw [if_pos hx]
        constructor
        · intro hv'
          injection hv' with hv'
          exact ⟨n, norm (mk n), hv'.symm, by rw [glive, if_pos rfl], by rw [ok.ix_norm _ i hi, hx]⟩
        · rintro ⟨id, r, rfl, hl', hx'⟩
          rw [glive] at hl'
          by_cases hd : id = n
          · rw [hd]
          · rw [if_neg hd] at hl'
            exact absurd ⟨i, hi, x, id, r, hx, hl', hx'⟩ ht
      · rw [if_neg hx, h.idx i hi x v]
        constructor
        · rintro ⟨id, r, rfl, hl', hx'⟩
          refine ⟨id, r, rfl, ?_, hx'⟩
          rw [glive, if_neg, hl']
          rintro rfl
          rw [hfresh] at hl'
          simp at hl'
        · rintro ⟨id, r, rfl, hl', hx'⟩
          rw [glive] at hl'
          by_cases hd : id = n
          · rw [if_pos hd] at hl'
            injection hl' with hl'
            rw [← hl', ok.ix_norm _ i hi, hd] at hx'
            exact absurd hx' hx
          · rw [if_neg hd] at hl'
            exact ⟨id, r, rfl, hl', hx'⟩

/-! ## Update -/

/-- A different live record has one of the index values of `r`. -/
def Coll.TakenBy (c : Coll R) (kv : Kv) (id : Nat) (r : R) : Prop :=
  ∃ i ∈ c.ixs, ∃ x id' r', id' ≠ id ∧ i.2 r = some x ∧ c.live kv id' = some r' ∧ i.2 r' = some x

/-- The pairs of index keys an update passes on: the indexes of `sel`, from `r` to `r'`. -/
def pairsOf (ns : Ns) (sel : List (Ix × (R → Option Str))) (r r' : R) : List (Option Key × Option Key) :=
  sel.map fun i => ((i.2 r').map (Key.idx ns i.1), (i.2 r).map (Key.idx ns i.1))

theorem clashUpdate_iff {c : Coll R} {Valid : R → Prop} {kv : Kv} (h : c.Inv Valid kv)
    {sel : List (Ix × (R → Option Str))} (hs : ∀ i ∈ sel, i ∈ c.ixs) {id : Nat} {r r' : R}
    (hl : c.live kv id = some r) (hrest : ∀ i ∈ c.ixs, i ∉ sel → i.2 r' = i.2 r) :
    clashUpdate (pairsOf c.ns sel r r') kv = true ↔ c.TakenBy kv id r' := by
  unfold clashUpdate pairsOf Coll.TakenBy
  rw [List.any_eq_true]
  constructor
  · rintro ⟨k, hk, hp⟩
    obtain ⟨i, hi, rfl⟩ := List.mem_map.mp hk
    cases hx : i.2 r' with
    | none => rw [hx] at hp; simp at hp
    | some x =>
      rw [hx] at hp
      simp only [Option.map_some, Bool.and_eq_true, decide_eq_true_eq] at hp
      obtain ⟨v, hv⟩ := Option.isSome_iff_exists.mp hp.2
      obtain ⟨id', r2, -, hl', hx'⟩ := (h.idx i (hs i hi) x v).mp hv
      refine ⟨i, hs i hi, x, id', r2, ?_, hx, hl', hx'⟩
      rintro rfl
      rw [hl] at hl'
      injection hl' with hl'
      subst hl'
      exact hp.1 (by rw [hx']; rfl)
  · rintro ⟨i, hi, x, id', r2, hne, hx, hl', hx'⟩
    have hmem : i ∈ sel := by
      apply Classical.byContradiction
      intro hn
      rw [hrest i hi hn] at hx
      exact hne (Inv.distinct h hi hl' hl hx' hx)
    refine ⟨_, List.mem_map.mpr ⟨i, hmem, rfl⟩, ?_⟩
    simp only [hx, Option.map_some, Bool.and_eq_true, decide_eq_true_eq]
    refine ⟨?_, ?_⟩
    · intro e
      cases hr : i.2 r with
      | none => rw [hr] at e; simp at e
      | some y =>
        rw [hr] at e
        simp only [Option.map_some, Option.some.injEq, Key.idx.injEq, true_and] at e
        subst e
        exact hne (Inv.distinct h hi hl' hl hx' hr)
    · rw [(h.idx i hi x (le64 id')).mpr ⟨id', r2, rfl, hl', hx'⟩]
      rfl

/-- What `update` does in an invariant state. -/
theorem update_spec {c : Coll R} {norm : R → R} {Valid : R → Prop} (ok : c.Ok norm Valid) {kv : Kv}
    (h : c.Inv Valid kv) {id : Nat} {pairs : R → List (Option Key × Option Key)} {f : R → Except Err R}
    {target : R → R} {sel : List (Ix × (R → Option Str))} (hs : ∀ i ∈ sel, i ∈ c.ixs) (hsn : (sel.map (·.1)).Nodup)
    (hf : ∀ r r', f r = .ok r' → r' = target r)
    (hp : ∀ r, pairs r = pairsOf c.ns sel r (target r))
    (hrest : ∀ r, ∀ i ∈ c.ixs, i ∉ sel → i.2 (target r) = i.2 r)
    (hid : ∀ r, c.id (target r) = c.id r) (hv : ∀ r, Valid r → Valid (target r)) :
    (c.live kv id = none ∧ c.update id pairs f kv = .error .notFound) ∨
    ∃ r, c.live kv id = some r ∧
      ((c.TakenBy kv id (target r) ∧ c.update id pairs f kv = .error .alreadyExists) ∨
       (¬ c.TakenBy kv id (target r) ∧ ((∃ e, f r = .error e ∧ c.update id pairs f kv = .error e) ∨
         (f r = .ok (target r) ∧ ∃ kv', c.update id pairs f kv = .ok (target r, kv') ∧ c.Inv Valid kv' ∧ lastId kv' c.ns = lastId kv c.ns ∧
          ∀ j, c.live kv' j = if j = id then some (norm (target r)) else c.live kv j)))) := by
  unfold Coll.update
  rw [getById_eq h]
  cases hl : c.live kv id with
  | none => left; simp
  | some r =>
    right
    refine ⟨r, rfl, ?_⟩
    dsimp only
    obtain ⟨hrid, hpos, hle, hval⟩ := Inv.live_id h hl
    have hci := clashUpdate_iff h hs hl (hrest r)
    rw [← hp] at hci
    by_cases ht : c.TakenBy kv id (target r)
    · left
      exact ⟨ht, by rw [if_pos (hci.mpr ht)]⟩
    · right
      refine ⟨ht, ?_⟩
      rw [if_neg (fun e => ht (hci.mp e))]
      cases hfr : f r with
      | error e => left; exact ⟨e, rfl, rfl⟩
      | ok r' =>
        right
        have := hf r r' hfr
        subst this
        refine ⟨rfl, _, rfl, ?_⟩
        rw [hid, hrid]
        have hpr : pairs r = triKeys c.ns (sel.map fun i => (i.1, i.2 (target r), i.2 r)) := by
          rw [hp]; simp [pairsOf, triKeys]
        rw [hpr]
        generalize hkv1 : putK kv (.data c.ns id) (c.enc (target r)) = kv1
        generalize hkv2 : updateIndex (triKeys c.ns (sel.map fun i => (i.1, i.2 (target r), i.2 r))) id kv1 = kv2
        have gseq : getK kv2 (.seq c.ns) = getK kv (.seq c.ns) := by
          rw [← hkv2, getK_updateIndex_other _ _ _ _ _ (wf_seq _) (by simp), ← hkv1,
            getK_putK _ (wf_data _ _) (wf_seq _), if_neg (by simp)]
        have gdata : ∀ j, getK kv2 (.data c.ns j) = if j = id then some (c.enc (target r)) else getK kv (.data c.ns j) := by
          intro j
          rw [← hkv2, getK_updateIndex_other _ _ _ _ _ (wf_data _ _) (by simp), ← hkv1,
            getK_putK _ (wf_data _ _) (wf_data _ _)]
          simp
        have gidx : ∀ i ∈ c.ixs, ∀ x, getK kv2 (.idx c.ns i.1 x) =
            if i.2 (target r) = some x then some (le64 id) else if i.2 r = some x then none
              else getK kv (.idx c.ns i.1 x) := by
          intro i hi x
          have hkv1x : ∀ ix x, getK kv1 (.idx c.ns ix x) = getK kv (.idx c.ns ix x) := by
            intro ix x
            rw [← hkv1, getK_putK _ (wf_data _ _) (wf_idx _ _ _), if_neg (by simp)]
          by_cases hm : i ∈ sel
          · rw [← hkv2, getK_updateIndex c.ns _ (by simpa [List.map_map, Function.comp_def] using hsn) id kv1
              (ix := i.1) (new := i.2 (target r)) (prev := i.2 r) (List.mem_map.mpr ⟨i, hm, rfl⟩), hkv1x]
          · have hix : i.1 ∉ (sel.map fun i => (i.1, i.2 (target r), i.2 r)).map (·.1) := by
              intro hc
              simp only [List.map_map, List.mem_map, Function.comp_apply] at hc
              obtain ⟨j, hj, he⟩ := hc
              have : j = i := nodup_map_inj ok.nodup (hs j hj) hi he
              exact hm (this ▸ hj)
            rw [← hkv2, getK_updateIndex_ix _ _ _ _ _ _ hix, hkv1x, hrest r i hi hm]
            by_cases hx : i.2 r = some x
            · rw [if_pos hx, (h.idx i hi x (le64 id)).mpr ⟨id, r, rfl, hl, hx⟩]
            · rw [if_neg hx, if_neg hx]
        have hlast : lastId kv2 c.ns = lastId kv c.ns := by unfold lastId; rw [gseq]
        have glive : ∀ j, c.live kv2 j = if j = id then some (norm (target r)) else c.live kv j := by
          intro j
          unfold Coll.live
          rw [gdata]
          by_cases hd : j = id
          · simp [hd, ok.dec_enc _ (hv r hval)]
          · simp [hd]
        refine ⟨⟨?_, ?_, ?_⟩, hlast, glive⟩
        · intro v hv'
          rw [gseq] at hv'
          exact h.seq v hv'
        · intro j v hv'
          rw [gdata] at hv'
          rw [hlast]
          by_cases hd : j = id
          · rw [if_pos hd] at hv'
            injection hv' with hv'
            refine ⟨norm (target r), ?_, ?_, by omega, by omega, ok.valid_norm _ (hv r hval)⟩
            · rw [← hv']; exact ok.dec_enc _ (hv r hval)
            · rw [ok.id_norm, hid, hrid, hd]
          · rw [if_neg hd] at hv'
            exact h.data j v hv'
        · intro i hi x v
          rw [gidx i hi x]
          by_cases hx : i.2 (target r) = some x
          · rw [if_pos hx]
            constructor
            · intro hv'
              injection hv' with hv'
              exact ⟨id, norm (target r), hv'.symm, by rw [glive, if_pos rfl], by rw [ok.ix_norm _ i hi, hx]⟩
            · rintro ⟨j, r2, rfl, hl', hx'⟩
              rw [glive] at hl'
              by_cases hd : j = id
              · rw [hd]
              · rw [if_neg hd] at hl'
                exact absurd ⟨i, hi, x, j, r2, hd, hx, hl', hx'⟩ ht
          · rw [if_neg hx]
            by_cases hx2 : i.2 r = some x
            · rw [if_pos hx2]
              constructor
              · intro hv'; simp at hv'
              · rintro ⟨j, r2, rfl, hl', hx'⟩
                rw [glive] at hl'
                by_cases hd : j = id
                · rw [if_pos hd] at hl'
                  injection hl' with hl'
                  rw [← hl', ok.ix_norm _ i hi] at hx'
                  exact absurd hx' hx
                · rw [if_neg hd] at hl'
                  exact absurd (Inv.distinct h hi hl' hl hx' hx2) hd
            · rw [if_neg hx2, h.idx i hi x v]
              constructor
              · rintro ⟨j, r2, rfl, hl', hx'⟩
                refine ⟨j, r2, rfl, ?_, hx'⟩
                rw [glive, if_neg, hl']
                rintro rfl
                rw [hl] at hl'
                injection hl' with hl'
                subst hl'
                exact hx2 hx'
              · rintro ⟨j, r2, rfl, hl', hx'⟩
                rw [glive] at hl'
                by_cases hd : j = id
                · rw [if_pos hd] at hl'
                  injection hl' with hl'
                  rw [← hl', ok.ix_norm _ i hi] at hx'
                  exact absurd hx' hx
                · rw [if_neg hd] at hl'
                  exact ⟨j, r2, rfl, hl', hx'⟩

/-! ## Delete -/

theorem delete_spec {c : Coll R} {norm : R → R} {Valid : R → Prop} (ok : c.Ok norm Valid) {kv : Kv}
    (h : c.Inv Valid kv) (id : Nat) :
    (c.live kv id = none ∧ c.delete id kv = .error .notFound) ∨
    ∃ r kv', c.live kv id = some r ∧ c.delete id kv = .ok (r, kv') ∧ c.Inv Valid kv' ∧ lastId kv' c.ns = lastId kv c.ns ∧
      ∀ j, c.live kv' j = if j = id then none else c.live kv j := by
  unfold Coll.delete
  rw [getById_eq h]
  cases hl : c.live kv id with
  | none => left; simp
  | some r =>
    right
    refine ⟨r, _, rfl, rfl, ?_⟩
    rw [deleteIndex_eq _ id, keysOf_tri']
    generalize hkv1 : delK kv (.data c.ns id) = kv1
    generalize hkv2 : updateIndex (triKeys c.ns (c.ixs.map fun i => (i.1, none, i.2 r))) id kv1 = kv2
    have gseq : getK kv2 (.seq c.ns) = getK kv (.seq c.ns) := by
      rw [← hkv2, getK_updateIndex_other _ _ _ _ _ (wf_seq _) (by simp), ← hkv1,
        getK_delK _ (wf_data _ _) (wf_seq _), if_neg (by simp)]
    have gdata : ∀ j, getK kv2 (.data c.ns j) = if j = id then none else getK kv (.data c.ns j) := by
      intro j
      rw [← hkv2, getK_updateIndex_other _ _ _ _ _ (wf_data _ _) (by simp), ← hkv1,
        getK_delK _ (wf_data _ _) (wf_data _ _)]
      simp
    have gidx : ∀ i ∈ c.ixs, ∀ x, getK kv2 (.idx c.ns i.1 x) =
        if i.2 r = some x then none else getK kv (.idx c.ns i.1 x) := by
      intro i hi x
      rw [← hkv2, getK_updateIndex c.ns _ (by simpa [List.map_map, Function.comp_def] using ok.nodup) id kv1
        (ix := i.1) (new := none) (prev := i.2 r) (List.mem_map.mpr ⟨i, hi, rfl⟩), ← hkv1,
        getK_delK _ (wf_data _ _) (wf_idx _ _ _)]
      simp
    have hlast : lastId kv2 c.ns = lastId kv c.ns := by unfold lastId; rw [gseq]
    have glive : ∀ j, c.live kv2 j = if j = id then none else c.live kv j := by
      intro j
      unfold Coll.live
      rw [gdata]
      by_cases hd : j = id <;> simp [hd]
    refine ⟨⟨?_, ?_, ?_⟩, hlast, glive⟩
    · intro v hv'
      rw [gseq] at hv'
      exact h.seq v hv'
    · intro j v hv'
      rw [gdata] at hv'
      rw [hlast]
      by_cases hd : j = id
      · rw [if_pos hd] at hv'; simp at hv'
      · rw [if_neg hd] at hv'
        exact h.data j v hv'
    · intro i hi x v
      rw [gidx i hi x]
      by_cases hx : i.2 r = some x
      · rw [if_pos hx]
        constructor
        · intro hv'; simp at hv'
        · rintro ⟨j, r2, rfl, hl', hx'⟩
          rw [glive] at hl'
          by_cases hd : j = id
          · rw [if_pos hd] at hl'; simp at hl'
          · rw [if_neg hd] at hl'
            exact absurd (Inv.distinct h hi hl' hl hx' hx) hd
      · rw [if_neg hx, h.idx i hi x v]
        constructor
        · rintro ⟨j, r2, rfl, hl', hx'⟩
          refine ⟨j, r2, rfl, ?_, hx'⟩
          rw [glive, if_neg, hl']
          rintro rfl
          rw [hl] at hl'
          injection hl' with hl'
          subst hl'
          exact hx hx'
        · rintro ⟨j, r2, rfl, hl', hx'⟩
          rw [glive] at hl'
          by_cases hd : j = id
          · rw [if_pos hd] at hl'; simp at hl'
          · rw [if_neg hd] at hl'
            exact ⟨j, r2, rfl, hl', hx'⟩

/-! ## The rest of the store -/

/-- The collection a key belongs to. -/
def Key.coll : Key → Option Ns
  | .data ns _ => some ns
  | .idx ns _ _ => some ns
  | .seq ns => some ns
  | _ => none

/-- The two stores agree on the keys of the collection. -/
def AgreeOn (ns : Ns) (kv kv' : Kv) : Prop := ∀ k : Key, k.coll = some ns → getK kv' k = getK kv k

theorem AgreeOn.live {c : Coll R} {kv kv' : Kv} (h : AgreeOn c.ns kv kv') (id : Nat) : c.live kv' id = c.live kv id := by
  unfold Coll.live
  rw [h (.data c.ns id) rfl]

theorem AgreeOn.last {ns : Ns} {kv kv' : Kv} (h : AgreeOn ns kv kv') : lastId kv' ns = lastId kv ns := by
  unfold lastId
  rw [h (.seq ns) rfl]

theorem AgreeOn.inv {c : Coll R} {Valid : R → Prop} {kv kv' : Kv} (h : AgreeOn c.ns kv kv') (hi : c.Inv Valid kv) : c.Inv Valid kv' := by
  refine ⟨?_, ?_, ?_⟩
  · intro v hv
    rw [h (.seq c.ns) rfl] at hv
    exact hi.seq v hv
  · intro id v hv
    rw [h (.data c.ns id) rfl] at hv
    rw [h.last]
    exact hi.data id v hv
  · intro i hi' x v
    rw [h (.idx c.ns i.1 x) rfl, hi.idx i hi' x v]
    simp only [h.live]

theorem AgreeOn.trans {ns : Ns} {a b d : Kv} (h : AgreeOn ns a b) (h' : AgreeOn ns b d) : AgreeOn ns a d :=
  fun k hk => (h' k hk).trans (h k hk)

theorem agree_putK {ns : Ns} (kv : Kv) {k : Key} (hk : k.WF) (h : k.coll ≠ some ns) (v : Bytes)
    : AgreeOn ns kv (putK kv k v) := by
  intro k' hk'
  have hw : k'.WF := by cases k' <;> first | trivial | simp [Key.coll] at hk'
  rw [getK_putK _ hk hw, if_neg]
  rintro rfl
  exact h hk'

theorem agree_delK {ns : Ns} (kv : Kv) {k : Key} (hk : k.WF) (h : k.coll ≠ some ns)
    : AgreeOn ns kv (delK kv k) := by
  intro k' hk'
  have hw : k'.WF := by cases k' <;> first | trivial | simp [Key.coll] at hk'
  rw [getK_delK _ hk hw, if_neg]
  rintro rfl
  exact h hk'

theorem agree_updateIndex {ns ns' : Ns} (hn : ns' ≠ ns) (l : List Tri) (id : Nat) (kv : Kv) :
    AgreeOn ns kv (updateIndex (triKeys ns' l) id kv) := by
  intro k hk
  have hw : k.WF := by cases k <;> first | trivial | simp [Key.coll] at hk
  refine getK_updateIndex_other ns' l id kv k hw ?_
  rintro ix x rfl
  simp only [Key.coll, Option.some.injEq] at hk
  exact hn hk

/-- Creating, updating or deleting in one collection leaves every other collection alone. -/
theorem create_agree {R' : Type} {c : Coll R'} {ns : Ns} (hn : c.ns ≠ ns) {keys : List (Option Key)} {mk : Nat → R'}
    (hk : ∃ r, keys = keysOf c.ns c.ixs r) {kv kv' : Kv} {r : R'} (h : c.create keys mk kv = .ok (r, kv')) : AgreeOn ns kv kv' := by
  obtain ⟨r0, rfl⟩ := hk
  unfold Coll.create at h
  split at h
  · simp at h
  · split at h
    · simp at h
    · rename_i id kv1 hs
      simp only [Except.ok.injEq, Prod.mk.injEq] at h
      rw [← h.2, insertIndex_eq, keysOf_tri]
      refine AgreeOn.trans ?_ (agree_updateIndex hn _ _ _)
      refine AgreeOn.trans ?_ (agree_putK _ (wf_data _ _) (by simpa [Key.coll] using hn) _)
      unfold nextSeq at hs
      split at hs
      · simp only [Except.ok.injEq, Prod.mk.injEq] at hs
        rw [← hs.2]
        exact agree_putK _ (wf_seq _) (by simpa [Key.coll] using hn) _
      · split at hs
        · simp at hs
        · simp only [Except.ok.injEq, Prod.mk.injEq] at hs
          rw [← hs.2]
          exact agree_putK _ (wf_seq _) (by simpa [Key.coll] using hn) _

theorem update_agree {R' : Type} {c : Coll R'} {ns : Ns} (hn : c.ns ≠ ns) {id : Nat}
    {pairs : R' → List (Option Key × Option Key)} {f : R' → Except Err R'}
    (hp : ∀ r, ∃ l, pairs r = triKeys c.ns l) {kv kv' : Kv} {r : R'} (h : c.update id pairs f kv = .ok (r, kv')) : AgreeOn ns kv kv' := by
  unfold Coll.update at h
  split at h
  · simp at h
  · rename_i r0 _
    split at h
    · simp at h
    · split at h
      · simp at h
      · simp only [Except.ok.injEq, Prod.mk.injEq] at h
        obtain ⟨l, hl⟩ := hp r0
        rw [← h.2, hl]
        exact AgreeOn.trans (agree_putK _ (wf_data _ _) (by simpa [Key.coll] using hn) _) (agree_updateIndex hn _ _ _)

theorem delete_agree {R' : Type} {c : Coll R'} {ns : Ns} (hn : c.ns ≠ ns) {id : Nat} {kv kv' : Kv} {r : R'}
    (h : c.delete id kv = .ok (r, kv')) : AgreeOn ns kv kv' := by
  unfold Coll.delete at h
  split at h
  · simp at h
  · simp only [Except.ok.injEq, Prod.mk.injEq] at h
    rw [← h.2, deleteIndex_eq _ 0, keysOf_tri']
    exact AgreeOn.trans (agree_delK _ (wf_data _ _) (by simpa [Key.coll] using hn)) (agree_updateIndex hn _ _ _)

end OptiPrism.Meta
