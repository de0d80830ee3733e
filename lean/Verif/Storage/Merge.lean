import Verif.Util

/-!
# Merging sorted row blocks

Model of /repo/src/storage/src/parquet/arrow_merger.rs 32-113 (`merge_one_primitive`,
`merge_two_primitives`) and 346-388 (`merge_queue`).

The key type `K` and its order are abstract (`TotOrd`); the code uses `i64` and `(i64, i64)`.
A binary heap is modelled by what it guarantees: draining it yields the pushed entries in
non-decreasing key order, entries with equal keys in arbitrary order (`IsDrain`).
-/

namespace OptiPrism.Storage

/-- A total order, as `Ord` on integer keys and tuples of them. -/
structure TotOrd {K : Type} (le : K → K → Prop) : Prop where
  total : ∀ a b, le a b ∨ le b a
  trans : ∀ {a b c}, le a b → le b c → le a c
  antisymm : ∀ {a b}, le a b → le b a → a = b

theorem TotOrd.refl {K : Type} {le : K → K → Prop} (h : TotOrd le) (a : K) : le a a := by
  rcases h.total a a with h | h <;> exact h

theorem intTotOrd : TotOrd (fun a b : Int => a ≤ b) :=
  ⟨fun a b => by omega, fun h1 h2 => Int.le_trans h1 h2, fun h1 h2 => Int.le_antisymm h1 h2⟩

/-- Lexicographic order of two-column keys, `TwoColMergeRow::cmp`,
/repo/src/storage/src/parquet/mod.rs 184-192. -/
def lexLe (a b : Int × Int) : Prop := a.1 < b.1 ∨ (a.1 = b.1 ∧ a.2 ≤ b.2)

instance (a b : Int × Int) : Decidable (lexLe a b) := by unfold lexLe; exact inferInstance

theorem lexTotOrd : TotOrd lexLe :=
  ⟨fun a b => by unfold lexLe; omega, fun {a b c} h1 h2 => by unfold lexLe at *; omega,
   fun {a b} h1 h2 => by
    unfold lexLe at *
    have : a.1 = b.1 ∧ a.2 = b.2 := by omega
    exact Prod.ext this.1 this.2⟩

/-- Sorted by key. -/
def SortedBy {R K : Type} (le : K → K → Prop) (key : R → K) (l : List R) : Prop :=
  l.Pairwise fun a b => le (key a) (key b)

/-- Entries pushed on the merge heap: (stream, key) for every row, 50-56 / 86-94. -/
def pushed {K : Type} (blocks : List (List K)) : List (Nat × K) :=
  blocks.zipIdx.flatMap fun p => p.1.map fun k => (p.2, k)

/-- `pops` is a possible pop sequence of a heap holding `entries`. -/
structure IsDrain {K : Type} (le : K → K → Prop) (entries pops : List (Nat × K)) : Prop where
  perm : pops.Perm entries
  sorted : SortedBy le Prod.snd pops

/-- The reorder vector without replacement: stream ids in pop order, 58-60 / 95-109 with
`is_replacing = false`. -/
def reorderPlain {K : Type} (pops : List (Nat × K)) : List (Option Nat) :=
  pops.map fun p => some p.1

/-- The reorder vector of `merge_two_primitives` with `is_replacing`, 95-109: an entry is replaced
by `-1` (`none`) when the next entry on the heap has the same *first* key column. -/
def reorderReplacing : List (Nat × (Int × Int)) → List (Option Nat)
  | [] => []
  | [p] => [some p.1]
  | p :: q :: rest =>
    (if p.2.1 = q.2.1 then none else some p.1) :: reorderReplacing (q :: rest)

/-- The copy loop of `merge_queue` for one column, 360-371: `-1` is skipped without moving any
cursor; otherwise the value under the stream's cursor is copied and the cursor advances.
`none` = out-of-bounds panic. -/
def gather {α : Type} (arrs : List (List α)) : (Nat → Nat) → List (Option Nat) → Option (List α)
  | _, [] => some []
  | cur, none :: ro => gather arrs cur ro
  | cur, some s :: ro =>
    match arrs[s]? with
    | none => none
    | some arr =>
      match arr[cur s]? with
      | none => none
      | some v =>
        match gather arrs (fun i => if i = s then cur s + 1 else cur i) ro with
        | none => none
        | some vs => some (v :: vs)

/-- Cutting the merged arrays by `array_size`, 377-386, when nothing was replaced
(then `reorder.len()` is the array length). -/
def slicesGo {α : Type} (size : Nat) : Nat → List α → List (List α)
  | 0, _ => []
  | n + 1, l => if l.isEmpty || size == 0 then [] else l.take size :: slicesGo size n (l.drop size)

def slices {α : Type} (size : Nat) (l : List α) : List (List α) := slicesGo size l.length l

/-! ### `gather` on remaining suffixes -/

/-- Same loop, consuming heads instead of moving cursors. -/
def gatherRem {α : Type} : List (List α) → List (Option Nat) → Option (List α)
  | _, [] => some []
  | rem, none :: ro => gatherRem rem ro
  | rem, some s :: ro =>
    match rem[s]? with
    | some (v :: t) =>
      match gatherRem (rem.set s t) ro with
      | none => none
      | some vs => some (v :: vs)
    | _ => none

/-- The suffixes the cursors point at. -/
def suffixes {α : Type} (arrs : List (List α)) (cur : Nat → Nat) : List (List α) :=
  arrs.mapIdx fun i a => a.drop (cur i)

theorem suffixes_zero {α : Type} (arrs : List (List α)) : suffixes arrs (fun _ => 0) = arrs := by
  apply List.ext_getElem?
  intro i
  simp [suffixes, List.getElem?_mapIdx]

theorem gather_eq_gatherRem {α : Type} (arrs : List (List α)) (cur : Nat → Nat)
    (ro : List (Option Nat)) : gather arrs cur ro = gatherRem (suffixes arrs cur) ro := by
  induction ro generalizing cur with
  | nil => rfl
  | cons o ro ih =>
    cases o with
    | none => simpa [gather, gatherRem] using ih cur
    | some s =>
      simp only [gather, gatherRem]
      have hget : (suffixes arrs cur)[s]? = (arrs[s]?).map (fun a => a.drop (cur s)) := by
        simp [suffixes, List.getElem?_mapIdx]
      rw [hget]
      cases ha : arrs[s]? with
      | none => rfl
      | some arr =>
        simp only [Option.map_some]
        cases hv : arr[cur s]? with
        | none =>
          have : arr.drop (cur s) = [] := by
            apply List.drop_eq_nil_of_le
            exact List.getElem?_eq_none_iff.mp hv
          rw [this]
        | some v =>
          obtain ⟨hlt, hval⟩ := List.getElem?_eq_some_iff.mp hv
          have hd : arr.drop (cur s) = v :: arr.drop (cur s + 1) := by
            rw [List.drop_eq_getElem_cons hlt, hval]
          rw [hd]
          have hset : suffixes arrs (fun i => if i = s then cur s + 1 else cur i) =
              (suffixes arrs cur).set s (arr.drop (cur s + 1)) := by
            apply List.ext_getElem?
            intro i
            by_cases hi : i = s
            · subst hi
              have hl : i < arrs.length := (List.getElem?_eq_some_iff.mp ha).1
              rw [List.getElem?_set_self (by simpa [suffixes] using hl)]
              simp [suffixes, List.getElem?_mapIdx, ha]
            · rw [List.getElem?_set_ne (Ne.symm hi)]
              simp [suffixes, List.getElem?_mapIdx, hi]
          simp only [ih, hset]

theorem gatherRem_map {α β : Type} (f : α → β) (rem : List (List α)) (ro : List (Option Nat)) :
    gatherRem (rem.map (List.map f)) ro = (gatherRem rem ro).map (List.map f) := by
  induction ro generalizing rem with
  | nil => rfl
  | cons o ro ih =>
    cases o with
    | none => simpa [gatherRem] using ih rem
    | some s =>
      simp only [gatherRem, List.getElem?_map]
      cases h : rem[s]? with
      | none => rfl
      | some l =>
        cases l with
        | nil => rfl
        | cons v t =>
          simp only [Option.map_some, List.map_cons]
          rw [← List.map_set, ih]
          cases gatherRem (rem.set s t) ro <;> rfl

/-- Every column is gathered with the same source positions: gathering a derived column is
deriving the gathered one. -/
theorem gather_map {α β : Type} (f : α → β) (arrs : List (List α)) (ro : List (Option Nat)) :
    gather (arrs.map (List.map f)) (fun _ => 0) ro =
      (gather arrs (fun _ => 0) ro).map (List.map f) := by
  rw [gather_eq_gatherRem, gather_eq_gatherRem, suffixes_zero, suffixes_zero, gatherRem_map]

/-! ### the pushed entries -/

theorem mem_pushed {K : Type} {blocks : List (List K)} {p : Nat × K} :
    p ∈ pushed blocks ↔ ∃ b, blocks[p.1]? = some b ∧ p.2 ∈ b := by
  obtain ⟨s, k⟩ := p
  simp only [pushed, List.mem_flatMap, List.mem_map, Prod.exists, Prod.mk.injEq]
  constructor
  · rintro ⟨b, i, hb, k', hk', rfl, rfl⟩
    rw [List.mem_zipIdx_iff_getElem?] at hb
    exact ⟨b, hb, hk'⟩
  · rintro ⟨b, hb, hk⟩
    exact ⟨b, s, by rw [List.mem_zipIdx_iff_getElem?]; exact hb, k, hk, rfl, rfl⟩

theorem flatten_set_perm {α : Type} (rem : List (List α)) (s : Nat) (v : α) (t : List α)
    (h : rem[s]? = some (v :: t)) : rem.flatten.Perm (v :: (rem.set s t).flatten) := by
  induction rem generalizing s with
  | nil => simp at h
  | cons b rem ih =>
    cases s with
    | zero => simp at h; subst h; simp
    | succ s =>
      simp only [List.getElem?_cons_succ] at h
      simp only [List.flatten_cons, List.set_cons_succ]
      exact ((ih s h).append_left b).trans List.perm_middle

theorem pushed_aux_set_perm {K : Type} (rem : List (List K)) (n s : Nat) (k : K) (t : List K)
    (h : rem[s]? = some (k :: t)) :
    ((rem.zipIdx n).flatMap fun p => p.1.map fun k => (p.2, k)).Perm
      ((n + s, k) :: (((rem.set s t).zipIdx n).flatMap fun p => p.1.map fun k => (p.2, k))) := by
  induction rem generalizing s n with
  | nil => simp at h
  | cons b rem ih =>
    cases s with
    | zero => simp at h; subst h; simp
    | succ s =>
      simp only [List.getElem?_cons_succ] at h
      simp only [List.zipIdx_cons, List.flatMap_cons, List.set_cons_succ]
      have := ih (n + 1) s h
      have e : n + 1 + s = n + (s + 1) := by omega
      rw [e] at this
      exact (this.append_left _).trans List.perm_middle

theorem pushed_set_perm {K : Type} (rem : List (List K)) (s : Nat) (k : K) (t : List K)
    (h : rem[s]? = some (k :: t)) : (pushed rem).Perm ((s, k) :: pushed (rem.set s t)) := by
  have := pushed_aux_set_perm rem 0 s k t h
  simpa [pushed] using this

/-! ### merging without replacement is a sorted permutation -/

theorem gatherRem_plain {R K : Type} {le : K → K → Prop} (ho : TotOrd le) (key : R → K)
    (pops : List (Nat × K)) (rem : List (List R))
    (hs : ∀ b ∈ rem, SortedBy le key b)
    (hd : IsDrain le (pushed (rem.map (List.map key))) pops) :
    ∃ out, gatherRem rem (reorderPlain pops) = some out ∧ out.Perm rem.flatten ∧
      SortedBy le key out := by
  induction pops generalizing rem with
  | nil =>
    refine ⟨[], rfl, ?_, List.Pairwise.nil⟩
    have hp := hd.perm
    have hnil : pushed (rem.map (List.map key)) = [] := List.nil_perm.mp hp
    have : rem.flatten = [] := by
      rw [List.eq_nil_iff_forall_not_mem]
      intro r hr
      simp only [List.mem_flatten] at hr
      obtain ⟨b, hb, hrb⟩ := hr
      obtain ⟨s, hs'⟩ := List.getElem?_of_mem hb
      have : (s, key r) ∈ pushed (rem.map (List.map key)) := by
        rw [mem_pushed]
        exact ⟨b.map key, by simp [hs'], List.mem_map_of_mem hrb⟩
      rw [hnil] at this; cases this
    rw [this]
  | cons p pops ih =>
    obtain ⟨s, k⟩ := p
    have hmem : (s, k) ∈ pushed (rem.map (List.map key)) := hd.perm.mem_iff.mp (by simp)
    rw [mem_pushed] at hmem
    obtain ⟨kb, hkb, hk⟩ := hmem
    simp only [List.getElem?_map, Option.map_eq_some_iff] at hkb
    obtain ⟨b, hb, rfl⟩ := hkb
    have hbm : b ∈ rem := List.mem_of_getElem? hb
    have hmin : ∀ q ∈ pushed (rem.map (List.map key)), le k q.2 := by
      intro q hq
      have hq' := hd.perm.mem_iff.mpr hq
      rcases List.mem_cons.mp hq' with rfl | hq'
      · exact ho.refl _
      · exact (List.pairwise_cons.mp hd.sorted).1 q hq'
    cases b with
    | nil => simp at hk
    | cons v t =>
      have hsb := hs _ hbm
      -- the head of the chosen block has exactly the popped key
      have hvk : key v = k := by
        apply ho.antisymm
        · simp only [List.map_cons, List.mem_cons, List.mem_map] at hk
          rcases hk with rfl | ⟨r, hr, rfl⟩
          · exact ho.refl _
          · exact (List.pairwise_cons.mp hsb).1 r hr
        · exact hmin (s, key v) (by
            rw [mem_pushed]
            exact ⟨(v :: t).map key, by simp [hb], by simp⟩)
      have hrem' : ∀ b ∈ rem.set s t, SortedBy le key b := by
        intro b' hb'
        rcases List.mem_or_eq_of_mem_set hb' with h | rfl
        · exact hs b' h
        · exact (List.pairwise_cons.mp hsb).2
      have hset : (rem.set s t).map (List.map key) = (rem.map (List.map key)).set s (t.map key) := by
        rw [List.map_set]
      have hd' : IsDrain le (pushed ((rem.set s t).map (List.map key))) pops := by
        refine ⟨?_, (List.pairwise_cons.mp hd.sorted).2⟩
        have hp := pushed_set_perm (rem.map (List.map key)) s k (t.map key) (by
          simp [hb, hvk])
        rw [hset]
        exact List.Perm.cons_inv (hd.perm.trans hp)
      obtain ⟨out, h1, h2, h3⟩ := ih (rem.set s t) hrem' hd'
      refine ⟨v :: out, ?_, ?_, ?_⟩
      · have h1' : gatherRem (rem.set s t) (List.map (fun p => some p.1) pops) = some out := h1
        simp only [reorderPlain, List.map_cons, gatherRem, hb, h1']
      · exact (h2.cons v).trans (flatten_set_perm rem s v t hb).symm
      · refine List.pairwise_cons.mpr ⟨?_, h3⟩
        intro r hr
        have hr' := h2.mem_iff.mp hr
        have hr'' : r ∈ rem.flatten := (flatten_set_perm rem s v t hb).mem_iff.mpr (by simp [hr'])
        simp only [List.mem_flatten] at hr''
        obtain ⟨b', hb', hrb'⟩ := hr''
        obtain ⟨s', hs'⟩ := List.getElem?_of_mem hb'
        rw [hvk]
        exact hmin (s', key r) (by
          rw [mem_pushed]
          exact ⟨b'.map key, by simp [hs'], List.mem_map_of_mem hrb'⟩)

/-- Row-level merge of several blocks without replacement. -/
theorem gather_plain {R K : Type} {le : K → K → Prop} (ho : TotOrd le) (key : R → K)
    (pops : List (Nat × K)) (blocks : List (List R))
    (hs : ∀ b ∈ blocks, SortedBy le key b)
    (hd : IsDrain le (pushed (blocks.map (List.map key))) pops) :
    ∃ out, gather blocks (fun _ => 0) (reorderPlain pops) = some out ∧ out.Perm blocks.flatten ∧
      SortedBy le key out := by
  rw [gather_eq_gatherRem, suffixes_zero]
  exact gatherRem_plain ho key pops blocks hs hd

/-- Without the sortedness hypothesis the rows are still a permutation (used for projections that
do not start with the key columns). -/
theorem gatherRem_plain_perm {R K : Type} (pops : List (Nat × K)) (rem : List (List R))
    (hc : ∀ s, (pops.filter (fun p => p.1 == s)).length = (rem[s]?.getD []).length) :
    ∃ out, gatherRem rem (reorderPlain pops) = some out ∧ out.Perm rem.flatten := by
  induction pops generalizing rem with
  | nil =>
    refine ⟨[], rfl, ?_⟩
    have : rem.flatten = [] := by
      rw [List.eq_nil_iff_forall_not_mem]
      intro r hr
      simp only [List.mem_flatten] at hr
      obtain ⟨b, hb, hrb⟩ := hr
      obtain ⟨s, hs'⟩ := List.getElem?_of_mem hb
      have := hc s
      simp [hs'] at this
      rw [List.eq_nil_of_length_eq_zero this.symm] at hrb
      cases hrb
    rw [this]
  | cons p pops ih =>
    obtain ⟨s, k⟩ := p
    have h0 := hc s
    simp only [List.filter_cons, beq_self_eq_true, if_true, List.length_cons] at h0
    cases hb : rem[s]? with
    | none => simp [hb] at h0
    | some b =>
      cases b with
      | nil => simp [hb] at h0
      | cons v t =>
        have hlt := (List.getElem?_eq_some_iff.mp hb).1
        obtain ⟨out, h1, h2⟩ := ih (rem.set s t) (by
          intro s'
          by_cases he : s' = s
          · subst he
            rw [List.getElem?_set_self hlt]
            simp [hb] at h0
            simpa using h0
          · rw [List.getElem?_set_ne (Ne.symm he)]
            have := hc s'
            simpa [List.filter_cons, Ne.symm he] using this)
        have h1' : gatherRem (rem.set s t) (List.map (fun p => some p.1) pops) = some out := h1
        exact ⟨v :: out, by simp only [reorderPlain, List.map_cons, gatherRem, hb, h1'],
          (h2.cons v).trans (flatten_set_perm rem s v t hb).symm⟩

theorem slicesGo_flatten {α : Type} (size : Nat) (hsz : 1 ≤ size) (n : Nat) (l : List α)
    (h : l.length ≤ n) : (slicesGo size n l).flatten = l := by
  induction n generalizing l with
  | zero => simp [slicesGo]; exact (List.eq_nil_of_length_eq_zero (by omega))
  | succ n ih =>
    unfold slicesGo
    cases l with
    | nil => simp
    | cons a l =>
      have h0 : (size == 0) = false := by simp; omega
      simp only [List.isEmpty_cons, h0, Bool.or_self, Bool.false_eq_true, if_false,
        List.flatten_cons]
      rw [ih _ (by simp only [List.length_drop, List.length_cons] at h ⊢; omega)]
      exact List.take_append_drop _ _

theorem slices_flatten {α : Type} (size : Nat) (hsz : 1 ≤ size) (l : List α) :
    (slices size l).flatten = l := slicesGo_flatten size hsz _ l (Nat.le_refl _)

theorem slices_ne_nil {α : Type} (size : Nat) (l : List α) : ∀ b ∈ slices size l, b ≠ [] := by
  unfold slices
  generalize l.length = n
  induction n generalizing l with
  | zero => simp [slicesGo]
  | succ n ih =>
    unfold slicesGo
    cases l with
    | nil => simp
    | cons a l =>
      by_cases h0 : size = 0
      · simp [h0]
      · have h0' : (size == 0) = false := by simpa using h0
        simp only [List.isEmpty_cons, h0', Bool.or_self, Bool.false_eq_true, if_false]
        intro b hb
        rcases List.mem_cons.mp hb with rfl | hb
        · simp [h0]
        · exact ih _ b hb

end OptiPrism.Storage
