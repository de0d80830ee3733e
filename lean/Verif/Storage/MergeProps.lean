import Verif.Storage.Merge

/-!
# C11: merging row blocks keeps whole rows together

A block is a list of columns. The specification knows rows only: `Transposed` relates a column
list to a row list cell by cell.
-/

namespace OptiPrism.Storage

/-- The columns `cols` hold exactly the rows `rows`, each of width `w`. -/
structure Transposed {V : Type} (w : Nat) (cols rows : List (List V)) : Prop where
  width : cols.length = w
  rowWidth : ∀ r ∈ rows, r.length = w
  height : ∀ c ∈ cols, c.length = rows.length
  cell : ∀ i j : Nat, (cols[j]?).bind (fun c => c[i]?) = (rows[i]?).bind (fun r => r[j]?)

/-- Column `j` of every block of the queue, arrow_merger.rs 356-359; `none` = index panic. -/
def columnsAt {V : Type} (queue : List (List (List V))) (j : Nat) : Option (List (List V)) :=
  queue.mapM fun cols => cols[j]?

/-- `merge_queue` before slicing, 346-374, for a given reorder vector. -/
def mergeColumns {V : Type} (queue : List (List (List V))) (ro : List (Option Nat)) :
    Option (List (List V)) :=
  match queue with
  | [] => none
  | q :: _ => (List.range q.length).mapM fun j =>
      match columnsAt queue j with
      | none => none
      | some arrs => gather arrs (fun _ => 0) ro

/-- `merge_chunks` with one key column, 32-63. -/
def mergeQueue1 {V : Type} (i64 : V → Int) (drain : List (Nat × Int) → List (Nat × Int))
    (queue : List (List (List V))) : Option (List (List V)) :=
  match columnsAt queue 0 with
  | none => none
  | some c0 => mergeColumns queue (reorderPlain (drain (pushed (c0.map (List.map i64)))))

/-- `merge_chunks` with two key columns, not replacing, 65-113. -/
def mergeQueue2 {V : Type} (i64 : V → Int)
    (drain : List (Nat × (Int × Int)) → List (Nat × (Int × Int)))
    (queue : List (List (List V))) : Option (List (List V)) :=
  match columnsAt queue 0, columnsAt queue 1 with
  | some c0, some c1 =>
    mergeColumns queue (reorderPlain (drain (pushed
      (List.zipWith (fun a b => List.zip (a.map i64) (b.map i64)) c0 c1))))
  | _, _ => none

/-- Key of a row with one key column. -/
def rowKey1 {V : Type} (i64 : V → Int) (r : List V) : Int := ((r[0]?).map i64).getD 0

/-- Key of a row with two key columns. -/
def rowKey2 {V : Type} (i64 : V → Int) (r : List V) : Int × Int :=
  (((r[0]?).map i64).getD 0, ((r[1]?).map i64).getD 0)

/-! ### helpers -/

theorem Transposed.column {V : Type} {w : Nat} {cols rows : List (List V)}
    (h : Transposed w cols rows) {j : Nat} (hj : j < w) :
    ∃ c, cols[j]? = some c ∧ c.map some = rows.map (fun r => r[j]?) := by
  have hlt : j < cols.length := by rw [h.width]; exact hj
  refine ⟨cols[j], List.getElem?_eq_getElem hlt, ?_⟩
  have hh := h.height cols[j] (List.getElem_mem hlt)
  apply List.ext_getElem?
  intro i
  have hc := h.cell i j
  rw [List.getElem?_eq_getElem hlt] at hc
  simp only [Option.bind_some] at hc
  simp only [List.getElem?_map]
  by_cases hi : i < rows.length
  · rw [List.getElem?_eq_getElem hi] at hc ⊢
    rw [hc]
    simp only [Option.bind_some, Option.map_some]
    have hr := h.rowWidth rows[i] (List.getElem_mem hi)
    rw [List.getElem?_eq_getElem (by omega)]
    rfl
  · rw [List.getElem?_eq_none_iff.mpr (by omega), List.getElem?_eq_none_iff.mpr (by omega)]
    rfl

theorem columnsAt_spec {V : Type} {w : Nat} (queue rowss : List (List (List V)))
    (hlen : queue.length = rowss.length)
    (ht : ∀ (s : Nat) cols rows, queue[s]? = some cols → rowss[s]? = some rows → Transposed w cols rows)
    {j : Nat} (hj : j < w) :
    ∃ arrs, columnsAt queue j = some arrs ∧
      arrs.map (List.map some) = rowss.map (List.map fun r => r[j]?) := by
  induction queue generalizing rowss with
  | nil =>
    cases rowss with
    | nil => exact ⟨[], rfl, rfl⟩
    | cons _ _ => simp at hlen
  | cons q queue ih =>
    cases rowss with
    | nil => simp at hlen
    | cons rows rowss =>
      obtain ⟨c, hc, hce⟩ := (ht 0 q rows rfl rfl).column hj
      obtain ⟨arrs, ha, hae⟩ := ih rowss (by simpa using hlen)
        (fun s cols rows h1 h2 => ht (s + 1) cols rows (by simpa using h1) (by simpa using h2))
      refine ⟨c :: arrs, ?_, by simp [hce, hae]⟩
      unfold columnsAt at ha ⊢
      rw [List.mapM_cons, hc, ha]
      rfl

theorem map_some_inj {α : Type} {a b : List α} (h : a.map some = b.map some) : a = b := by
  have := congrArg (fun l => l.filterMap id) h
  simpa [List.filterMap_map] using this

theorem mapM_range_some {β : Type} (f : Nat → Option β) (n : Nat)
    (h : ∀ j, j < n → ∃ b, f j = some b) :
    ∃ bs, (List.range n).mapM f = some bs ∧ bs.length = n ∧
      ∀ j, j < n → bs[j]? = f j := by
  induction n with
  | zero => exact ⟨[], rfl, rfl, by simp⟩
  | succ n ih =>
    obtain ⟨bs, h1, h2, h3⟩ := ih (fun j hj => h j (by omega))
    obtain ⟨b, hb⟩ := h n (by omega)
    refine ⟨bs ++ [b], ?_, by simp [h2], ?_⟩
    · rw [List.range_succ, List.mapM_append, h1]
      simp [List.mapM_cons, hb]
    · intro j hj
      by_cases e : j < n
      · rw [List.getElem?_append_left (by omega)]; exact h3 j e
      · have : j = n := by omega
        subst this
        rw [List.getElem?_append_right (by omega), h2, hb]
        simp

/-- Gathering column by column gives the columns of the gathered rows. -/
theorem mergeColumns_spec {V : Type} {w : Nat} (queue rowss : List (List (List V)))
    (hne : queue ≠ []) (hlen : queue.length = rowss.length)
    (ht : ∀ (s : Nat) cols rows, queue[s]? = some cols → rowss[s]? = some rows → Transposed w cols rows)
    (ro : List (Option Nat)) (out : List (List V)) (hg : gather rowss (fun _ => 0) ro = some out)
    (hout : ∀ r ∈ out, r.length = w) :
    ∃ cols, mergeColumns queue ro = some cols ∧ Transposed w cols out := by
  have hcol : ∀ j, j < w → ∃ c, (match columnsAt queue j with
      | none => none
      | some arrs => gather arrs (fun _ => 0) ro) = some c ∧ c.map some = out.map (fun r => r[j]?) := by
    intro j hj
    obtain ⟨arrs, ha, hae⟩ := columnsAt_spec queue rowss hlen ht hj
    have h1 := gather_map (fun r : List V => r[j]?) rowss ro
    have h2 := gather_map (some : V → Option V) arrs ro
    rw [hae, h1, hg] at h2
    rw [ha]
    simp only
    cases hgc : gather arrs (fun _ => 0) ro with
    | none => rw [hgc] at h2; simp at h2
    | some c =>
      rw [hgc] at h2
      simp only [Option.map_some, Option.some.injEq] at h2
      exact ⟨c, rfl, h2.symm⟩
  cases queue with
  | nil => exact absurd rfl hne
  | cons q qs =>
    cases rowss with
    | nil => simp at hlen
    | cons rows rowss =>
      have hq := ht 0 q rows rfl rfl
      unfold mergeColumns
      dsimp only
      rw [hq.width]
      obtain ⟨cols, h1, h2, h3⟩ := mapM_range_some (fun j => match columnsAt (q :: qs) j with
        | none => none
        | some arrs => gather arrs (fun _ => 0) ro) w
        (fun j hj => by obtain ⟨c, hc, _⟩ := hcol j hj; exact ⟨c, hc⟩)
      refine ⟨cols, h1, h2, hout, ?_, ?_⟩
      · intro c hc
        obtain ⟨j, hjl, rfl⟩ := List.getElem_of_mem hc
        obtain ⟨c', hc', he⟩ := hcol j (by omega)
        have := h3 j (by omega)
        rw [List.getElem?_eq_getElem hjl, hc'] at this
        injection this with this
        rw [this]
        have := congrArg List.length he
        simpa using this
      · intro i j
        by_cases hj : j < w
        · obtain ⟨c', hc', he⟩ := hcol j hj
          rw [h3 j hj, hc']
          simp only [Option.bind_some]
          have := congrArg (fun l => l[i]?) he
          simp only [List.getElem?_map] at this
          cases hoi : out[i]? with
          | none =>
            rw [hoi] at this
            simp only [Option.map_none, Option.map_eq_none_iff] at this
            rw [this]; rfl
          | some r =>
            rw [hoi] at this
            simp only [Option.map_some] at this
            simp only [Option.bind_some]
            cases hci : c'[i]? with
            | none => rw [hci] at this; simp at this
            | some v => rw [hci] at this; simp at this; exact this
        · rw [List.getElem?_eq_none_iff.mpr (by omega)]
          cases hoi : out[i]? with
          | none => rfl
          | some r =>
            have := hout r (List.mem_of_getElem? hoi)
            simp only [Option.bind_none, Option.bind_some]
            rw [List.getElem?_eq_none_iff.mpr (by omega)]

theorem key1_cols {V : Type} (i64 : V → Int) (arrs : List (List V)) (rowss : List (List (List V)))
    (h : arrs.map (List.map some) = rowss.map (List.map fun r => r[0]?)) :
    arrs.map (List.map i64) = rowss.map (List.map (rowKey1 i64)) := by
  have := congrArg (List.map (List.map fun o : Option V => (o.map i64).getD 0)) h
  simp only [List.map_map, Function.comp_def, Option.map_some, Option.getD_some] at this
  exact this

theorem zip_keys {V : Type} (i64 : V → Int) (a0 a1 : List (List V)) (rowss : List (List (List V)))
    (h0 : a0.map (List.map some) = rowss.map (List.map fun r => r[0]?))
    (h1 : a1.map (List.map some) = rowss.map (List.map fun r => r[1]?)) :
    List.zipWith (fun a b => List.zip (a.map i64) (b.map i64)) a0 a1 =
      rowss.map (List.map (rowKey2 i64)) := by
  induction rowss generalizing a0 a1 with
  | nil =>
    have : a0 = [] := by simpa using h0
    simp [this]
  | cons rows rowss ih =>
    cases a0 with
    | nil => simp at h0
    | cons x0 a0 =>
      cases a1 with
      | nil => simp at h1
      | cons x1 a1 =>
        simp only [List.map_cons, List.cons.injEq] at h0 h1
        simp only [List.zipWith_cons_cons, List.map_cons, List.cons.injEq]
        refine ⟨?_, ih a0 a1 h0.2 h1.2⟩
        have e0 := congrArg (List.map fun o : Option V => (o.map i64).getD 0) h0.1
        have e1 := congrArg (List.map fun o : Option V => (o.map i64).getD 0) h1.1
        simp only [List.map_map, Function.comp_def, Option.map_some, Option.getD_some] at e0 e1
        have e0' : x0.map i64 = rows.map fun r => ((r[0]?).map i64).getD 0 := e0
        have e1' : x1.map i64 = rows.map fun r => ((r[1]?).map i64).getD 0 := e1
        rw [e0', e1', List.zip_map', ]
        rfl

/-! ### the property -/

/-- C11, one key column: for any blocks sorted by key and any heap, merging succeeds, and the
merged columns hold exactly the input rows, whole, in key order. -/
theorem C11_merge_one_key {V : Type} (i64 : V → Int) {w : Nat} (hw : 1 ≤ w)
    (drain : List (Nat × Int) → List (Nat × Int))
    (hd : ∀ es, IsDrain (fun a b => a ≤ b) es (drain es))
    (queue rowss : List (List (List V))) (hne : queue ≠ []) (hlen : queue.length = rowss.length)
    (ht : ∀ (s : Nat) cols rows, queue[s]? = some cols → rowss[s]? = some rows → Transposed w cols rows)
    (hs : ∀ rows ∈ rowss, SortedBy (fun a b => a ≤ b) (rowKey1 i64) rows) :
    ∃ cols out, mergeQueue1 i64 drain queue = some cols ∧ Transposed w cols out ∧
      out.Perm rowss.flatten ∧ SortedBy (fun a b => a ≤ b) (rowKey1 i64) out := by
  obtain ⟨arrs, ha, hae⟩ := columnsAt_spec queue rowss hlen ht (j := 0) (by omega)
  have hk := key1_cols i64 arrs rowss hae
  obtain ⟨out, o1, o2, o3⟩ := gather_plain intTotOrd (rowKey1 i64) _ rowss hs
    (hd (pushed (rowss.map (List.map (rowKey1 i64)))))
  have hw' : ∀ r ∈ out, r.length = w := by
    intro r hr
    obtain ⟨rows, hrows, hr'⟩ := List.mem_flatten.mp (o2.mem_iff.mp hr)
    obtain ⟨s, hs'⟩ := List.getElem?_of_mem hrows
    have hsl := (List.getElem?_eq_some_iff.mp hs').1
    exact (ht s queue[s] rows (List.getElem?_eq_getElem (by omega)) hs').rowWidth r hr'
  obtain ⟨cols, c1, c2⟩ := mergeColumns_spec queue rowss hne hlen ht _ out o1 hw'
  refine ⟨cols, out, ?_, c2, o2, o3⟩
  unfold mergeQueue1
  rw [ha]
  simp only
  rw [hk]
  exact c1

/-- C11, two key columns. -/
theorem C11_merge_two_keys {V : Type} (i64 : V → Int) {w : Nat} (hw : 2 ≤ w)
    (drain : List (Nat × (Int × Int)) → List (Nat × (Int × Int)))
    (hd : ∀ es, IsDrain lexLe es (drain es))
    (queue rowss : List (List (List V))) (hne : queue ≠ []) (hlen : queue.length = rowss.length)
    (ht : ∀ (s : Nat) cols rows, queue[s]? = some cols → rowss[s]? = some rows → Transposed w cols rows)
    (hs : ∀ rows ∈ rowss, SortedBy lexLe (rowKey2 i64) rows) :
    ∃ cols out, mergeQueue2 i64 drain queue = some cols ∧ Transposed w cols out ∧
      out.Perm rowss.flatten ∧ SortedBy lexLe (rowKey2 i64) out := by
  obtain ⟨a0, ha0, hae0⟩ := columnsAt_spec queue rowss hlen ht (j := 0) (by omega)
  obtain ⟨a1, ha1, hae1⟩ := columnsAt_spec queue rowss hlen ht (j := 1) (by omega)
  have hk := zip_keys i64 a0 a1 rowss hae0 hae1
  obtain ⟨out, o1, o2, o3⟩ := gather_plain lexTotOrd (rowKey2 i64) _ rowss hs
    (hd (pushed (rowss.map (List.map (rowKey2 i64)))))
  have hw' : ∀ r ∈ out, r.length = w := by
    intro r hr
    obtain ⟨rows, hrows, hr'⟩ := List.mem_flatten.mp (o2.mem_iff.mp hr)
    obtain ⟨s, hs'⟩ := List.getElem?_of_mem hrows
    have hsl := (List.getElem?_eq_some_iff.mp hs').1
    exact (ht s queue[s] rows (List.getElem?_eq_getElem (by omega)) hs').rowWidth r hr'
  obtain ⟨cols, c1, c2⟩ := mergeColumns_spec queue rowss hne hlen ht _ out o1 hw'
  refine ⟨cols, out, ?_, c2, o2, o3⟩
  unfold mergeQueue2
  rw [ha0, ha1]
  simp only
  rw [hk]
  exact c1

/-- Sorting is a drain, so the heap hypothesis can be met. -/
def sortDrain (es : List (Nat × (Int × Int))) : List (Nat × (Int × Int)) :=
  isort (fun a b => decide (lexLe a.2 b.2)) es

theorem sortDrain_isDrain (es : List (Nat × (Int × Int))) : IsDrain lexLe es (sortDrain es) := by
  refine ⟨isort_perm _ _, ?_⟩
  have := isort_sorted (fun a b : Nat × (Int × Int) => decide (lexLe a.2 b.2))
    (fun a b => by simpa using lexTotOrd.total a.2 b.2)
    (fun a b c h1 h2 => by simp only [decide_eq_true_eq] at *; exact lexTotOrd.trans h1 h2) es
  exact this.imp (by intro a b h; simpa using h)

/-- Two overlapping blocks of width 3 with equal keys across them. -/
example : mergeQueue2 (V := Int) id sortDrain
    [[[1, 1, 2], [1, 5, 0], [10, 11, 12]], [[1, 1], [1, 3], [20, 21]]] =
    some [[1, 1, 1, 1, 2], [1, 1, 3, 5, 0], [10, 20, 21, 11, 12]] := by decide +kernel

example : Transposed (V := Int) 3 [[1, 1, 2], [1, 5, 0], [10, 11, 12]]
    [[1, 1, 10], [1, 5, 11], [2, 0, 12]] ∧
    SortedBy lexLe (rowKey2 id) [[1, 1, 10], [1, 5, 11], [2, 0, 12]] := by
  refine ⟨⟨rfl, by decide, by decide, ?_⟩, ?_⟩
  · intro i j
    match i, j with
    | 0, 0 | 0, 1 | 0, 2 | 1, 0 | 1, 1 | 1, 2 | 2, 0 | 2, 1 | 2, 2 => rfl
    | 0, _ + 3 | 1, _ + 3 | 2, _ + 3 => rfl
    | i + 3, 0 | i + 3, 1 | i + 3, 2 => rfl
    | i + 3, j + 3 => rfl
  · unfold SortedBy
    simp [rowKey2, lexLe]

end OptiPrism.Storage
