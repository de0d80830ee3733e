import Verif.Storage.Scan

/-!
# Blocks made from the memtable, and tables as histories of inserts and flushes

Model of `Memtable::chunk` (/repo/src/storage/src/memtable.rs 122-204) on rows (cells: C05, C08),
of the parts a table accumulates by `flush` (/repo/src/storage/src/db.rs 444-495, 1188-1207), and of
a scan of such a table, replacing or not.

`lexsort_to_indices` is not stable and arbitrary in its ties: `sort` is any function returning a
sorted permutation.
-/

namespace OptiPrism.Storage

variable {R K : Type}

/-- What `lexsort_to_indices` + `take` guarantee, 146-160. -/
structure IsSort (le : K → K → Prop) (key : R → K) (sort : List R → List R) : Prop where
  perm : ∀ l, (sort l).Perm l
  sorted : ∀ l, SortedBy le key (sort l)

/-- The loop over row ids collecting the last row of every run of equal keys, 176-187;
`row_id as i64 - 1` is never negative because the first iteration `continue`s. -/
def dedupLoop [DecidableEq K] : Option K → Nat → List K → List Nat
  | _, _, [] => []
  | none, n, k :: ks => dedupLoop (some k) (n + 1) ks
  | some l, n, k :: ks =>
    if some l ≠ some k then (n - 1) :: dedupLoop (some k) (n + 1) ks
    else dedupLoop (some l) (n + 1) ks

/-- `indices` of the replacing branch, 164-188; for a number of key columns other than two the
array stays empty. -/
def dedupIdx [DecidableEq K] (indexCols : Nat) (keys : List K) : List Nat :=
  if indexCols = 2 then dedupLoop none 0 keys ++ [keys.length - 1] else []

/-- `Memtable::chunk`, 122-204: `some none` when empty, `none` = panic in `take`. -/
def memChunk [DecidableEq K] (key : R → K) (sort : List R → List R) (indexCols : Nat)
    (replacing : Bool) (rows : List R) : Option (Option (List R)) :=
  if rows.length = 0 then some none
  else
    let sorted := sort rows
    if replacing then
      ((dedupIdx indexCols (sorted.map key)).mapM fun i => sorted[i]?).map some
    else some (some sorted)

/-- A table: rows in memory in insertion order, parts written so far (as row blocks). -/
structure ATbl (R : Type) where
  mem : List R
  parts : List (List R)

inductive SOp (R : Type) where
  | insert (r : R)
  | flush

/-- One operation; `mk` is `memChunk` with the table's options. `none` = panic. -/
def ATbl.step (mk : List R → Option (Option (List R))) (t : ATbl R) : SOp R → Option (ATbl R)
  | .insert r => some ⟨t.mem ++ [r], t.parts⟩
  | .flush =>
    if t.mem.length = 0 then some t
    else
      match mk t.mem with
      | some (some b) => some ⟨[], t.parts ++ [b]⟩
      | _ => none

def ATbl.run (mk : List R → Option (Option (List R))) (t : ATbl R) : List (SOp R) → Option (ATbl R)
  | [] => some t
  | op :: ops =>
    match t.step mk op with
    | none => none
    | some t' => t'.run mk ops

/-- Rows given to `insert`, in order: what the user put in. -/
def inserted : List (SOp R) → List R
  | [] => []
  | .insert r :: ops => r :: inserted ops
  | .flush :: ops => inserted ops

/-- Reading a part file in pieces of `chunk_size` rows. -/
structure IsCut (cut : List R → List (List R)) : Prop where
  flatten : ∀ l, (cut l).flatten = l
  nonempty : ∀ l, ∀ c ∈ cut l, c ≠ []

/-- Scan of an append-only table. -/
def ATbl.scan [DecidableEq K] (le : K → K → Prop) [DecidableRel le] (key : R → K)
    (sort : List R → List R)
    (cut : List R → List (List R)) (pick : List (SChunk R) → Option (SChunk R × List (SChunk R)))
    (drain : List (Nat × K) → List (Nat × K)) (size indexCols : Nat) (t : ATbl R) :
    Option (List (List R)) :=
  match memChunk key sort indexCols false t.mem with
  | none => none
  | some m => Storage.scan le key pick drain size (t.parts.map cut) m

/-! ### scan of a replacing table -/

/-- `check_intersection` with `is_replacing` and two key columns, arrow_merger.rs 156-183: only the
first key column is compared (the running comparison of a full vector with a truncated one
`[a, b] <= [m]` is `a < m`, `[a, b] >= [m]` is `a >= m`). -/
def rangeMinR : Int → List (Int × Int) → Int
  | m, [] => m
  | m, k :: ks => rangeMinR (if k.1 < m then k.1 else m) ks

def rangeMaxR : Int → List (Int × Int) → Int
  | m, [] => m
  | m, k :: ks => rangeMaxR (if m ≤ k.1 then k.1 else m) ks

def intersectsR (key : R → Int × Int) (queue : List (SChunk R)) (other : SChunk R) : Option Bool :=
  match queue.mapM (SChunk.min? key), queue.mapM (SChunk.max? key), other.min? key, other.max? key with
  | some (m :: ms), some (x :: xs), some omin, some omax =>
    some (decide (rangeMinR m.1 ms ≤ omax.1) && decide (omin.1 ≤ rangeMaxR x.1 xs))
  | _, _, _, _ => none

/-- Slicing of `merge_queue`, 377-386: the loop runs over the reorder vector's length `n`, the
arrays may be shorter; `sliced` panics beyond the end (`none`). -/
def slicesR {α : Type} (size : Nat) (out : List α) : Nat → List Nat → Option (List (List α))
  | _, [] => some []
  | len, i :: is =>
    let l := min size len
    if i + l ≤ out.length then
      (slicesR size out (len - l) is).map fun rest => ((out.drop i).take l) :: rest
    else none

/-- `(0..n).step_by(size)`; `none` = panic for size 0. -/
def stepBy (n size : Nat) : Option (List Nat) :=
  if size = 0 then none else some ((List.range ((n + size - 1) / size)).map (· * size))

/-- `merge_queue` with `is_replacing`, two key columns. -/
def mergeReplacing (key : R → Int × Int)
    (drain : List (Nat × (Int × Int)) → List (Nat × (Int × Int))) (size : Nat)
    (blocks : List (List R)) : Option (List (List R)) :=
  let ro := reorderReplacing (drain (pushed (blocks.map (List.map key))))
  match gather blocks (fun _ => 0) ro, stepBy ro.length size with
  | some out, some is => slicesR size out out.length is
  | _, _ => none

/-- Scan of a replacing table with two key columns. -/
def ATbl.scanR (key : R → Int × Int) (sort : List R → List R) (cut : List R → List (List R))
    (pick : List (SChunk R) → Option (SChunk R × List (SChunk R)))
    (drain : List (Nat × (Int × Int)) → List (Nat × (Int × Int))) (size : Nat) (t : ATbl R) :
    Option (List (List R)) :=
  match memChunk key sort 2 true t.mem with
  | none => none
  | some m => scanWith (intersectsR key) (mergeReplacing key drain size) pick (t.parts.map cut) m

/-! ### `memChunk`, replacing -/

/-- Last row of every run of equal keys. -/
def lastOfRuns [DecidableEq K] (key : R → K) : List R → List R
  | [] => []
  | [a] => [a]
  | a :: b :: t => if key a = key b then lastOfRuns key (b :: t) else a :: lastOfRuns key (b :: t)

theorem dedup_spec_aux [DecidableEq K] (key : R → K) (pre : List R) (a : R) (t : List R) :
    (dedupLoop (some (key a)) (pre.length + 1) (t.map key) ++ [(pre ++ a :: t).length - 1]).mapM
      (fun i => (pre ++ a :: t)[i]?) = some (lastOfRuns key (a :: t)) := by
  induction t generalizing pre a with
  | nil =>
    simp only [List.map_nil, dedupLoop, List.nil_append, List.length_append, List.length_cons,
      List.length_nil, List.mapM_cons, List.mapM_nil, lastOfRuns]
    rw [List.getElem?_append_right (by omega)]
    simp
  | cons b t ih =>
    have ih' := ih (pre ++ [a]) b
    have e : pre ++ [a] ++ b :: t = pre ++ a :: b :: t := by simp
    rw [e] at ih'
    simp only [List.length_append, List.length_cons, List.length_nil] at ih'
    simp only [List.map_cons, dedupLoop, lastOfRuns]
    by_cases h : key a = key b
    · simp only [h, ne_eq, not_true_eq_false, if_false, if_true]
      simpa using ih'
    · have h' : some (key a) ≠ some (key b) := by simpa using h
      simp only [h', ne_eq, not_false_eq_true, if_true, h, if_false, List.cons_append,
        List.mapM_cons]
      have : (pre ++ a :: b :: t)[pre.length + 1 - 1]? = some a := by
        rw [List.getElem?_append_right (by omega)]
        simp
      rw [this]
      simp only [List.length_append, List.length_cons] at ih' ⊢
      rw [ih']
      rfl

theorem memChunk_replacing [DecidableEq K] (key : R → K) (sort : List R → List R) (rows : List R)
    (hp : (sort rows).Perm rows) (hne : rows ≠ []) :
    memChunk key sort 2 true rows = some (some (lastOfRuns key (sort rows))) := by
  unfold memChunk
  have hl : rows.length ≠ 0 := fun e => hne (List.eq_nil_of_length_eq_zero e)
  simp only [hl, if_false, if_true]
  cases hs : sort rows with
  | nil =>
    have := hp.length_eq
    rw [hs] at this
    simp at this
    exact absurd this.symm hl
  | cons a t =>
    have := dedup_spec_aux key [] a t
    simp only [List.nil_append, List.length_nil, Nat.zero_add] at this
    simp only [dedupIdx, if_true, List.map_cons, dedupLoop, List.length_cons, List.length_map]
    simp only [List.length_cons] at this
    rw [this]
    rfl

theorem lastOfRuns_mem [DecidableEq K] (key : R → K) (l : List R) :
    ∀ x ∈ lastOfRuns key l, x ∈ l := by
  fun_induction lastOfRuns key l with
  | case1 => simp
  | case2 => simp
  | case3 a b t h ih =>
    intro x hx
    have := ih x hx
    exact List.mem_cons_of_mem _ this
  | case4 a b t h ih =>
    intro x hx
    rcases List.mem_cons.mp hx with rfl | hx
    · simp
    · exact List.mem_cons_of_mem _ (ih x hx)

theorem lastOfRuns_covers [DecidableEq K] (key : R → K) (l : List R) :
    ∀ x ∈ l, ∃ y ∈ lastOfRuns key l, key y = key x := by
  fun_induction lastOfRuns key l with
  | case1 => simp
  | case2 a => intro x hx; exact ⟨x, by simpa using hx, rfl⟩
  | case3 a b t h ih =>
    intro x hx
    rcases List.mem_cons.mp hx with rfl | hx
    · obtain ⟨y, hy, e⟩ := ih b (by simp)
      exact ⟨y, hy, e.trans h.symm⟩
    · exact ih x hx
  | case4 a b t h ih =>
    intro x hx
    rcases List.mem_cons.mp hx with rfl | hx
    · exact ⟨x, by simp, rfl⟩
    · obtain ⟨y, hy, e⟩ := ih x hx
      exact ⟨y, by simp [hy], e⟩

theorem lastOfRuns_strict [DecidableEq K] {le : K → K → Prop} (ho : TotOrd le) (key : R → K)
    (l : List R) (hs : SortedBy le key l) :
    (lastOfRuns key l).Pairwise fun a b => le (key a) (key b) ∧ key a ≠ key b := by
  fun_induction lastOfRuns key l with
  | case1 => simp
  | case2 => simp
  | case3 a b t h ih => exact ih (List.pairwise_cons.mp hs).2
  | case4 a b t h ih =>
    have hs' := List.pairwise_cons.mp hs
    refine List.pairwise_cons.mpr ⟨?_, ih hs'.2⟩
    intro x hx
    have hx' := lastOfRuns_mem key _ x hx
    refine ⟨hs'.1 x hx', ?_⟩
    intro e
    apply h
    refine ho.antisymm (hs'.1 b (by simp)) ?_
    rcases List.mem_cons.mp hx' with rfl | hx'
    · rw [e]; exact ho.refl _
    · rw [e]; exact (List.pairwise_cons.mp hs'.2).1 x hx'

/-- In a sorted list, the kept row of a key is the last row having that key. -/
theorem lastOfRuns_last [DecidableEq K] {le : K → K → Prop} (ho : TotOrd le) (key : R → K)
    (l : List R) (hs : SortedBy le key l) :
    ∀ x ∈ lastOfRuns key l, (l.filter fun r => decide (key r = key x)).getLast? = some x := by
  fun_induction lastOfRuns key l with
  | case1 => simp
  | case2 a => intro x hx; simp at hx; subst hx; simp
  | case3 a b t h ih =>
    intro x hx
    have := ih (List.pairwise_cons.mp hs).2 x hx
    rw [List.filter_cons]
    split
    · rw [List.getLast?_cons, this]; rfl
    · exact this
  | case4 a b t h ih =>
    have hs' := List.pairwise_cons.mp hs
    intro x hx
    rcases List.mem_cons.mp hx with rfl | hx
    · have hnone : (b :: t).filter (fun r => decide (key r = key x)) = [] := by
        rw [List.filter_eq_nil_iff]
        intro y hy
        simp only [decide_eq_true_eq]
        intro e
        apply h
        refine ho.antisymm (hs'.1 b (by simp)) ?_
        rcases List.mem_cons.mp hy with rfl | hy
        · rw [e]; exact ho.refl _
        · rw [← e]; exact (List.pairwise_cons.mp hs'.2).1 y hy
      rw [List.filter_cons, hnone]
      simp
    · have := ih hs'.2 x hx
      rw [List.filter_cons]
      split
      · rw [List.getLast?_cons, this]; rfl
      · exact this

/-! ### histories -/

/-- The blocks cut from the insert sequence by the flushes. -/
theorem run_segments (mk : List R → Option (Option (List R))) (f : List R → List R)
    (hmk : ∀ l, l ≠ [] → mk l = some (some (f l))) (t : ATbl R) (ops : List (SOp R)) :
    ∃ (t' : ATbl R) (segs : List (List R)), t.run mk ops = some t' ∧ t'.parts = t.parts ++ segs.map f ∧
      (∀ s ∈ segs, s ≠ []) ∧ t.mem ++ inserted ops = segs.flatten ++ t'.mem := by
  induction ops generalizing t with
  | nil => exact ⟨t, [], rfl, by simp, by simp, by simp [inserted]⟩
  | cons op ops ih =>
    cases op with
    | insert r =>
      obtain ⟨t', segs, h1, h2, h3, h4⟩ := ih ⟨t.mem ++ [r], t.parts⟩
      refine ⟨t', segs, ?_, h2, h3, ?_⟩
      · simpa [ATbl.run, ATbl.step] using h1
      · simpa [inserted] using h4
    | flush =>
      by_cases hm : t.mem = []
      · obtain ⟨t', segs, h1, h2, h3, h4⟩ := ih t
        refine ⟨t', segs, ?_, h2, h3, ?_⟩
        · simpa [ATbl.run, ATbl.step, hm] using h1
        · simpa [inserted] using h4
      · obtain ⟨t', segs, h1, h2, h3, h4⟩ := ih ⟨[], t.parts ++ [f t.mem]⟩
        have hl : t.mem.length ≠ 0 := fun e => hm (List.eq_nil_of_length_eq_zero e)
        refine ⟨t', t.mem :: segs, ?_, by simp [h2], ?_, ?_⟩
        · simpa [ATbl.run, ATbl.step, hm, hmk t.mem hm] using h1
        · intro s hs
          rcases List.mem_cons.mp hs with rfl | hs
          · exact hm
          · exact h3 s hs
        · simp only [List.nil_append] at h4
          simp [inserted, h4]

theorem cut_nil {cut : List R → List (List R)} (hc : IsCut cut) : cut [] = [] := by
  rw [List.eq_nil_iff_forall_not_mem]
  intro c hcm
  have h := hc.flatten []
  have hne := hc.nonempty [] c hcm
  rw [List.flatten_eq_nil_iff] at h
  exact hne (h c hcm)

end OptiPrism.Storage
