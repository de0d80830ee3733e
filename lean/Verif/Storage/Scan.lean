import Verif.Storage.Merge

/-!
# Scanning a table: the merging iterator

Model of `MergingIterator` (/repo/src/storage/src/parquet/arrow_merger.rs 280-474), of
`check_intersection` (156-183), `chunk_min_max` (/repo/src/storage/src/parquet/mod.rs 64-109) and of
the choice made by `OptiDBImpl::scan` (/repo/src/storage/src/db.rs 664-690) between the memtable
chunk alone and the merge.

Rows are abstract with a key into a totally ordered type; cells are handled by C11. Binary heaps
are parameters (`Pick`, drains), so that every tie-break is covered. Reading errors are not
modelled (files are assumed readable; `next` turns errors into end of stream).
Replacement (`is_replacing`) is modelled for the two-column integer key the code supports.
-/

namespace OptiPrism.Storage

/-- `ArrowChunk`, 185-191; min and max are the keys of the first and the last row. -/
structure SChunk (R : Type) where
  stream : Nat
  rows : List R

/-- `chunk_min_max`: first row's key; `none` for an empty chunk (index panic). -/
def SChunk.min? {R K : Type} (key : R → K) (c : SChunk R) : Option K := c.rows.head?.map key

def SChunk.max? {R K : Type} (key : R → K) (c : SChunk R) : Option K := c.rows.getLast?.map key

/-- What `BinaryHeap::pop` does on chunks ordered by smallest `min_values` first (202-224): it
returns some chunk of smallest minimum. `peek` shows the same chunk. -/
structure IsPick {R K : Type} (le : K → K → Prop) (key : R → K)
    (pick : List (SChunk R) → Option (SChunk R × List (SChunk R))) : Prop where
  empty : pick [] = none
  some : ∀ h, h ≠ [] → ∃ c h', pick h = some (c, h') ∧ h.Perm (c :: h') ∧
    ∀ c' ∈ h', ∀ r r', c.rows.head? = some r → c'.rows.head? = some r' → le (key r) (key r')

/-- Iterator state: chunks not yet read from each stream, and the heap (`sorter`). -/
structure MState (R : Type) where
  streams : List (List (List R))
  heap : List (SChunk R)

/-- `next_stream_chunk` followed by `sorter.push`, 390-402, 336-340, 430-433. -/
def MState.refill {R : Type} (st : MState R) (s : Nat) : MState R :=
  match st.streams[s]? with
  | some (c :: cs) => ⟨st.streams.set s cs, ⟨s, c⟩ :: st.heap⟩
  | _ => st

/-- Running maximum of the queue's key range, 168-178 (the minimum is symmetric). -/
def rangeMax {K : Type} (le : K → K → Prop) [DecidableRel le] : K → List K → K
  | m, [] => m
  | m, k :: ks => rangeMax le (if le m k then k else m) ks

def rangeMin {K : Type} (le : K → K → Prop) [DecidableRel le] : K → List K → K
  | m, [] => m
  | m, k :: ks => rangeMin le (if le k m then k else m) ks

/-- `check_intersection` without replacement, 156-183. `none` = panic (empty chunk or empty
queue). -/
def intersects {R K : Type} (le : K → K → Prop) [DecidableRel le] (key : R → K)
    (queue : List (SChunk R)) (other : SChunk R) : Option Bool :=
  match queue.mapM (SChunk.min? key), queue.mapM (SChunk.max? key), other.min? key, other.max? key with
  | some (m :: ms), some (x :: xs), some omin, some omax =>
    some (decide (le (rangeMin le m ms) omax) && decide (le omin (rangeMax le x xs)))
  | _, _, _, _ => none

/-- The `while check_intersection` loop, 439-454. `inter` is `check_intersection`. -/
def queueLoop {R : Type} (inter : List (SChunk R) → SChunk R → Option Bool)
    (pick : List (SChunk R) → Option (SChunk R × List (SChunk R))) :
    Nat → List (SChunk R) → MState R → Option (List (SChunk R) × MState R)
  | 0, queue, st => some (queue, st)
  | fuel + 1, queue, st =>
    match pick st.heap with
    | none => some (queue, st)
    | some (c, h') =>
      match inter queue c with
      | none => none
      | some false => some (queue, st)
      | some true =>
        queueLoop inter pick fuel (queue ++ [c]) (MState.refill ⟨st.streams, h'⟩ c.stream)

/-- Number of chunks still to be delivered. -/
def MState.size {R : Type} (st : MState R) : Nat :=
  st.heap.length + (st.streams.map List.length).sum

/-- `merge_queue`, 346-388, without replacement. -/
def mergePlain {R K : Type} (key : R → K) (drain : List (Nat × K) → List (Nat × K)) (size : Nat)
    (blocks : List (List R)) : Option (List (List R)) :=
  (gather blocks (fun _ => 0)
    (reorderPlain (drain (pushed (blocks.map (List.map key)))))).map (slices size)

/-- Consuming the iterator to its end: repeated `next` (423-474). `none` = panic. The fuel bounds
the number of chunks (a scan of `n` chunks needs `n`). -/
def runScan {R : Type} (inter : List (SChunk R) → SChunk R → Option Bool)
    (merge : List (List R) → Option (List (List R)))
    (pick : List (SChunk R) → Option (SChunk R × List (SChunk R))) :
    Nat → MState R → Option (List (List R))
  | 0, _ => some []
  | fuel + 1, st =>
    match pick st.heap with
    | none => some []
    | some (c, h') =>
      match queueLoop inter pick fuel [c] (MState.refill ⟨st.streams, h'⟩ c.stream) with
      | none => none
      | some (queue, st') =>
        let blocks := queue.map SChunk.rows
        let batch := if queue.length > 1 then merge blocks else some blocks
        match batch, runScan inter merge pick fuel st' with
        | some b, some rest => some (b ++ rest)
        | _, _ => none

/-- `MergingIterator::new`, 295-344: one first chunk per stream goes to the heap. -/
def startScan {R : Type} (streams : List (List (List R))) : MState R :=
  (List.range streams.length).foldl (fun st s => st.refill s) ⟨streams, []⟩

/-- `scan`, db.rs 664-690: `parts` are the chunk lists of the part files, `mem` the memtable chunk
(absent when the memtable is empty). -/
def scanWith {R : Type} (inter : List (SChunk R) → SChunk R → Option Bool)
    (merge : List (List R) → Option (List (List R)))
    (pick : List (SChunk R) → Option (SChunk R × List (SChunk R)))
    (parts : List (List (List R))) (mem : Option (List R)) : Option (List (List R)) :=
  if parts.isEmpty then some mem.toList
  else
    let st := startScan (parts ++ mem.toList.map fun c => [c])
    runScan inter merge pick st.size st

/-- Scan of a table that is not replacing. -/
def scan {R K : Type} (le : K → K → Prop) [DecidableRel le] (key : R → K)
    (pick : List (SChunk R) → Option (SChunk R × List (SChunk R)))
    (drain : List (Nat × K) → List (Nat × K)) (size : Nat)
    (parts : List (List (List R))) (mem : Option (List R)) : Option (List (List R)) :=
  scanWith (intersects le key) (mergePlain key drain size) pick parts mem

/-! ### invariant -/

variable {R K : Type}

/-- Rows not yet delivered. -/
def MState.pending (st : MState R) : List R :=
  (st.heap.map SChunk.rows).flatten ++ (st.streams.map List.flatten).flatten

/-- Every stream with unread chunks has one chunk on the heap, which precedes them in key order;
chunks are non-empty and sorted. -/
structure MState.Inv (le : K → K → Prop) (key : R → K) (st : MState R) : Prop where
  heapSorted : ∀ c ∈ st.heap, c.rows ≠ [] ∧
    SortedBy le key (c.rows ++ (st.streams[c.stream]?.getD []).flatten)
  streamsNonempty : ∀ s ∈ st.streams, ∀ c ∈ s, c ≠ []
  covered : ∀ s cs, st.streams[s]? = some cs → cs ≠ [] → ∃ c ∈ st.heap, c.stream = s
  distinct : (st.heap.map SChunk.stream).Nodup

theorem sum_map_set {α : Type} (f : α → Nat) (l : List α) (s : Nat) (a b : α) (h : l[s]? = some a) :
    ((l.set s b).map f).sum + f a = (l.map f).sum + f b := by
  induction l generalizing s with
  | nil => simp at h
  | cons x l ih =>
    cases s with
    | zero => simp at h; subst h; simp; omega
    | succ s =>
      simp at h
      have := ih s h
      simp only [List.set_cons_succ, List.map_cons, List.sum_cons]
      omega

theorem refill_size (st : MState R) (s : Nat) : (st.refill s).size = st.size := by
  unfold MState.refill
  split
  · rename_i c cs h
    have := sum_map_set List.length st.streams s _ cs h
    simp [MState.size] at this ⊢
    omega
  · rfl

theorem flatten_map_flatten_set (l : List (List (List R))) (s : Nat) (c : List R)
    (cs : List (List R)) (h : l[s]? = some (c :: cs)) :
    ((l.map List.flatten).flatten).Perm (c ++ ((l.set s cs).map List.flatten).flatten) := by
  induction l generalizing s with
  | nil => simp at h
  | cons x l ih =>
    cases s with
    | zero => simp at h; subst h; simp
    | succ s =>
      simp at h
      simp only [List.map_cons, List.flatten_cons, List.set_cons_succ]
      refine ((ih s h).append_left _).trans ?_
      rw [← List.append_assoc, ← List.append_assoc]
      exact List.Perm.append_right _ List.perm_append_comm

theorem refill_pending (st : MState R) (s : Nat) : (st.refill s).pending.Perm st.pending := by
  unfold MState.refill
  split
  · rename_i c cs h
    simp only [MState.pending, List.map_cons, List.flatten_cons]
    have := flatten_map_flatten_set st.streams s c cs h
    refine List.Perm.trans ?_ (this.symm.append_left _)
    rw [← List.append_assoc]
    exact List.Perm.append_right _ List.perm_append_comm
  · exact List.Perm.refl _

/-- State in which stream `s` may lack its heap chunk. -/
structure MState.InvExcept (le : K → K → Prop) (key : R → K) (st : MState R) (s : Nat) : Prop where
  heapSorted : ∀ c ∈ st.heap, c.rows ≠ [] ∧
    SortedBy le key (c.rows ++ (st.streams[c.stream]?.getD []).flatten)
  sSorted : SortedBy le key (st.streams[s]?.getD []).flatten
  streamsNonempty : ∀ s ∈ st.streams, ∀ c ∈ s, c ≠ []
  covered : ∀ s' cs, s' ≠ s → st.streams[s']? = some cs → cs ≠ [] → ∃ c ∈ st.heap, c.stream = s'
  distinct : (st.heap.map SChunk.stream).Nodup
  notOn : ∀ c ∈ st.heap, c.stream ≠ s

theorem refill_inv {le : K → K → Prop} {key : R → K} {st : MState R} {s : Nat}
    (h : st.InvExcept le key s) : (st.refill s).Inv le key := by
  unfold MState.refill
  split
  · rename_i c cs hs
    have hlt := (List.getElem?_eq_some_iff.mp hs).1
    refine ⟨?_, ?_, ?_, ?_⟩
    · intro c' hc'
      rcases List.mem_cons.mp hc' with rfl | hc'
      · refine ⟨h.streamsNonempty _ (List.mem_of_getElem? hs) c (by simp), ?_⟩
        simp only
        rw [List.getElem?_set_self hlt]
        have := h.sSorted
        simpa [hs] using this
      · have hne := h.notOn c' hc'
        simp only
        rw [List.getElem?_set_ne (Ne.symm hne)]
        exact h.heapSorted c' hc'
    · intro l hl c' hc'
      rcases List.mem_or_eq_of_mem_set hl with hl | rfl
      · exact h.streamsNonempty l hl c' hc'
      · exact h.streamsNonempty _ (List.mem_of_getElem? hs) c' (by simp [hc'])
    · intro s' cs' hs' hne
      by_cases he : s' = s
      · exact ⟨⟨s, c⟩, by simp, he.symm⟩
      · simp only at hs'
        rw [List.getElem?_set_ne (Ne.symm he)] at hs'
        obtain ⟨c', hc', e⟩ := h.covered s' cs' he hs' hne
        exact ⟨c', by simp [hc'], e⟩
    · simp only [List.map_cons, List.nodup_cons]
      refine ⟨?_, h.distinct⟩
      intro hmem
      obtain ⟨c', hc', e⟩ := List.mem_map.mp hmem
      exact h.notOn c' hc' e
  · rename_i hs
    refine ⟨h.heapSorted, h.streamsNonempty, ?_, h.distinct⟩
    intro s' cs' hs' hne
    by_cases he : s' = s
    · subst he
      cases cs' with
      | nil => exact absurd rfl hne
      | cons c cs => exact absurd hs' (hs c cs)
    · exact h.covered s' cs' he hs' hne

theorem startScan_inv {le : K → K → Prop} {key : R → K} (streams : List (List (List R)))
    (hs : ∀ s ∈ streams, SortedBy le key s.flatten) (hne : ∀ s ∈ streams, ∀ c ∈ s, c ≠ []) :
    (startScan streams).Inv le key ∧ (startScan streams).pending.Perm
      (streams.map List.flatten).flatten := by
  -- after processing streams 0..n-1
  have key1 : ∀ n, n ≤ streams.length →
      let st := (List.range n).foldl (fun st s => MState.refill st s) (⟨streams, []⟩ : MState R)
      (∀ c ∈ st.heap, c.stream < n ∧ c.rows ≠ [] ∧
        SortedBy le key (c.rows ++ (st.streams[c.stream]?.getD []).flatten)) ∧
      (∀ s, n ≤ s → st.streams[s]? = streams[s]?) ∧
      (∀ l ∈ st.streams, ∀ c ∈ l, c ≠ []) ∧
      (∀ s cs, s < n → st.streams[s]? = some cs → cs ≠ [] → ∃ c ∈ st.heap, c.stream = s) ∧
      (st.heap.map SChunk.stream).Nodup ∧
      st.pending.Perm (streams.map List.flatten).flatten := by
    intro n
    induction n with
    | zero =>
      intro _
      refine ⟨by simp, by simp, by simpa using hne, by simp, by simp, ?_⟩
      simp [MState.pending]
    | succ n ih =>
      intro hn
      obtain ⟨h1, h2, h3, h4, h5, h6⟩ := ih (by omega)
      rw [List.range_succ, List.foldl_append]
      simp only [List.foldl_cons, List.foldl_nil]
      generalize hst : (List.range n).foldl (fun st s => MState.refill st s)
        (⟨streams, []⟩ : MState R) = st at *
      have hn2 := h2 n (Nat.le_refl n)
      have hpend := (refill_pending st n).trans h6
      cases hsn : st.streams[n]? with
      | none =>
        have : streams[n]? = none := by rw [← hn2, hsn]
        have := List.getElem?_eq_none_iff.mp this
        omega
      | some l =>
        have hl : streams[n]? = some l := by rw [← hn2, hsn]
        have hsl : SortedBy le key l.flatten := hs l (List.mem_of_getElem? hl)
        have hlt := (List.getElem?_eq_some_iff.mp hsn).1
        cases l with
        | nil =>
          have e : st.refill n = st := by unfold MState.refill; rw [hsn]
          rw [e]
          refine ⟨fun c hc => ⟨by have := (h1 c hc).1; omega, (h1 c hc).2⟩, ?_, h3, ?_, h5, h6⟩
          · intro s hs'; exact h2 s (by omega)
          · intro s cs hs' hcs hne'
            by_cases he : s = n
            · subst he; rw [hsn] at hcs; cases hcs; exact absurd rfl hne'
            · exact h4 s cs (by omega) hcs hne'
        | cons c cs =>
          have e : st.refill n = ⟨st.streams.set n cs, ⟨n, c⟩ :: st.heap⟩ := by
            unfold MState.refill; rw [hsn]
          rw [e] at hpend ⊢
          refine ⟨?_, ?_, ?_, ?_, ?_, hpend⟩
          · intro c' hc'
            rcases List.mem_cons.mp hc' with rfl | hc'
            · refine ⟨by simp, hne _ (List.mem_of_getElem? hl) c (by simp), ?_⟩
              simp only
              rw [List.getElem?_set_self hlt]
              simpa using hsl
            · have hlt' := (h1 c' hc').1
              refine ⟨by omega, (h1 c' hc').2.1, ?_⟩
              simp only
              rw [List.getElem?_set_ne (by omega)]
              exact (h1 c' hc').2.2
          · intro s hs'
            simp only
            rw [List.getElem?_set_ne (by omega)]
            exact h2 s (by omega)
          · intro l' hl' c' hc'
            rcases List.mem_or_eq_of_mem_set hl' with hl' | rfl
            · exact h3 l' hl' c' hc'
            · exact hne _ (List.mem_of_getElem? hl) c' (by simp [hc'])
          · intro s cs' hs' hcs hne'
            by_cases he : s = n
            · exact ⟨⟨n, c⟩, by simp, he.symm⟩
            · simp only at hcs
              rw [List.getElem?_set_ne (Ne.symm he)] at hcs
              obtain ⟨c', hc', e'⟩ := h4 s cs' (by omega) hcs hne'
              exact ⟨c', by simp [hc'], e'⟩
          · simp only [List.map_cons, List.nodup_cons]
            refine ⟨?_, h5⟩
            intro hmem
            obtain ⟨c', hc', e'⟩ := List.mem_map.mp hmem
            have := (h1 c' hc').1
            omega
  obtain ⟨h1, h2, h3, h4, h5, h6⟩ := key1 streams.length (Nat.le_refl _)
  refine ⟨⟨fun c hc => (h1 c hc).2, h3, ?_, h5⟩, h6⟩
  intro s cs hcs hne'
  refine h4 s cs ?_ hcs hne'
  apply Decidable.byContradiction
  intro hlt
  have := h2 s (by omega)
  have hcs' : streams[s]? = some cs := this.symm.trans hcs
  have := (List.getElem?_eq_some_iff.mp hcs').1
  omega

/-- Popping the heap's smallest chunk: its minimum bounds everything pending. -/
theorem pop_spec {le : K → K → Prop} (ho : TotOrd le) {key : R → K}
    {pick : List (SChunk R) → Option (SChunk R × List (SChunk R))} (hp : IsPick le key pick)
    {st : MState R} (hi : st.Inv le key) {c : SChunk R} {h' : List (SChunk R)}
    (hpick : pick st.heap = some (c, h')) :
    c.rows ≠ [] ∧ SortedBy le key c.rows ∧
    (MState.refill ⟨st.streams, h'⟩ c.stream).Inv le key ∧
    st.pending.Perm (c.rows ++ (MState.refill ⟨st.streams, h'⟩ c.stream).pending) ∧
    (MState.refill ⟨st.streams, h'⟩ c.stream).size + 1 = st.size ∧
    ∀ r, c.rows.head? = some r → ∀ x ∈ st.pending, le (key r) (key x) := by
  have hne : st.heap ≠ [] := by
    intro e; rw [e, hp.empty] at hpick; cases hpick
  obtain ⟨c1, h1, e1, hperm, hmin⟩ := hp.some st.heap hne
  rw [hpick] at e1
  cases e1
  have hcmem : c ∈ st.heap := hperm.mem_iff.mpr (by simp)
  have hc := hi.heapSorted c hcmem
  have hsub : ∀ x ∈ h', x ∈ st.heap := fun x hx => hperm.mem_iff.mpr (by simp [hx])
  have hdist : c.stream ∉ h'.map SChunk.stream ∧ (h'.map SChunk.stream).Nodup := by
    have := (hperm.map SChunk.stream).nodup_iff.mp hi.distinct
    simpa using this
  have hsorted := List.pairwise_append.mp hc.2
  have hexc : (⟨st.streams, h'⟩ : MState R).InvExcept le key c.stream := by
    refine ⟨fun x hx => hi.heapSorted x (hsub x hx), hsorted.2.1, hi.streamsNonempty, ?_,
      hdist.2, ?_⟩
    · intro s' cs hne' hs' hcs
      obtain ⟨x, hx, e⟩ := hi.covered s' cs hs' hcs
      have hx' := hperm.mem_iff.mp hx
      rcases List.mem_cons.mp hx' with rfl | hx'
      · exact absurd e.symm hne'
      · exact ⟨x, hx', e⟩
    · intro x hx e
      exact hdist.1 (e ▸ List.mem_map_of_mem hx)
  refine ⟨hc.1, hsorted.1, refill_inv hexc, ?_, ?_, ?_⟩
  · have h2 := refill_pending (⟨st.streams, h'⟩ : MState R) c.stream
    refine List.Perm.trans ?_ (h2.symm.append_left c.rows)
    simp only [MState.pending]
    rw [← List.append_assoc]
    apply List.Perm.append_right
    have := (hperm.map SChunk.rows).flatten
    simpa using this
  · rw [refill_size]
    simp only [MState.size]
    have := hperm.length_eq
    simp at this
    omega
  · intro r hr x hx
    -- smallest minimum among heap chunks
    have hheap : ∀ c' ∈ st.heap, ∀ r', c'.rows.head? = some r' → le (key r) (key r') := by
      intro c' hc' r' hr'
      have hx' := hperm.mem_iff.mp hc'
      rcases List.mem_cons.mp hx' with rfl | hx'
      · rw [hr] at hr'; cases hr'; exact ho.refl _
      · exact hmin c' hx' r r' hr hr'
    have hall : ∀ c' ∈ st.heap, ∀ y ∈ c'.rows ++ (st.streams[c'.stream]?.getD []).flatten,
        le (key r) (key y) := by
      intro c' hc' y hy
      obtain ⟨hne', hs'⟩ := hi.heapSorted c' hc'
      cases hrows : c'.rows with
      | nil => exact absurd hrows hne'
      | cons r' t =>
        have h1 := hheap c' hc' r' (by simp [hrows])
        rw [hrows] at hs' hy
        simp only [List.cons_append] at hs' hy
        rcases List.mem_cons.mp hy with rfl | hy
        · exact h1
        · exact ho.trans h1 ((List.pairwise_cons.mp hs').1 y hy)
    simp only [MState.pending, List.mem_append, List.mem_flatten, List.mem_map] at hx
    rcases hx with ⟨l, ⟨c', hc', rfl⟩, hx⟩ | ⟨l, ⟨cs, hcs, rfl⟩, hx⟩
    · exact hall c' hc' x (by simp [hx])
    · obtain ⟨s, hs⟩ := List.getElem?_of_mem hcs
      have hne' : cs ≠ [] := by rintro rfl; simp at hx
      obtain ⟨c', hc', e⟩ := hi.covered s cs hs hne'
      refine hall c' hc' x ?_
      rw [e, hs]
      simp only [Option.getD_some, List.mem_append]
      exact Or.inr hx

theorem rangeMax_spec {le : K → K → Prop} [DecidableRel le] (ho : TotOrd le) (m : K) (ks : List K) :
    le m (rangeMax le m ks) ∧ ∀ k ∈ ks, le k (rangeMax le m ks) := by
  induction ks generalizing m with
  | nil => exact ⟨ho.refl _, by simp⟩
  | cons k ks ih =>
    unfold rangeMax
    have h := ih (if le m k then k else m)
    by_cases hle : le m k
    · simp only [hle, if_true] at h ⊢
      refine ⟨ho.trans hle h.1, ?_⟩
      intro x hx
      rcases List.mem_cons.mp hx with rfl | hx
      · exact h.1
      · exact h.2 x hx
    · simp only [hle, if_false] at h ⊢
      have hkm : le k m := (ho.total k m).resolve_right hle
      refine ⟨h.1, ?_⟩
      intro x hx
      rcases List.mem_cons.mp hx with rfl | hx
      · exact ho.trans hkm h.1
      · exact h.2 x hx

theorem rangeMin_le {le : K → K → Prop} [DecidableRel le] (ho : TotOrd le) (m : K) (ks : List K) :
    le (rangeMin le m ks) m := by
  induction ks generalizing m with
  | nil => exact ho.refl _
  | cons k ks ih =>
    unfold rangeMin
    by_cases hle : le k m
    · simp only [hle, if_true]; exact ho.trans (ih k) hle
    · simp only [hle, if_false]; exact ih m

theorem mapM_some_of {α β : Type} (f : α → Option β) (g : α → β) (l : List α)
    (h : ∀ a ∈ l, f a = some (g a)) : l.mapM f = some (l.map g) := by
  induction l with
  | nil => rfl
  | cons a l ih =>
    simp [List.mapM_cons, h a (by simp), ih (fun x hx => h x (by simp [hx]))]

theorem le_last {le : K → K → Prop} (ho : TotOrd le) {key : R → K} {l : List R}
    (hs : SortedBy le key l) {x y : R} (hx : x ∈ l) (hy : l.getLast? = some y) :
    le (key x) (key y) := by
  obtain ⟨ys, rfl⟩ := List.getLast?_eq_some_iff.mp hy
  rcases List.mem_append.mp hx with hx | hx
  · exact (List.pairwise_append.mp hs).2.2 x hx y (by simp)
  · simp at hx; subst hx; exact ho.refl _

/-- The queue built so far: non-empty sorted chunks, and its first minimum bounds what is left. -/
structure QInv (le : K → K → Prop) (key : R → K) (queue : List (SChunk R)) (st : MState R) : Prop where
  ne : ∀ c ∈ queue, c.rows ≠ []
  sorted : ∀ c ∈ queue, SortedBy le key c.rows
  first : ∃ c0 rest r0, queue = c0 :: rest ∧ c0.rows.head? = some r0 ∧
    ∀ x ∈ st.pending, le (key r0) (key x)

/-- `check_intersection` on a good queue: no panic, and "no" means that the other chunk starts
after every key of the queue. -/
theorem intersects_spec {le : K → K → Prop} [DecidableRel le] (ho : TotOrd le) {key : R → K}
    {queue : List (SChunk R)} {st : MState R} (hq : QInv le key queue st) {c : SChunk R} {r : R}
    (hc : c.rows.head? = some r) (hsub : ∀ x ∈ c.rows, x ∈ st.pending) :
    ∃ b, intersects le key queue c = some b ∧
      (b = false → ∀ q ∈ queue, ∀ x ∈ q.rows, le (key x) (key r)) := by
  obtain ⟨c0, rest, r0, hqe, hr0, hmin⟩ := hq.first
  -- choose representatives
  have hmins : queue.mapM (SChunk.min? key) =
      some (queue.map fun q => key (q.rows.head?.getD r)) := by
    apply mapM_some_of
    intro q hqm
    have := hq.ne q hqm
    unfold SChunk.min?
    cases hrows : q.rows with
    | nil => exact absurd hrows this
    | cons a t => simp
  have hmaxs : queue.mapM (SChunk.max? key) =
      some (queue.map fun q => key (q.rows.getLast?.getD r)) := by
    apply mapM_some_of
    intro q hqm
    have := hq.ne q hqm
    unfold SChunk.max?
    obtain ⟨y, hy⟩ : ∃ y, q.rows.getLast? = some y := by
      cases hl : q.rows.getLast? with
      | none => exact absurd (List.getLast?_eq_none_iff.mp hl) this
      | some y => exact ⟨y, rfl⟩
    simp [hy]
  have hcne : c.rows ≠ [] := by intro e; rw [e] at hc; cases hc
  obtain ⟨y, hy⟩ : ∃ y, c.rows.getLast? = some y := by
    cases hl : c.rows.getLast? with
    | none => exact absurd (List.getLast?_eq_none_iff.mp hl) hcne
    | some y => exact ⟨y, rfl⟩
  have hymem : y ∈ c.rows := List.mem_of_getLast? hy
  unfold intersects
  rw [hmins, hmaxs]
  subst hqe
  simp only [List.map_cons, SChunk.min?, SChunk.max?, hc, hy, Option.map_some]
  refine ⟨_, rfl, ?_⟩
  intro hb
  have hlow : le (rangeMin le (key (c0.rows.head?.getD r)) (rest.map fun q => key (q.rows.head?.getD r)))
      (key y) := by
    refine ho.trans (rangeMin_le ho _ _) ?_
    rw [hr0]
    exact hmin y (hsub y hymem)
  have hhigh : ¬ le (key r) (rangeMax le (key (c0.rows.getLast?.getD r))
      (rest.map fun q => key (q.rows.getLast?.getD r))) := by
    simpa [hlow] using hb
  have hmax := rangeMax_spec ho (key (c0.rows.getLast?.getD r))
    (rest.map fun q => key (q.rows.getLast?.getD r))
  intro q hqm x hx
  obtain ⟨z, hz⟩ : ∃ z, q.rows.getLast? = some z := by
    cases hl : q.rows.getLast? with
    | none => rw [List.getLast?_eq_none_iff.mp hl] at hx; cases hx
    | some z => exact ⟨z, rfl⟩
  have hxz := le_last ho (hq.sorted q hqm) hx hz
  have hzmax : le (key z) (rangeMax le (key (c0.rows.getLast?.getD r))
      (rest.map fun q => key (q.rows.getLast?.getD r))) := by
    rcases List.mem_cons.mp hqm with rfl | hqm
    · have := hmax.1; rw [hz] at this ⊢; simpa using this
    · apply hmax.2
      refine List.mem_map.mpr ⟨q, hqm, by simp [hz]⟩
  have hle : le (rangeMax le (key (c0.rows.getLast?.getD r))
      (rest.map fun q => key (q.rows.getLast?.getD r))) (key r) :=
    (ho.total _ _).resolve_right hhigh
  exact ho.trans (ho.trans hxz hzmax) hle

theorem queueLoop_spec {le : K → K → Prop} [DecidableRel le] (ho : TotOrd le) {key : R → K}
    {pick : List (SChunk R) → Option (SChunk R × List (SChunk R))} (hp : IsPick le key pick)
    (fuel : Nat) (queue : List (SChunk R)) (st : MState R) (hq : QInv le key queue st)
    (hi : st.Inv le key) (hf : st.size ≤ fuel) :
    ∃ queue' st', queueLoop (intersects le key) pick fuel queue st = some (queue', st') ∧ st'.Inv le key ∧
      st'.size ≤ st.size ∧ queue ≠ [] ∧ queue' ≠ [] ∧
      (∀ c ∈ queue', SortedBy le key c.rows) ∧ (∀ c ∈ queue', c.rows ≠ []) ∧
      ((queue.map SChunk.rows).flatten ++ st.pending).Perm
        ((queue'.map SChunk.rows).flatten ++ st'.pending) ∧
      (∀ c ∈ queue', ∀ x ∈ c.rows, ∀ y ∈ st'.pending, le (key x) (key y)) := by
  have hqne : queue ≠ [] := by
    obtain ⟨c0, rest, r0, e, _⟩ := hq.first
    rw [e]; simp
  -- an exhausted heap leaves nothing pending
  have hdone : ∀ st : MState R, st.Inv le key → st.heap = [] → st.pending = [] := by
    intro st hi hh
    rw [List.eq_nil_iff_forall_not_mem]
    intro x hx
    simp only [MState.pending, hh, List.map_nil, List.flatten_nil, List.nil_append,
      List.mem_flatten, List.mem_map] at hx
    obtain ⟨l, ⟨cs, hcs, rfl⟩, hx⟩ := hx
    obtain ⟨s, hs⟩ := List.getElem?_of_mem hcs
    have hne' : cs ≠ [] := by rintro rfl; simp at hx
    obtain ⟨c', hc', _⟩ := hi.covered s cs hs hne'
    rw [hh] at hc'; cases hc'
  induction fuel generalizing queue st with
  | zero =>
    have hh : st.heap = [] := by
      have : st.heap.length = 0 := by simp only [MState.size] at hf; omega
      exact List.eq_nil_of_length_eq_zero this
    refine ⟨queue, st, rfl, hi, Nat.le_refl _, hqne, hqne, hq.sorted, hq.ne, List.Perm.refl _, ?_⟩
    intro c _ x _ y hy
    rw [hdone st hi hh] at hy; cases hy
  | succ fuel ih =>
    unfold queueLoop
    cases hpk : pick st.heap with
    | none =>
      have hh : st.heap = [] := by
        apply Decidable.byContradiction
        intro hne
        obtain ⟨c1, h1, e1, _⟩ := hp.some st.heap hne
        rw [hpk] at e1; cases e1
      refine ⟨queue, st, rfl, hi, Nat.le_refl _, hqne, hqne, hq.sorted, hq.ne, List.Perm.refl _, ?_⟩
      intro c _ x _ y hy
      rw [hdone st hi hh] at hy; cases hy
    | some ch =>
      obtain ⟨c, h'⟩ := ch
      obtain ⟨hcne, hcs, hinv', hperm, hsize, hmin⟩ := pop_spec ho hp hi hpk
      obtain ⟨r, hr⟩ : ∃ r, c.rows.head? = some r := by
        cases hrows : c.rows with
        | nil => exact absurd hrows hcne
        | cons a t => exact ⟨a, rfl⟩
      have hsub : ∀ x ∈ c.rows, x ∈ st.pending := fun x hx =>
        hperm.mem_iff.mpr (by simp [hx])
      obtain ⟨b, hb, hbf⟩ := intersects_spec ho hq hr hsub
      simp only [hb]
      cases b with
      | false =>
        refine ⟨queue, st, rfl, hi, Nat.le_refl _, hqne, hqne, hq.sorted, hq.ne, List.Perm.refl _, ?_⟩
        intro q hqm x hx y hy
        exact ho.trans (hbf rfl q hqm x hx) (hmin r hr y hy)
      | true =>
        obtain ⟨c0, rest, r0, hqe, hr0, hfirst⟩ := hq.first
        have hq' : QInv le key (queue ++ [c]) (MState.refill ⟨st.streams, h'⟩ c.stream) := by
          refine ⟨?_, ?_, c0, rest ++ [c], r0, by simp [hqe], hr0, ?_⟩
          · intro x hx
            rcases List.mem_append.mp hx with hx | hx
            · exact hq.ne x hx
            · simp at hx; subst hx; exact hcne
          · intro x hx
            rcases List.mem_append.mp hx with hx | hx
            · exact hq.sorted x hx
            · simp at hx; subst hx; exact hcs
          · intro x hx
            exact hfirst x (hperm.mem_iff.mpr (by simp [hx]))
        obtain ⟨queue', st', g1, g2, g3, _, g4, g5, g6, g7, g8⟩ :=
          ih (queue ++ [c]) _ hq' hinv' (by omega) (by simp)
        refine ⟨queue', st', g1, g2, by omega, hqne, g4, g5, g6, ?_, g8⟩
        refine List.Perm.trans ?_ g7
        simp only [List.map_append, List.map_cons, List.map_nil, List.flatten_append,
          List.flatten_cons, List.flatten_nil, List.append_nil, List.append_assoc]
        exact hperm.append_left _

theorem runScan_spec {le : K → K → Prop} [DecidableRel le] (ho : TotOrd le) {key : R → K}
    {pick : List (SChunk R) → Option (SChunk R × List (SChunk R))} (hp : IsPick le key pick)
    {drain : List (Nat × K) → List (Nat × K)} (hd : ∀ es, IsDrain le es (drain es))
    {size : Nat} (hsz : 1 ≤ size) (fuel : Nat) (st : MState R) (hi : st.Inv le key)
    (hf : st.size ≤ fuel) :
    ∃ out, runScan (intersects le key) (mergePlain key drain size) pick fuel st = some out ∧ out.flatten.Perm st.pending ∧
      SortedBy le key out.flatten ∧ ∀ b ∈ out, b ≠ [] := by
  induction fuel generalizing st with
  | zero =>
    refine ⟨[], rfl, ?_, List.Pairwise.nil, by simp⟩
    have hh : st.heap = [] := by
      have : st.heap.length = 0 := by simp only [MState.size] at hf; omega
      exact List.eq_nil_of_length_eq_zero this
    have : st.pending = [] := by
      rw [List.eq_nil_iff_forall_not_mem]
      intro x hx
      simp only [MState.pending, hh, List.map_nil, List.flatten_nil, List.nil_append,
        List.mem_flatten, List.mem_map] at hx
      obtain ⟨l, ⟨cs, hcs, rfl⟩, hx⟩ := hx
      obtain ⟨s, hs⟩ := List.getElem?_of_mem hcs
      have hne' : cs ≠ [] := by rintro rfl; simp at hx
      obtain ⟨c', hc', _⟩ := hi.covered s cs hs hne'
      rw [hh] at hc'; cases hc'
    simp [this]
  | succ fuel ih =>
    unfold runScan
    cases hpk : pick st.heap with
    | none =>
      have hh : st.heap = [] := by
        apply Decidable.byContradiction
        intro hne
        obtain ⟨c1, h1, e1, _⟩ := hp.some st.heap hne
        rw [hpk] at e1; cases e1
      refine ⟨[], rfl, ?_, List.Pairwise.nil, by simp⟩
      have : st.pending = [] := by
        rw [List.eq_nil_iff_forall_not_mem]
        intro x hx
        simp only [MState.pending, hh, List.map_nil, List.flatten_nil, List.nil_append,
          List.mem_flatten, List.mem_map] at hx
        obtain ⟨l, ⟨cs, hcs, rfl⟩, hx⟩ := hx
        obtain ⟨s, hs⟩ := List.getElem?_of_mem hcs
        have hne' : cs ≠ [] := by rintro rfl; simp at hx
        obtain ⟨c', hc', _⟩ := hi.covered s cs hs hne'
        rw [hh] at hc'; cases hc'
      simp [this]
    | some ch =>
      obtain ⟨c, h'⟩ := ch
      obtain ⟨hcne, hcs, hinv', hperm, hsize, hmin⟩ := pop_spec ho hp hi hpk
      obtain ⟨r, hr⟩ : ∃ r, c.rows.head? = some r := by
        cases hrows : c.rows with
        | nil => exact absurd hrows hcne
        | cons a t => exact ⟨a, rfl⟩
      have hq : QInv le key [c] (MState.refill ⟨st.streams, h'⟩ c.stream) := by
        refine ⟨by simpa using hcne, by simpa using hcs, c, [], r, rfl, hr, ?_⟩
        intro x hx
        exact hmin r hr x (hperm.mem_iff.mpr (by simp [hx]))
      obtain ⟨queue, st', g1, g2, g3, _, g4, g5, g6, g7, g8⟩ :=
        queueLoop_spec ho hp fuel [c] _ hq hinv' (by omega)
      obtain ⟨rest, k1, k2, k3, k4⟩ := ih st' g2 (by omega)
      simp only [g1, k1]
      -- the batch delivered by this call
      obtain ⟨batch, hbatch, hbperm, hbsorted, hbne⟩ : ∃ batch,
          (if queue.length > 1 then mergePlain key drain size (queue.map SChunk.rows)
          else some (queue.map SChunk.rows)) = some batch ∧
          batch.flatten.Perm (queue.map SChunk.rows).flatten ∧ SortedBy le key batch.flatten ∧
          ∀ b ∈ batch, b ≠ [] := by
        by_cases hlen : queue.length > 1
        · obtain ⟨out, o1, o2, o3⟩ := gather_plain ho key _ (queue.map SChunk.rows)
            (by intro b hb; obtain ⟨q, hqm, rfl⟩ := List.mem_map.mp hb; exact g5 q hqm)
            (hd (pushed ((queue.map SChunk.rows).map (List.map key))))
          refine ⟨slices size out, by rw [if_pos hlen, mergePlain, o1]; rfl, ?_, ?_, slices_ne_nil _ _⟩
          · rw [slices_flatten size hsz]; exact o2
          · rw [slices_flatten size hsz]; exact o3
        · refine ⟨queue.map SChunk.rows, by simp [hlen], List.Perm.refl _, ?_, ?_⟩
          · cases queue with
            | nil => exact absurd rfl g4
            | cons q qs =>
              cases qs with
              | nil => simpa using g5 q (by simp)
              | cons _ _ => simp at hlen
          · intro b hb
            obtain ⟨q, hqm, rfl⟩ := List.mem_map.mp hb
            exact g6 q hqm
      rw [hbatch]
      refine ⟨batch ++ rest, rfl, ?_, ?_, ?_⟩
      · rw [List.flatten_append]
        have h1 : (c.rows ++ (MState.refill ⟨st.streams, h'⟩ c.stream).pending).Perm
            ((queue.map SChunk.rows).flatten ++ st'.pending) := by simpa using g7
        exact (hbperm.append k2).trans (h1.symm.trans hperm.symm)
      · rw [List.flatten_append]
        refine List.pairwise_append.mpr ⟨hbsorted, k3, ?_⟩
        intro x hx y hy
        have hx' := hbperm.mem_iff.mp hx
        simp only [List.mem_flatten, List.mem_map] at hx'
        obtain ⟨l, ⟨q, hqm, rfl⟩, hxq⟩ := hx'
        exact g8 q hqm x hxq y (k2.mem_iff.mp hy)
      · intro b hb
        rcases List.mem_append.mp hb with hb | hb
        · exact hbne b hb
        · exact k4 b hb

end OptiPrism.Storage
