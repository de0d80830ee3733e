import Verif.Storage.PMerge

/-!
# The merge of part files: rows and index columns

Helper lemmas for `PMergeProps`: what the heaps give, what one round of the index pass takes and gives.
-/

namespace OptiPrism.Storage.PMerge

/-! ### the order of keys -/

theorem vecLe_refl (a : Key) : vecLe a a = true := by
  induction a with
  | nil => rfl
  | cons x a ih => simp [vecLe, ih]

theorem vecLe_trans {a b c : Key} (h1 : vecLe a b = true) (h2 : vecLe b c = true) : vecLe a c = true := by
  induction a generalizing b c with
  | nil => rfl
  | cons x a ih =>
    cases b with
    | nil => simp [vecLe] at h1
    | cons y b =>
      cases c with
      | nil => simp [vecLe] at h2
      | cons z c =>
        simp only [vecLe, Bool.or_eq_true, decide_eq_true_eq, Bool.and_eq_true] at h1 h2 ⊢
        rcases h1 with h1 | ⟨h1, h1'⟩ <;> rcases h2 with h2 | ⟨h2, h2'⟩
        · left; omega
        · left; omega
        · left; omega
        · right; exact ⟨by omega, ih h1' h2'⟩

theorem vecLe_total (a b : Key) : vecLe a b = true ∨ vecLe b a = true := by
  induction a generalizing b with
  | nil => left; rfl
  | cons x a ih =>
    cases b with
    | nil => right; rfl
    | cons y b =>
      simp only [vecLe, Bool.or_eq_true, decide_eq_true_eq, Bool.and_eq_true]
      rcases Int.lt_trichotomy x y with h | h | h
      · left; left; exact h
      · rcases ih b with h' | h'
        · left; right; exact ⟨h, h'⟩
        · right; right; exact ⟨h.symm, h'⟩
      · right; left; exact h

theorem vecLe_antisymm {a b : Key} (h1 : vecLe a b = true) (h2 : vecLe b a = true) : a = b := by
  induction a generalizing b with
  | nil =>
    cases b with
    | nil => rfl
    | cons y b => simp [vecLe] at h2
  | cons x a ih =>
    cases b with
    | nil => simp [vecLe] at h1
    | cons y b =>
      simp only [vecLe, Bool.or_eq_true, decide_eq_true_eq, Bool.and_eq_true] at h1 h2
      have hxy : x = y := by omega
      subst hxy
      rw [ih (b := b)]
      · rcases h1 with h | h
        · omega
        · exact h.2
      · rcases h2 with h | h
        · omega
        · exact h.2

theorem vTotOrd : TotOrd VLe where
  trans := fun h1 h2 => vecLe_trans h1 h2
  total := vecLe_total
  antisymm := fun h1 h2 => vecLe_antisymm h1 h2

/-- Two sorted lists with the same elements are the same. -/
theorem sorted_perm_eq {l m : List Key} (hl : l.Pairwise VLe) (hm : m.Pairwise VLe) (h : l.Perm m) : l = m := by
  induction l generalizing m with
  | nil => exact (List.nil_perm.mp h).symm
  | cons x l ih =>
    cases m with
    | nil => exact absurd h.length_eq (by simp)
    | cons y m =>
      have hx : x ∈ y :: m := h.mem_iff.mp (by simp)
      have hy : y ∈ x :: l := h.mem_iff.mpr (by simp)
      have e : x = y := by
        rcases List.mem_cons.mp hx with h1 | h1
        · exact h1
        · rcases List.mem_cons.mp hy with h2 | h2
          · exact h2.symm
          · exact vTotOrd.antisymm ((List.pairwise_cons.mp hl).1 _ h2) ((List.pairwise_cons.mp hm).1 _ h1)
      subst e
      rw [ih (List.pairwise_cons.mp hl).2 (List.pairwise_cons.mp hm).2 (List.Perm.cons_inv h)]

/-! ### heaps -/

theorem Heap.Ok.pushes {α : Type} {h : Heap α} {key : α → Key} (ok : h.Ok key) (l acc : List α) :
    (l.foldl h.push acc).Perm (l ++ acc) := by
  induction l generalizing acc with
  | nil => exact List.Perm.refl _
  | cons a l ih =>
    refine (ih (h.push acc a)).trans ?_
    refine ((ok.push acc a).append_left l).trans ?_
    exact List.perm_middle

theorem popAll_spec {h : Heap (Nat × Key)} (ok : h.Ok Prod.snd) (n : Nat) (l : List (Nat × Key)) (hn : l.length ≤ n) :
    (popAll h n l).Perm l ∧ SortedBy VLe Prod.snd (popAll h n l) := by
  induction n generalizing l with
  | zero =>
    have : l = [] := List.length_eq_zero_iff.mp (by omega)
    subst this
    exact ⟨List.Perm.refl _, List.Pairwise.nil⟩
  | succ n ih =>
    simp only [popAll]
    split
    · rename_i hp
      rw [ok.empty l hp]
      exact ⟨List.Perm.refl _, List.Pairwise.nil⟩
    · rename_i a l' hp
      obtain ⟨h1, h2⟩ := ok.pop l a l' hp
      have hl : l'.length ≤ n := by have := h1.length_eq; simp at this; omega
      obtain ⟨h3, h4⟩ := ih l' hl
      refine ⟨(h3.cons a).trans h1.symm, List.pairwise_cons.mpr ⟨?_, h4⟩⟩
      intro b hb
      exact h2 b (h3.mem_iff.mp hb)

theorem allRows_drain {h : Heap (Nat × Key)} (ok : h.Ok Prod.snd) (blocks : List (List Key)) :
    IsDrain VLe (pushed blocks) (allRows h blocks) := by
  have hp := ok.pushes (pushed blocks) []
  simp only [List.append_nil] at hp
  obtain ⟨h1, h2⟩ := popAll_spec ok (pushed blocks).length _ (Nat.le_of_eq hp.length_eq)
  exact ⟨h1.trans hp, h2⟩

/-- The heap and the iterators of a k-way merge: what is on the heap is the head of each block. -/
theorem kway_spec {h : Heap (Nat × Key)} (ok : h.Ok Prod.snd) (n : Nat) (its : List (List Key)) (l : List (Nat × Key))
    (hn : l.length + its.flatten.length ≤ n)
    (hs : ∀ b ∈ its, b.Pairwise VLe)
    (hb : ∀ i k', k' ∈ (its[i]?).getD [] → ∃ k, (i, k) ∈ l ∧ VLe k k')
    (hu : (l.map Prod.fst).Nodup) (hlt : ∀ p ∈ l, p.1 < its.length) :
    (kway h n its l).Perm (l ++ pushed its) ∧ SortedBy VLe Prod.snd (kway h n its l) := by
  induction n generalizing its l with
  | zero =>
    have h1 : l = [] := List.length_eq_zero_iff.mp (by omega)
    have h2 : its.flatten = [] := List.length_eq_zero_iff.mp (by omega)
    have h3 : pushed its = [] := by
      rw [List.eq_nil_iff_forall_not_mem]
      intro p hp
      rw [mem_pushed] at hp
      obtain ⟨b, hb1, hb2⟩ := hp
      have : p.2 ∈ its.flatten := List.mem_flatten.mpr ⟨b, List.mem_of_getElem? hb1, hb2⟩
      rw [h2] at this; cases this
    rw [h1, h3]
    exact ⟨List.Perm.refl _, List.Pairwise.nil⟩
  | succ n ih =>
    simp only [kway]
    split
    · rename_i hp
      have hl := ok.empty l hp
      subst hl
      have h3 : pushed its = [] := by
        rw [List.eq_nil_iff_forall_not_mem]
        intro p hp
        rw [mem_pushed] at hp
        obtain ⟨b, hb1, hb2⟩ := hp
        obtain ⟨k, hk, _⟩ := hb p.1 p.2 (by rw [hb1]; exact hb2)
        cases hk
      rw [h3]
      exact ⟨List.Perm.refl _, List.Pairwise.nil⟩
    · rename_i i k l' hp
      obtain ⟨h1, h2⟩ := ok.pop l (i, k) l' hp
      have hlen : l.length = l'.length + 1 := by have := h1.length_eq; simpa using this
      have hu' : (i :: l'.map Prod.fst).Nodup := (h1.map Prod.fst).nodup_iff.mp hu
      have hui := (List.nodup_cons.mp hu').1
      have hlt' : ∀ p ∈ l', p.1 < its.length := fun p hp => hlt p (h1.mem_iff.mpr (by simp [hp]))
      have hmem : ∀ p, p ∈ l ↔ p = (i, k) ∨ p ∈ l' := fun p => by rw [h1.mem_iff]; simp
      -- `k` is below everything left
      have hmin : ∀ p ∈ l' ++ pushed its, VLe k p.2 := by
        intro p hp
        rcases List.mem_append.mp hp with hp | hp
        · exact h2 p hp
        · rw [mem_pushed] at hp
          obtain ⟨b, hb1, hb2⟩ := hp
          obtain ⟨k2, hk2, hk3⟩ := hb p.1 p.2 (by rw [hb1]; exact hb2)
          rcases (hmem _).mp hk2 with e | hk2
          · have : k2 = k := congrArg Prod.snd e
            rw [← this]; exact hk3
          · exact vTotOrd.trans (h2 _ hk2) hk3
      have fin : ∀ r : List (Nat × Key), r.Perm (l' ++ pushed its) → SortedBy VLe Prod.snd r →
          ((i, k) :: r).Perm (l ++ pushed its) ∧ SortedBy VLe Prod.snd ((i, k) :: r) := by
        intro r hr1 hr2
        refine ⟨?_, List.pairwise_cons.mpr ⟨?_, hr2⟩⟩
        · exact (hr1.cons (i, k)).trans ((h1.append_right (pushed its)).symm)
        · intro b hb'
          exact hmin b (hr1.mem_iff.mp hb')
      split
      · rename_i k' t hi
        have hset : (its.set i t)[i]? = some t := by
          have : i < its.length := (List.getElem?_eq_some_iff.mp hi).1
          simp [this]
        have hps := pushed_set_perm its i k' t hi
        have hfl := (flatten_set_perm its i k' t hi).length_eq
        have hb0 := hs _ (List.mem_of_getElem? hi)
        have hpl := (ok.push l' (i, k')).length_eq
        obtain ⟨g1, g2⟩ := ih (its.set i t) (h.push l' (i, k'))
          (by simp only [List.length_cons] at hfl hpl; omega)
          (by
            intro b' hb'
            rcases List.mem_or_eq_of_mem_set hb' with hb' | rfl
            · exact hs b' hb'
            · exact (List.pairwise_cons.mp hb0).2)
          (by
            intro j k2 hk2
            by_cases hj : j = i
            · subst hj
              rw [hset] at hk2
              exact ⟨k', (ok.push _ _).mem_iff.mpr (by simp), (List.pairwise_cons.mp hb0).1 k2 hk2⟩
            · rw [List.getElem?_set_ne (Ne.symm hj)] at hk2
              obtain ⟨k3, hk3, hk4⟩ := hb j k2 hk2
              refine ⟨k3, (ok.push _ _).mem_iff.mpr ?_, hk4⟩
              rcases (hmem _).mp hk3 with e | e
              · exact absurd (congrArg Prod.fst e) hj
              · simp [e])
          (by
            refine (((ok.push l' (i, k')).map Prod.fst).nodup_iff).mpr ?_
            simpa using hu')
          (by
            intro p hp
            rw [List.length_set]
            rcases List.mem_cons.mp ((ok.push _ _).mem_iff.mp hp) with rfl | hp
            · exact hlt (i, k) ((hmem _).mpr (.inl rfl))
            · exact hlt' p hp)
        refine fin _ (g1.trans ?_) g2
        refine ((ok.push l' (i, k')).append_right _).trans ?_
        refine (List.perm_middle.symm).trans ?_
        exact (hps.symm).append_left l'
      · rename_i hno
        have hi0 : (its[i]?).getD [] = [] := by
          cases hc : its[i]? with
          | none => rfl
          | some b =>
            cases b with
            | nil => rfl
            | cons k' t => exact absurd hc (hno k' t)
        obtain ⟨g1, g2⟩ := ih its l' (by omega) hs
          (by
            intro j k2 hk2
            obtain ⟨k3, hk3, hk4⟩ := hb j k2 hk2
            refine ⟨k3, ?_, hk4⟩
            rcases (hmem _).mp hk3 with e | e
            · have : j = i := congrArg Prod.fst e
              subst this
              rw [hi0] at hk2; cases hk2
            · exact e)
          (List.nodup_cons.mp hu').2 hlt'
        exact fin _ g1 g2

theorem firsts_some {blocks : List (List Key)} (h : ∀ b ∈ blocks, b ≠ []) :
    ∃ fs, firsts blocks = some fs ∧ fs.length = blocks.length ∧
      ∀ (i : Nat) b, blocks[i]? = some b → ∃ k, fs[i]? = some k ∧ b = k :: b.tail := by
  induction blocks with
  | nil => exact ⟨[], rfl, rfl, by simp⟩
  | cons b bs ih =>
    obtain ⟨fs, h1, h2, h3⟩ := ih (fun b' hb' => h b' (by simp [hb']))
    cases b with
    | nil => exact absurd rfl (h [] (by simp))
    | cons k t =>
      refine ⟨k :: fs, by simp [firsts, h1], by simp [h2], ?_⟩
      intro i b hb
      cases i with
      | zero => simp at hb; subst hb; exact ⟨k, by simp, rfl⟩
      | succ i => simp at hb; obtain ⟨k', h4, h5⟩ := h3 i b hb; exact ⟨k', by simpa using h4, h5⟩

theorem pushed_heads_aux (n : Nat) (blocks : List (List Key)) (fs : List Key) (h : firsts blocks = some fs) :
    (((fs.zipIdx n).map fun p : Key × Nat => (p.2, p.1)) ++
      (((blocks.map List.tail).zipIdx n).flatMap fun p : List Key × Nat => p.1.map fun k => (p.2, k))).Perm
      ((blocks.zipIdx n).flatMap fun p : List Key × Nat => p.1.map fun k => (p.2, k)) := by
  induction blocks generalizing n fs with
  | nil => simp [firsts] at h; subst h; simp
  | cons b bs ih =>
    cases b with
    | nil => simp [firsts] at h
    | cons k t =>
      simp only [firsts, Option.map_eq_some_iff] at h
      obtain ⟨fs', h1, rfl⟩ := h
      have := ih (n + 1) fs' h1
      simp only [List.zipIdx_cons, List.map_cons, List.tail_cons, List.flatMap_cons, List.cons_append]
      refine List.Perm.cons _ ?_
      refine (List.perm_append_comm_assoc _ _ _).trans ?_
      exact this.append_left _

theorem kwayRows_drain {h : Heap (Nat × Key)} (ok : h.Ok Prod.snd) (blocks : List (List Key))
    (hne : ∀ b ∈ blocks, b ≠ []) (hs : ∀ b ∈ blocks, b.Pairwise VLe) :
    ∃ pops, kwayRows h blocks = some pops ∧ IsDrain VLe (pushed blocks) pops := by
  obtain ⟨fs, h1, h2, h3⟩ := firsts_some hne
  have hpa := pushed_heads_aux 0 blocks fs h1
  have hp := ok.pushes (fs.zipIdx.map fun p : Key × Nat => (p.2, p.1)) []
  rw [List.append_nil] at hp
  have hlen : fs.length + (blocks.map List.tail).flatten.length = blocks.flatten.length := by
    clear hpa hp h1 h3
    induction blocks generalizing fs with
    | nil => simp at h2; subst h2; rfl
    | cons b bs ih =>
      cases fs with
      | nil => simp at h2
      | cons f fs =>
        have := ih (fun b hb => hne b (by simp [hb])) (fun b hb => hs b (by simp [hb])) fs (by simpa using h2)
        cases b with
        | nil => exact absurd rfl (hne [] (by simp))
        | cons k t => simp at this ⊢; omega
  obtain ⟨g1, g2⟩ := kway_spec ok blocks.flatten.length (blocks.map List.tail)
    ((fs.zipIdx.map fun p : Key × Nat => (p.2, p.1)).foldl h.push [])
    (by rw [hp.length_eq]; simp; simp at hlen; omega)
    (by
      intro b hb
      obtain ⟨b', hb', rfl⟩ := List.mem_map.mp hb
      exact (hs b' hb').tail)
    (by
      intro i k' hk'
      simp only [List.getElem?_map] at hk'
      cases hc : blocks[i]? with
      | none => rw [hc] at hk'; cases hk'
      | some b =>
        rw [hc] at hk'
        obtain ⟨k, hk, hb⟩ := h3 i b hc
        refine ⟨k, hp.mem_iff.mpr ?_, ?_⟩
        · refine List.mem_map.mpr ⟨(k, i), ?_, rfl⟩
          rw [List.mem_zipIdx_iff_getElem?]; exact hk
        · have := hs b (List.mem_of_getElem? hc)
          rw [hb] at this
          exact (List.pairwise_cons.mp this).1 k' hk')
    (by
      refine (hp.map Prod.fst).nodup_iff.mpr ?_
      rw [List.map_map]
      have : (Prod.fst ∘ fun p : Key × Nat => (p.2, p.1)) = Prod.snd := rfl
      rw [this, List.zipIdx_map_snd]
      exact List.nodup_range')
    (by
      intro p hp'
      obtain ⟨q, hq, rfl⟩ := List.mem_map.mp (hp.mem_iff.mp hp')
      have := List.mem_zipIdx_iff_getElem?.mp hq
      have := (List.getElem?_eq_some_iff.mp this).1
      simp; omega)
  refine ⟨_, by simp only [kwayRows, h1, Option.map_some], ⟨?_, g2⟩⟩
  refine g1.trans ((hp.append_right _).trans ?_)
  exact hpa

/-! ### cutting the output -/

theorem cutOut_plain (size : Nat) (streams : List Nat) (pops : List (Nat × Key)) (ks : List Key) (os : List (Option Nat))
    (hl : ks.length = os.length) :
    ((cutOut false size streams pops ks os).flatMap Prod.fst = ks ++ pops.map Prod.snd) ∧
    ((cutOut false size streams pops ks os).flatMap Prod.snd = os ++ pops.map fun p => some (streams.getD p.1 0)) ∧
    ∀ x ∈ cutOut false size streams pops ks os, x.1.length = x.2.length ∧ x.1 ≠ [] := by
  induction pops generalizing ks os with
  | nil =>
    simp only [cutOut]
    split
    · rename_i h
      have h : os = [] := by simpa using h
      subst h
      have : ks = [] := List.length_eq_zero_iff.mp hl
      simp [this]
    · rename_i h
      have h : os ≠ [] := by simpa using h
      have hk : ks ≠ [] := by
        intro e; subst e
        exact h (List.length_eq_zero_iff.mp hl.symm)
      simp [hl, hk]
  | cons p pops ih =>
    obtain ⟨i, k⟩ := p
    simp only [cutOut, Bool.false_and, Bool.false_eq_true, ↓reduceIte]
    split
    · obtain ⟨h1, h2, h3⟩ := ih [] [] rfl
      refine ⟨by simp [h1], by simp [h2], ?_⟩
      intro x hx
      rcases List.mem_cons.mp hx with rfl | hx
      · simp [hl]
      · exact h3 x hx
    · obtain ⟨h1, h2, h3⟩ := ih (ks ++ [k]) (os ++ [some (streams.getD i 0)]) (by simp [hl])
      exact ⟨by rw [h1]; simp, by rw [h2]; simp, h3⟩

/-- Nothing is replaced if no two rows have the same first column. -/
theorem cutOut_distinct (rep : Bool) (size : Nat) (streams : List Nat) (pops : List (Nat × Key)) (ks : List Key)
    (os : List (Option Nat)) (h : ((pops.map Prod.snd).map List.head?).Nodup) :
    cutOut rep size streams pops ks os = cutOut false size streams pops ks os := by
  induction pops generalizing ks os with
  | nil => rfl
  | cons p pops ih =>
    obtain ⟨i, k⟩ := p
    simp only [List.map_cons, List.nodup_cons] at h
    have hne : sameNext k pops = false := by
      cases pops with
      | nil => rfl
      | cons q pops =>
        simp only [sameNext, beq_eq_false_iff_ne, ne_eq]
        intro e
        exact h.1 (by rw [e]; simp)
    simp only [cutOut, hne, Bool.and_false, Bool.false_eq_true, if_false, ih _ _ h.2]

/-! ### what is emitted for one queue -/

/-- The merge has nothing to replace in this queue. -/
def QPlain (o : Opts) (q : List Chunk) : Prop :=
  o.replacing = false ∨ ((q.flatMap Chunk.keys).map List.head?).Nodup

/-- The streams the rows of a merged chunk come from, in order. -/
def MChunk.order (m : MChunk) : List (Option Nat) :=
  match m.ro with
  | .pick s n => List.replicate n (some s)
  | .merge o _ => o

/-- (stream, key) of the rows of a queue. -/
def queueRows (q : List Chunk) : List (Nat × Key) := q.flatMap fun c => c.keys.map fun k => (c.stream, k)

/-- Page statistics bound the keys. -/
def StatOk (stat : List Key → Key × Key) : Prop :=
  ∀ ks, ks ≠ [] → ks.Pairwise VLe → ∀ k ∈ ks, VLe (stat ks).1 k ∧ VLe k (stat ks).2

theorem pushed_streams_aux (q : List Chunk) (pre : List Nat) :
    (((q.map Chunk.keys).zipIdx pre.length).flatMap fun p : List Key × Nat => p.1.map fun k => (p.2, k)).map
      (fun p : Nat × Key => ((pre ++ q.map Chunk.stream).getD p.1 0, p.2)) = queueRows q := by
  induction q generalizing pre with
  | nil => rfl
  | cons c q ih =>
    have := ih (pre ++ [c.stream])
    simp only [List.length_append, List.length_cons, List.length_nil, Nat.zero_add, List.append_assoc,
      List.cons_append, List.nil_append] at this
    simp only [List.map_cons, List.zipIdx_cons, List.flatMap_cons, List.map_append, queueRows] at this ⊢
    rw [this]
    congr 1
    rw [List.map_map]
    apply List.map_congr_left
    intro k _
    simp

theorem pushed_streams (q : List Chunk) :
    (pushed (q.map Chunk.keys)).map (fun p => ((q.map Chunk.stream).getD p.1 0, p.2)) = queueRows q := by
  simpa [pushed] using pushed_streams_aux q []

/-- What is known of a chunk. -/
structure Chunk.Ok (n : Nat) (c : Chunk) : Prop where
  ne : c.keys ≠ []
  sorted : c.keys.Pairwise VLe
  lo : ∀ k ∈ c.keys, VLe c.lo k
  hi : ∀ k ∈ c.keys, VLe k c.hi
  lolen : c.lo.length = n
  hilen : c.hi.length = n

structure MChunk.Ok (m : MChunk) : Prop where
  ne : m.keys ≠ []
  len : m.keys.length = m.order.length
  lo : ∀ k ∈ m.keys, VLe m.lo k
  hi : ∀ k ∈ m.keys, VLe k m.hi

/-- What is assumed of the options. -/
structure Opts.Ok (o : Opts) : Prop where
  cols : o.cols = 1 ∨ o.cols = 2 ∨ o.cols = 3
  chunkHeap : o.chunkHeap.Ok Chunk.lo
  rowHeap : o.rowHeap.Ok Prod.snd
  stat : StatOk o.stat

theorem pushed_snd {K : Type} (blocks : List (List K)) : (pushed blocks).map Prod.snd = blocks.flatten := by
  have key : ∀ n, ((blocks.zipIdx n).flatMap fun p : List K × Nat => p.1.map fun k => (p.2, k)).map Prod.snd = blocks.flatten := by
    induction blocks with
    | nil => intro n; rfl
    | cons b bs ih =>
      intro n
      simp only [List.zipIdx_cons, List.flatMap_cons, List.map_append, ih, List.flatten_cons, List.map_map]
      congr 1
      simp [Function.comp_def]
  exact key 0

theorem mergeChunks_plain {o : Opts} (ho : o.Ok) (q : List Chunk) (hq : ∀ c ∈ q, c.Ok o.cols) (hpl : QPlain o q) :
    ∃ pops outs, IsDrain VLe (pushed (q.map Chunk.keys)) pops ∧ mergeChunks o q = some outs ∧
      outs.flatMap Prod.fst = pops.map Prod.snd ∧
      (outs.flatMap Prod.snd = pops.map fun p => some ((q.map Chunk.stream).getD p.1 0)) ∧
      ∀ x ∈ outs, x.1.length = x.2.length ∧ x.1 ≠ [] := by
  have hk := kwayRows_drain ho.rowHeap (q.map Chunk.keys)
    (by intro b hb; obtain ⟨c, hc, rfl⟩ := List.mem_map.mp hb; exact (hq c hc).ne)
    (by intro b hb; obtain ⟨c, hc, rfl⟩ := List.mem_map.mp hb; exact (hq c hc).sorted)
  obtain ⟨pops, h1, h2⟩ := hk
  have fin : ∀ ps : List (Nat × Key),
      (cutOut false o.arraySize (q.map Chunk.stream) ps [] []).flatMap Prod.fst = ps.map Prod.snd ∧
      ((cutOut false o.arraySize (q.map Chunk.stream) ps [] []).flatMap Prod.snd =
        ps.map fun p => some ((q.map Chunk.stream).getD p.1 0)) ∧
      ∀ x ∈ cutOut false o.arraySize (q.map Chunk.stream) ps [] [], x.1.length = x.2.length ∧ x.1 ≠ [] :=
    fun ps => cutOut_plain o.arraySize (q.map Chunk.stream) ps [] [] rfl
  rcases ho.cols with hc | hc | hc
  · exact ⟨pops, cutOut false o.arraySize (q.map Chunk.stream) pops [] [], h2,
      by simp only [mergeChunks, hc, h1, Option.map_some], fin pops⟩
  · refine ⟨allRows o.rowHeap (q.map Chunk.keys),
      cutOut false o.arraySize (q.map Chunk.stream) (allRows o.rowHeap (q.map Chunk.keys)) [] [],
      allRows_drain ho.rowHeap _, ?_, fin _⟩
    simp only [mergeChunks, hc]
    rcases hpl with hpl | hpl
    · rw [hpl]
    · rw [cutOut_distinct]
      have := ((allRows_drain ho.rowHeap (q.map Chunk.keys)).perm.map Prod.snd)
      rw [pushed_snd, ← List.flatMap_def] at this
      exact (this.map List.head?).nodup_iff.mpr hpl
  · exact ⟨pops, cutOut false o.arraySize (q.map Chunk.stream) pops [] [], h2,
      by simp only [mergeChunks, hc, h1, Option.map_some], fin pops⟩

/-- How a chunk emitted for the queue `q` refers to the streams. -/
def Refers (q : List Chunk) (ms : List MChunk) : Prop :=
  (∃ c, q = [c] ∧ ms = [⟨c.keys, c.lo, c.hi, .pick c.stream c.keys.length⟩]) ∨
  ∀ m ∈ ms, ∃ ord, m.ro = .merge ord (q.map Chunk.stream)

theorem emit_plain {o : Opts} (ho : o.Ok) (q : List Chunk) (hq : ∀ c ∈ q, c.Ok o.cols) (hpl : QPlain o q) :
    ∃ ms pops, emit o q = some ms ∧ ms.flatMap MChunk.keys = pops.map Prod.snd ∧
      (ms.flatMap MChunk.order = pops.map fun p => some p.1) ∧ pops.Perm (queueRows q) ∧
      SortedBy VLe Prod.snd pops ∧ (∀ m ∈ ms, m.Ok) ∧ Refers q ms := by
  have hm : ∃ ms pops, ((mergeChunks o q).map fun outs =>
      outs.map fun x => (⟨x.1, (o.stat x.1).1, (o.stat x.1).2, .merge x.2 (q.map Chunk.stream)⟩ : MChunk)) = some ms ∧
      ms.flatMap MChunk.keys = pops.map Prod.snd ∧
      (ms.flatMap MChunk.order = pops.map fun p => some p.1) ∧ pops.Perm (queueRows q) ∧
      SortedBy VLe Prod.snd pops ∧ (∀ m ∈ ms, m.Ok) ∧ Refers q ms := by
    obtain ⟨pops, outs, h1, h2, h3, h4, h5⟩ := mergeChunks_plain ho q hq hpl
    refine ⟨outs.map fun x => ⟨x.1, (o.stat x.1).1, (o.stat x.1).2, .merge x.2 (q.map Chunk.stream)⟩,
      pops.map fun p => ((q.map Chunk.stream).getD p.1 0, p.2), by rw [h2]; rfl, ?_, ?_, ?_, ?_, ?_, ?_⟩
    · rw [List.flatMap_map, List.map_map]
      exact h3
    · rw [List.flatMap_map, List.map_map]
      exact h4
    · rw [← pushed_streams q]
      exact h1.perm.map _
    · exact List.Pairwise.map _ (fun a b h => h) h1.sorted
    · intro m hm
      obtain ⟨x, hx, rfl⟩ := List.mem_map.mp hm
      obtain ⟨h6, h7⟩ := h5 x hx
      have hsub : x.1.Sublist (outs.flatMap Prod.fst) := by
        rw [List.flatMap_def]
        exact List.sublist_flatten_of_mem (List.mem_map_of_mem hx)
      have hsort : x.1.Pairwise VLe := by
        refine List.Pairwise.sublist hsub ?_
        rw [h3]
        exact List.Pairwise.map _ (fun a b h => h) h1.sorted
      exact ⟨h7, h6, fun k hk => (ho.stat x.1 h7 hsort k hk).1, fun k hk => (ho.stat x.1 h7 hsort k hk).2⟩
    · refine .inr ?_
      intro m hm
      obtain ⟨x, hx, rfl⟩ := List.mem_map.mp hm
      exact ⟨x.2, rfl⟩
  match q, hq, hm with
  | [], _, hm => exact hm
  | [c], hq, _ =>
    have hc := hq c (by simp)
    refine ⟨_, c.keys.map fun k => (c.stream, k), rfl, ?_, ?_, ?_, ?_, ?_, .inl ⟨c, rfl, rfl⟩⟩
    · simp [Function.comp_def]
    · simp [MChunk.order, Function.comp_def, List.map_const']
    · simp [queueRows]
    · exact List.Pairwise.map _ (fun a b h => h) hc.sorted
    · intro m hm
      simp only [List.mem_singleton] at hm
      subst hm
      exact ⟨hc.ne, by simp [MChunk.order], hc.lo, hc.hi⟩
  | c :: d :: q, _, hm => exact hm

/-! ### streams -/

/-- The chunks of `pend` (per stream) not consumed yet, as the merger has them. -/
structure Inv (st : Ix) (pend : List (List Chunk)) : Prop where
  sorter : st.sorter.Perm (pend.filterMap List.head?)
  rest : st.rest = pend.map List.tail

/-- Nothing is to be replaced in these streams: the table is not replacing, or it has keys of two columns, no two
rows have the same first column and the first column of the page statistics is that of some row. -/
def Plain (o : Opts) (pend : List (List Chunk)) : Prop :=
  o.replacing = false ∨ (o.cols = 2 ∧ ((pend.flatten.flatMap Chunk.keys).map List.head?).Nodup ∧
    ∀ c ∈ pend.flatten, ∃ k ∈ c.keys, k.head? = c.lo.head?)

structure Good (o : Opts) (pend : List (List Chunk)) : Prop where
  stream : ∀ (s : Nat) (b : List Chunk), pend[s]? = some b → ∀ c ∈ b, c.stream = s
  sorted : ∀ b ∈ pend, (b.flatMap Chunk.keys).Pairwise VLe
  chunk : ∀ b ∈ pend, ∀ c ∈ b, c.Ok o.cols
  plain : Plain o pend

/-- The chunks `q` are taken from their streams, in this order. -/
def Takes : List (List Chunk) → List Chunk → List (List Chunk) → Prop
  | p, [], p' => p' = p
  | p, c :: q, p' => ∃ t, p[c.stream]? = some (c :: t) ∧ Takes (p.set c.stream t) q p'

theorem Takes.append {p p1 p2 : List (List Chunk)} {q1 q2 : List Chunk} (h1 : Takes p q1 p1) (h2 : Takes p1 q2 p2) :
    Takes p (q1 ++ q2) p2 := by
  induction q1 generalizing p with
  | nil => rw [← h1]; exact h2
  | cons c q1 ih =>
    obtain ⟨t, h3, h4⟩ := h1
    exact ⟨t, h3, ih h4⟩

theorem Good.set {o : Opts} {p : List (List Chunk)} (g : Good o p) {s : Nat} {c : Chunk} {t : List Chunk}
    (h : p[s]? = some (c :: t)) : Good o (p.set s t) := by
  have hm := List.mem_of_getElem? h
  have hf := flatten_set_perm p s c t h
  refine ⟨?_, ?_, ?_, ?_⟩
  rotate_left 3
  · rcases g.plain with hp | ⟨h1, h2, h3⟩
    · exact .inl hp
    · refine .inr ⟨h1, ?_, fun d hd => h3 d (hf.mem_iff.mpr (by simp [hd]))⟩
      have h4 := ((hf.flatMap_right Chunk.keys).map List.head?).nodup_iff.mp h2
      rw [List.flatMap_cons, List.map_append, List.nodup_append] at h4
      exact h4.2.1
  · intro j b hb d hd
    by_cases hj : s = j
    · subst hj
      have hlt : s < p.length := (List.getElem?_eq_some_iff.mp h).1
      simp [hlt] at hb
      subst hb
      exact g.stream s _ h d (by simp [hd])
    · rw [List.getElem?_set_ne hj] at hb
      exact g.stream j b hb d hd
  · intro b hb
    rcases List.mem_or_eq_of_mem_set hb with hb | rfl
    · exact g.sorted b hb
    · have := g.sorted _ hm
      rw [List.flatMap_cons, List.pairwise_append] at this
      exact this.2.1
  · intro b hb d hd
    rcases List.mem_or_eq_of_mem_set hb with hb | rfl
    · exact g.chunk b hb d hd
    · exact g.chunk _ hm d (by simp [hd])

theorem Good.takes {o : Opts} {p p' : List (List Chunk)} {q : List Chunk} (g : Good o p) (h : Takes p q p') : Good o p' := by
  induction q generalizing p with
  | nil => rw [h]; exact g
  | cons c q ih =>
    obtain ⟨t, h3, h4⟩ := h
    exact ih (g.set h3) h4

theorem Takes.mem {p p' : List (List Chunk)} {q : List Chunk} (h : Takes p q p') {c : Chunk}
    (hc : c ∈ q ∨ c ∈ p'.flatten) : c ∈ p.flatten := by
  induction q generalizing p with
  | nil => rw [h] at hc; simpa using hc
  | cons d q ih =>
    obtain ⟨t, h3, h4⟩ := h
    have hp := flatten_set_perm p d.stream d t h3
    rcases hc with hc | hc
    · rcases List.mem_cons.mp hc with rfl | hc
      · exact hp.mem_iff.mpr (by simp)
      · exact hp.mem_iff.mpr (by simp only [List.mem_cons]; right; exact ih h4 (.inl hc))
    · exact hp.mem_iff.mpr (by simp only [List.mem_cons]; right; exact ih h4 (.inr hc))

theorem Takes.perm {p p' : List (List Chunk)} {q : List Chunk} (h : Takes p q p') : p.flatten.Perm (q ++ p'.flatten) := by
  induction q generalizing p with
  | nil => rw [h]; exact List.Perm.refl _
  | cons d q ih =>
    obtain ⟨t, h3, h4⟩ := h
    exact (flatten_set_perm p d.stream d t h3).trans ((ih h4).cons d)

theorem Good.qplain {o : Opts} {p p' : List (List Chunk)} {q : List Chunk} (g : Good o p) (h : Takes p q p') : QPlain o q := by
  rcases g.plain with hp | ⟨-, h2, -⟩
  · exact .inl hp
  · right
    have h4 := ((h.perm.flatMap_right Chunk.keys).map List.head?).nodup_iff.mp h2
    rw [List.flatMap_append, List.map_append, List.nodup_append] at h4
    exact h4.1

theorem Takes.count {p p' : List (List Chunk)} {q : List Chunk} (h : Takes p q p') :
    p.flatten.length = q.length + p'.flatten.length := by
  induction q generalizing p with
  | nil => rw [h]; simp
  | cons d q ih =>
    obtain ⟨t, h3, h4⟩ := h
    have hp := (flatten_set_perm p d.stream d t h3).length_eq
    have := ih h4
    simp at hp ⊢
    simp at this
    omega

theorem split_at {α : Type} {l : List α} {s : Nat} {x : α} (h : l[s]? = some x) :
    ∃ pre post, l = pre ++ x :: post ∧ pre.length = s ∧ ∀ y, l.set s y = pre ++ y :: post := by
  have hlt : s < l.length := (List.getElem?_eq_some_iff.mp h).1
  have hx : l[s] = x := (List.getElem?_eq_some_iff.mp h).2
  have e : l = l.take s ++ x :: l.drop (s + 1) := by
    rw [← hx, List.getElem_cons_drop, List.take_append_drop]
  refine ⟨l.take s, l.drop (s + 1), e, by simp; omega, ?_⟩
  intro y
  rw [List.set_eq_take_append_cons_drop, if_pos hlt]

theorem heads_tails (p : List (List Chunk)) :
    (p.filterMap List.head?).length + (p.map List.tail).flatten.length = p.flatten.length := by
  induction p with
  | nil => rfl
  | cons b p ih =>
    cases b with
    | nil => rw [List.filterMap_cons_none rfl]; simpa using ih
    | cons c t =>
      rw [List.filterMap_cons_some (f := List.head?) (a := c :: t) (b := c) rfl]
      simp at ih ⊢; omega

theorem Inv.left {st : Ix} {p : List (List Chunk)} (h : Inv st p) : st.left = p.flatten.length := by
  rw [Ix.left, h.sorter.length_eq, h.rest]
  exact heads_tails p

theorem filterMap_head_split (pre post : List (List Chunk)) (b : List Chunk) :
    ((pre ++ b :: post).filterMap List.head?).Perm (b.head?.toList ++ (pre ++ post).filterMap List.head?) := by
  rw [List.filterMap_append, List.filterMap_append, List.filterMap_cons]
  cases b with
  | nil => exact List.Perm.refl _
  | cons c t => exact List.perm_middle

/-- Popping a chunk and pushing the next one of its stream. -/
theorem Inv.pop {o : Opts} (ho : o.chunkHeap.Ok Chunk.lo) {st : Ix} {p : List (List Chunk)} (h : Inv st p)
    (g : Good o p) {c : Chunk} {l : List Chunk} (hp : o.chunkHeap.pop st.sorter = some (c, l)) :
    ∃ t, p[c.stream]? = some (c :: t) ∧ Inv (({ st with sorter := l } : Ix).advance o c.stream) (p.set c.stream t) ∧
      (({ st with sorter := l } : Ix).advance o c.stream).buf = st.buf ∧
      ∀ b ∈ p, ∀ d ∈ b, ∀ k ∈ d.keys, VLe c.lo k := by
  obtain ⟨h1, h2⟩ := ho.pop _ _ _ hp
  have hc : c ∈ p.filterMap List.head? := h.sorter.mem_iff.mp (h1.mem_iff.mpr (by simp))
  obtain ⟨b, hb, hbc⟩ := List.mem_filterMap.mp hc
  obtain ⟨t, rfl⟩ : ∃ t, b = c :: t := by
    cases b with
    | nil => simp at hbc
    | cons d t => simp at hbc; subst hbc; exact ⟨t, rfl⟩
  obtain ⟨s, hs⟩ := List.getElem?_of_mem hb
  have hst : c.stream = s := g.stream s _ hs c (by simp)
  subst hst
  obtain ⟨pre, post, e, hl, hset⟩ := split_at hs
  have hl2 : l.Perm ((pre ++ post).filterMap List.head?) := by
    have h3 := h1.symm.trans h.sorter
    rw [e] at h3
    have h4 := h3.trans (filterMap_head_split pre post (c :: t))
    exact List.Perm.cons_inv h4
  refine ⟨t, hs, ?_, ?_, ?_⟩
  · have hr : st.rest[c.stream]? = some t := by
      rw [h.rest, List.getElem?_map, hs]; rfl
    have hss := filterMap_head_split pre post t
    rw [← hset] at hss
    simp only [Ix.advance, hr]
    cases t with
    | nil =>
      refine ⟨?_, ?_⟩
      · exact hl2.trans hss.symm
      · simp only [h.rest, List.map_set, List.tail_nil]
        symm
        rw [e]
        simp only [List.map_append, List.map_cons, List.tail_cons]
        rw [List.set_append_right _ _ (by simp [hl])]
        simp [hl]
    | cons d t =>
      refine ⟨?_, ?_⟩
      · exact ((ho.push l d).trans (hl2.cons d)).trans hss.symm
      · simp only [h.rest, List.map_set, List.tail_cons]
  · simp only [Ix.advance]
    split <;> rfl
  · intro b' hb' d hd k hk
    -- `c.lo` is below the head of every stream, and the stream is sorted
    cases b' with
    | nil => cases hd
    | cons f fs =>
      have hf : VLe c.lo f.lo := by
        have : f ∈ st.sorter := h.sorter.mem_iff.mpr (List.mem_filterMap.mpr ⟨_, hb', rfl⟩)
        rcases List.mem_cons.mp (h1.mem_iff.mp this) with rfl | hf
        · exact vTotOrd.refl _
        · exact h2 f hf
      have hfk : ∃ k0, k0 ∈ f.keys ∧ VLe k0 k := by
        rcases List.mem_cons.mp hd with rfl | hd
        · exact ⟨k, hk, vTotOrd.refl _⟩
        · have hne := (g.chunk _ hb' f (by simp)).ne
          obtain ⟨k0, hk0⟩ := List.exists_mem_of_ne_nil _ hne
          have hso := g.sorted _ hb'
          rw [List.flatMap_cons, List.pairwise_append] at hso
          exact ⟨k0, hk0, hso.2.2 k0 hk0 k (List.mem_flatMap.mpr ⟨d, hd, hk⟩)⟩
      obtain ⟨k0, hk0, hk1⟩ := hfk
      exact vTotOrd.trans hf (vTotOrd.trans ((g.chunk _ hb' f (by simp)).lo k0 hk0) hk1)

theorem Inv.empty {o : Opts} (ho : o.chunkHeap.Ok Chunk.lo) {st : Ix} {p : List (List Chunk)} (h : Inv st p)
    (hp : o.chunkHeap.pop st.sorter = none) : p.flatten = [] := by
  have h1 := ho.empty _ hp
  have h2 := h.sorter
  rw [h1] at h2
  have h3 := List.nil_perm.mp h2
  rw [List.flatten_eq_nil_iff]
  intro b hb
  cases b with
  | nil => rfl
  | cons c t =>
    have : c ∈ p.filterMap List.head? := List.mem_filterMap.mpr ⟨_, hb, rfl⟩
    rw [h3] at this; cases this

theorem grow_spec {o : Opts} (ho : o.chunkHeap.Ok Chunk.lo) (n : Nat) (q : List Chunk) (st : Ix)
    (p : List (List Chunk)) (h : Inv st p) (g : Good o p) (hn : p.flatten.length ≤ n) :
    ∃ q2 p', (grow o n q st).1 = q ++ q2 ∧ Takes p q2 p' ∧ Inv (grow o n q st).2 p' ∧
      (grow o n q st).2.buf = st.buf ∧
      (p'.flatten = [] ∨ ∃ c l, o.chunkHeap.pop (grow o n q st).2.sorter = some (c, l) ∧ intersects o (q ++ q2) c = false) := by
  induction n generalizing q st p with
  | zero =>
    exact ⟨[], p, by simp [grow], rfl, h, rfl, .inl (List.length_eq_zero_iff.mp (by omega))⟩
  | succ n ih =>
    simp only [grow]
    cases hp : o.chunkHeap.pop st.sorter with
    | none => exact ⟨[], p, by simp, rfl, h, rfl, .inl (h.empty ho hp)⟩
    | some x =>
      obtain ⟨c, l⟩ := x
      simp only
      by_cases hi : intersects o q c = true
      · rw [if_pos hi]
        obtain ⟨t, h1, h2, h3, -⟩ := h.pop ho g hp
        have hc := (flatten_set_perm p c.stream c t h1).length_eq
        obtain ⟨q2, p', e1, e2, e3, e4, e5⟩ := ih (q ++ [c]) _ _ h2 (g.set h1) (by simp at hc hn ⊢; omega)
        refine ⟨c :: q2, p', by rw [e1]; simp, ⟨t, h1, e2⟩, e3, e4.trans h3, ?_⟩
        rcases e5 with e5 | ⟨c', l', e5, e6⟩
        · exact .inl e5
        · exact .inr ⟨c', l', e5, by simpa using e6⟩
      · rw [if_neg hi]
        exact ⟨[], p, by simp, rfl, h, rfl, .inr ⟨c, l, hp, by simpa using hi⟩⟩

/-! ### the queue and what is left -/

theorem queueMin_le {n : Nat} (c : Chunk) (q : List Chunk) (h : ∀ d ∈ c :: q, d.lo.length = n) :
    VLe (queueMin n (c :: q)) c.lo := by
  have key : ∀ (q : List Chunk) (m : Key), (∀ d ∈ q, d.lo.length = n) →
      VLe (q.foldl (fun m r => if vecLe (r.lo.take n) m then r.lo else m) m) m := by
    intro q
    induction q with
    | nil => intro m _; exact vTotOrd.refl _
    | cons d q ih =>
      intro m hm
      simp only [List.foldl_cons]
      have hd : d.lo.take n = d.lo := List.take_of_length_le (Nat.le_of_eq (hm d (by simp)))
      refine vTotOrd.trans (ih _ (fun e he => hm e (by simp [he]))) ?_
      rw [hd]
      split
      · rename_i h; exact h
      · exact vTotOrd.refl _
  have hc : c.lo.take n = c.lo := List.take_of_length_le (Nat.le_of_eq (h c (by simp)))
  have := key q (c.lo.take n) (fun d hd => h d (by simp [hd]))
  rw [hc] at this
  simpa [queueMin, hc] using this

theorem le_queueMax {n : Nat} (q : List Chunk) (h : ∀ d ∈ q, d.hi.length = n) : ∀ d ∈ q, VLe d.hi (queueMax n q) := by
  have key : ∀ (q : List Chunk) (m : Key), (∀ d ∈ q, d.hi.length = n) →
      VLe m (q.foldl (fun m r => if vecLe m (r.hi.take n) then r.hi else m) m) ∧
      ∀ d ∈ q, VLe d.hi (q.foldl (fun m r => if vecLe m (r.hi.take n) then r.hi else m) m) := by
    intro q
    induction q with
    | nil => intro m _; exact ⟨vTotOrd.refl _, by simp⟩
    | cons d q ih =>
      intro m hm
      simp only [List.foldl_cons]
      have hd : d.hi.take n = d.hi := List.take_of_length_le (Nat.le_of_eq (hm d (by simp)))
      obtain ⟨h1, h2⟩ := ih (if vecLe m (d.hi.take n) = true then d.hi else m) (fun e he => hm e (by simp [he]))
      have h3 : VLe m (if vecLe m (d.hi.take n) = true then d.hi else m) ∧
          VLe d.hi (if vecLe m (d.hi.take n) = true then d.hi else m) := by
        rw [hd]
        split
        · rename_i h; exact ⟨h, vTotOrd.refl _⟩
        · rename_i h
          refine ⟨vTotOrd.refl _, ?_⟩
          rcases vTotOrd.total m d.hi with h' | h'
          · exact absurd h' h
          · exact h'
      refine ⟨vTotOrd.trans h3.1 h1, ?_⟩
      intro e he
      rcases List.mem_cons.mp he with rfl | he
      · exact vTotOrd.trans h3.2 h1
      · exact h2 e he
  cases q with
  | nil => intro d hd; cases hd
  | cons c q =>
    have hc : c.hi.take n = c.hi := List.take_of_length_le (Nat.le_of_eq (h c (by simp)))
    obtain ⟨h1, h2⟩ := key q (c.hi.take n) (fun d hd => h d (by simp [hd]))
    intro d hd
    simp only [queueMax]
    rcases List.mem_cons.mp hd with rfl | hd
    · rw [hc] at h1 ⊢; exact h1
    · exact h2 d hd

/-- Every key of the queue is at most every key that is left. -/
def Sep (q : List Chunk) (p : List (List Chunk)) : Prop :=
  ∀ c ∈ q, ∀ k ∈ c.keys, ∀ d ∈ p.flatten, ∀ k' ∈ d.keys, VLe k k'

/-! the same for a replacing table, which compares the first column only -/

def hd (k : Key) : Int := k.headD 0

theorem VLe.hd {a b : Key} (h : VLe a b) (ha : a ≠ []) : b ≠ [] ∧ hd a ≤ hd b := by
  cases a with
  | nil => exact absurd rfl ha
  | cons x a =>
    cases b with
    | nil => simp [VLe, vecLe] at h
    | cons y b =>
      refine ⟨by simp, ?_⟩
      simp only [VLe, vecLe, Bool.or_eq_true, decide_eq_true_eq, Bool.and_eq_true] at h
      simp only [PMerge.hd, List.headD_cons]
      omega

theorem VLe.of_hd {a b : Key} (hb : b ≠ []) (h : PMerge.hd a < PMerge.hd b) : VLe a b := by
  cases a with
  | nil => rfl
  | cons x a =>
    cases b with
    | nil => exact absurd rfl hb
    | cons y b =>
      simp only [PMerge.hd, List.headD_cons] at h
      simp [VLe, vecLe, h]

theorem take_one {a : Key} (ha : a ≠ []) : a.take 1 = [hd a] := by
  cases a with
  | nil => exact absurd rfl ha
  | cons x a => rfl

theorem single_le {m : Key} (hm : m ≠ []) (x : Int) : vecLe [x] m = true ↔ x ≤ hd m := by
  cases m with
  | nil => exact absurd rfl hm
  | cons y m => simp [vecLe, hd]; omega

theorem not_le_single {m : Key} (hm : m ≠ []) {x : Int} (h : vecLe m [x] = false) : x ≤ hd m := by
  cases m with
  | nil => exact absurd rfl hm
  | cons y m =>
    simp only [vecLe, Bool.or_eq_false_iff, decide_eq_false_iff_not] at h
    simp only [hd, List.headD_cons]
    omega

theorem le_single {m : Key} (hm : m ≠ []) {x : Int} (h : vecLe m [x] = true) : hd m ≤ x := by
  cases m with
  | nil => exact absurd rfl hm
  | cons y m =>
    simp only [vecLe, Bool.or_eq_true, decide_eq_true_eq, Bool.and_eq_true] at h
    simp only [hd, List.headD_cons]
    omega

theorem queueMin_one (c : Chunk) (q : List Chunk) (h : ∀ d ∈ c :: q, d.lo ≠ []) :
    queueMin 1 (c :: q) ≠ [] ∧ hd (queueMin 1 (c :: q)) ≤ hd c.lo := by
  have key : ∀ (q : List Chunk) (m : Key), m ≠ [] → (∀ d ∈ q, d.lo ≠ []) →
      q.foldl (fun m r => if vecLe (r.lo.take 1) m then r.lo else m) m ≠ [] ∧
      hd (q.foldl (fun m r => if vecLe (r.lo.take 1) m then r.lo else m) m) ≤ hd m := by
    intro q
    induction q with
    | nil => intro m hm _; exact ⟨hm, Int.le_refl _⟩
    | cons d q ih =>
      intro m hm hq
      have hd' := hq d (by simp)
      simp only [List.foldl_cons, take_one hd']
      by_cases hv : vecLe [hd d.lo] m = true
      · rw [if_pos hv]
        obtain ⟨h1, h2⟩ := ih d.lo hd' (fun e he => hq e (by simp [he]))
        exact ⟨h1, Int.le_trans h2 ((single_le hm _).mp hv)⟩
      · rw [if_neg hv]
        exact ih m hm (fun e he => hq e (by simp [he]))
  have hc := h c (by simp)
  have := key q (c.lo.take 1) (by rw [take_one hc]; simp) (fun d hd => h d (by simp [hd]))
  refine ⟨this.1, Int.le_trans this.2 ?_⟩
  rw [take_one hc]; exact Int.le_refl _

theorem queueMax_one (q : List Chunk) (hne : q ≠ []) (h : ∀ d ∈ q, d.hi ≠ []) :
    queueMax 1 q ≠ [] ∧ ∀ d ∈ q, hd d.hi ≤ hd (queueMax 1 q) := by
  have key : ∀ (q : List Chunk) (m : Key), m ≠ [] → (∀ d ∈ q, d.hi ≠ []) →
      q.foldl (fun m r => if vecLe m (r.hi.take 1) then r.hi else m) m ≠ [] ∧
      hd m ≤ hd (q.foldl (fun m r => if vecLe m (r.hi.take 1) then r.hi else m) m) ∧
      ∀ d ∈ q, hd d.hi ≤ hd (q.foldl (fun m r => if vecLe m (r.hi.take 1) then r.hi else m) m) := by
    intro q
    induction q with
    | nil => intro m hm _; exact ⟨hm, Int.le_refl _, by simp⟩
    | cons d q ih =>
      intro m hm hq
      have hd' := hq d (by simp)
      simp only [List.foldl_cons, take_one hd']
      by_cases hv : vecLe m [hd d.hi] = true
      · rw [if_pos hv]
        obtain ⟨h1, h2, h3⟩ := ih d.hi hd' (fun e he => hq e (by simp [he]))
        refine ⟨h1, Int.le_trans (le_single hm hv) h2, ?_⟩
        intro e he
        rcases List.mem_cons.mp he with rfl | he
        · exact h2
        · exact h3 e he
      · rw [if_neg hv]
        obtain ⟨h1, h2, h3⟩ := ih m hm (fun e he => hq e (by simp [he]))
        refine ⟨h1, h2, ?_⟩
        intro e he
        rcases List.mem_cons.mp he with rfl | he
        · exact Int.le_trans (not_le_single hm (by simpa using hv)) h2
        · exact h3 e he
  cases q with
  | nil => exact absurd rfl hne
  | cons c q =>
    have hc := h c (by simp)
    obtain ⟨h1, h2, h3⟩ := key q (c.hi.take 1) (by rw [take_one hc]; simp) (fun d hd => h d (by simp [hd]))
    refine ⟨h1, ?_⟩
    intro d hd
    rcases List.mem_cons.mp hd with rfl | hd
    · rw [take_one hc] at h2; simpa [queueMax, PMerge.hd, take_one hc] using h2
    · exact h3 d hd

/-- One round: the queue is taken, and separates. -/
theorem round_spec {o : Opts} (ho : o.Ok) {st : Ix} {p : List (List Chunk)} (h : Inv st p) (g : Good o p)
    {c : Chunk} {l : List Chunk} (hp : o.chunkHeap.pop st.sorter = some (c, l)) (n : Nat) (hn : p.flatten.length ≤ n) :
    ∃ q p', (grow o n [c] (({ st with sorter := l } : Ix).advance o c.stream)).1 = q ∧ q ≠ [] ∧ Takes p q p' ∧
      Inv (grow o n [c] (({ st with sorter := l } : Ix).advance o c.stream)).2 p' ∧
      (grow o n [c] (({ st with sorter := l } : Ix).advance o c.stream)).2.buf = st.buf ∧ Sep q p' := by
  obtain ⟨t, h1, h2, h3, h4⟩ := h.pop ho.chunkHeap g hp
  have hc := (flatten_set_perm p c.stream c t h1).length_eq
  obtain ⟨q2, p', e1, e2, e3, e4, e5⟩ := grow_spec ho.chunkHeap n [c] _ _ h2 (g.set h1) (by simp at hc hn ⊢; omega)
  have ht : Takes p (c :: q2) p' := ⟨t, h1, e2⟩
  have gp := g.takes ht
  refine ⟨c :: q2, p', by rw [e1]; rfl, by simp, ht, e3, e4.trans h3, ?_⟩
  have hok : ∀ d, (d ∈ c :: q2 ∨ d ∈ p'.flatten) → d.Ok o.cols := by
    intro d hd
    obtain ⟨b, hb, hdb⟩ := List.mem_flatten.mp (ht.mem hd)
    exact g.chunk b hb d hdb
  intro a ha k hk d hd k' hk'
  rcases e5 with e5 | ⟨f, l', e5, e6⟩
  · rw [e5] at hd; cases hd
  · obtain ⟨t', f1, -, -, f2⟩ := e3.pop ho.chunkHeap gp e5
    have hf : f ∈ p'.flatten := List.mem_flatten.mpr ⟨_, List.mem_of_getElem? f1, by simp⟩
    have hfok := hok f (.inr hf)
    obtain ⟨kf, hkf⟩ := List.exists_mem_of_ne_nil _ hfok.ne
    cases hrep : o.replacing with
    | false =>
      have hlen1 : f.hi.take o.cols = f.hi := List.take_of_length_le (Nat.le_of_eq hfok.hilen)
      have hlen2 : f.lo.take o.cols = f.lo := List.take_of_length_le (Nat.le_of_eq hfok.lolen)
      have hmin : VLe (queueMin o.cols (c :: q2)) f.hi := by
        refine vTotOrd.trans (queueMin_le c q2 (fun d hd => (hok d (.inl hd)).lolen)) ?_
        obtain ⟨b, hb, hfb⟩ := List.mem_flatten.mp (ht.mem (.inr hf))
        exact vTotOrd.trans (h4 b hb f hfb kf hkf) (hfok.hi kf hkf)
      have hmax : ¬ VLe f.lo (queueMax o.cols (c :: q2)) := by
        intro hm
        simp only [intersects, hrep, Bool.false_eq_true, if_false, hlen1, hlen2, List.cons_append, List.nil_append] at e6
        have hm' : vecLe f.lo (queueMax o.cols (c :: q2)) = true := hm
        have hmin' : vecLe (queueMin o.cols (c :: q2)) f.hi = true := hmin
        rw [hm', hmin'] at e6
        cases e6
      have hmf : VLe (queueMax o.cols (c :: q2)) f.lo := by
        rcases vTotOrd.total (queueMax o.cols (c :: q2)) f.lo with h' | h'
        · exact h'
        · exact absurd h' hmax
      obtain ⟨b, hb, hdb⟩ := List.mem_flatten.mp hd
      have hkd : VLe f.lo k' := f2 b hb d hdb k' hk'
      have hka : VLe k (queueMax o.cols (c :: q2)) :=
        vTotOrd.trans ((hok a (.inl ha)).hi k hk) (le_queueMax _ (fun d hd => (hok d (.inl hd)).hilen) a ha)
      exact vTotOrd.trans hka (vTotOrd.trans hmf hkd)
    | true =>
      obtain ⟨hcols, hnd, hex⟩ : o.cols = 2 ∧ ((p.flatten.flatMap Chunk.keys).map List.head?).Nodup ∧
          ∀ c ∈ p.flatten, ∃ k ∈ c.keys, k.head? = c.lo.head? := by
        rcases g.plain with hp' | hp'
        · rw [hrep] at hp'; cases hp'
        · exact hp'
      have hlo : ∀ d, (d ∈ c :: q2 ∨ d ∈ p'.flatten) → d.lo ≠ [] ∧ d.hi ≠ [] := by
        intro d hd
        have h5 := (hok d hd).lolen
        have h6 := (hok d hd).hilen
        rw [hcols] at h5 h6
        exact ⟨List.ne_nil_of_length_eq_add_one h5, List.ne_nil_of_length_eq_add_one h6⟩
      have hfhi := (hlo f (.inr hf)).2
      have hflo := (hlo f (.inr hf)).1
      obtain ⟨m1, m2⟩ := queueMin_one c q2 (fun d hd => (hlo d (.inl hd)).1)
      obtain ⟨x1, x2⟩ := queueMax_one (c :: q2) (by simp) (fun d hd => (hlo d (.inl hd)).2)
      simp only [intersects, hrep, if_true, hcols, Nat.reduceSub, List.cons_append, List.nil_append, take_one hfhi,
        take_one hflo, Bool.and_eq_false_iff] at e6
      have hclo : VLe c.lo kf := by
        obtain ⟨b, hb, hfb⟩ := List.mem_flatten.mp (ht.mem (.inr hf))
        exact h4 b hb f hfb kf hkf
      obtain ⟨y1, y2⟩ := hclo.hd (hlo c (.inl (by simp))).1
      obtain ⟨y3, y4⟩ := (hfok.hi kf hkf).hd y1
      rcases e6 with e6 | e6
      · -- then the first chunk and `f` share a first column
        exfalso
        have y5 := not_le_single m1 e6
        obtain ⟨k1, hk1, hk2⟩ := hex c (ht.mem (.inl (by simp)))
        have hnd' := ((ht.perm.flatMap_right Chunk.keys).map List.head?).nodup_iff.mp hnd
        rw [List.flatMap_append, List.map_append, List.nodup_append] at hnd'
        refine hnd'.2.2 k1.head? (List.mem_map_of_mem (List.mem_flatMap.mpr ⟨c, by simp, hk1⟩))
          kf.head? (List.mem_map_of_mem (List.mem_flatMap.mpr ⟨f, hf, hkf⟩)) ?_
        rw [hk2]
        have e : PMerge.hd c.lo = PMerge.hd kf := by omega
        cases hcl : c.lo with
        | nil => exact absurd hcl (hlo c (.inl (by simp))).1
        | cons u us =>
          cases hkl : kf with
          | nil => exact absurd hkl y1
          | cons w ws =>
            rw [hcl, hkl] at e
            simpa [PMerge.hd] using e
      · have y6 : PMerge.hd (queueMax 1 (c :: q2)) < PMerge.hd f.lo := by
          apply Int.lt_of_not_ge
          intro hge
          rw [(single_le x1 _).mpr hge] at e6
          cases e6
        obtain ⟨b, hb, hdb⟩ := List.mem_flatten.mp hd
        obtain ⟨z1, z2⟩ := (f2 b hb d hdb k' hk').hd hflo
        have hak : k ≠ [] := (((hok a (.inl ha)).lo k hk).hd (hlo a (.inl ha)).1).1
        obtain ⟨-, z3⟩ := ((hok a (.inl ha)).hi k hk).hd hak
        have z4 := x2 a ha
        exact VLe.of_hd z1 (by omega)

/-- Several rounds: from the streams `p` the chunks `ms` are emitted, `p'` is left. -/
inductive Emits (o : Opts) : List (List Chunk) → List MChunk → List (List Chunk) → Prop where
  | nil (p) : Emits o p [] p
  | round {p p1 p2 q ms1 ms2} : q ≠ [] → Takes p q p1 → Sep q p1 → emit o q = some ms1 → Emits o p1 ms2 p2 →
      Emits o p (ms1 ++ ms2) p2

theorem Emits.trans {o : Opts} {p p1 p2 : List (List Chunk)} {m1 m2 : List MChunk} (h1 : Emits o p m1 p1)
    (h2 : Emits o p1 m2 p2) : Emits o p (m1 ++ m2) p2 := by
  induction h1 with
  | nil p => exact h2
  | round a b c d e ih => rw [List.append_assoc]; exact .round a b c d (ih h2)

theorem Emits.count_le {o : Opts} {p p' : List (List Chunk)} {ms : List MChunk} (h : Emits o p ms p') :
    p'.flatten.length ≤ p.flatten.length := by
  induction h with
  | nil p => exact Nat.le_refl _
  | round a b c d e ih => have := b.count; omega

theorem Emits.count_lt {o : Opts} {p p' : List (List Chunk)} {ms : List MChunk} (h : Emits o p ms p') (hne : ms ≠ []) :
    p'.flatten.length < p.flatten.length := by
  cases h with
  | nil p => exact absurd rfl hne
  | round a b c d e =>
    have h1 := b.count
    have h2 := e.count_le
    have : 0 < _ := List.length_pos_iff.mpr a
    omega

theorem Emits.good {o : Opts} {p p' : List (List Chunk)} {ms : List MChunk} (h : Emits o p ms p') (g : Good o p) :
    Good o p' := by
  induction h with
  | nil p => exact g
  | round a b c d e ih => exact ih (g.takes b)

theorem Emits.ok {o : Opts} (ho : o.Ok) {p p' : List (List Chunk)} {ms : List MChunk} (h : Emits o p ms p')
    (g : Good o p) : ∀ m ∈ ms, m.Ok := by
  induction h with
  | nil p => intro m hm; cases hm
  | @round p p1 p2 q ms1 ms2 a b c d e ih =>
    intro m hm
    rcases List.mem_append.mp hm with hm | hm
    · have hq : ∀ c ∈ q, c.Ok o.cols := by
        intro c hc
        obtain ⟨b', hb', hcb⟩ := List.mem_flatten.mp (b.mem (.inl hc))
        exact g.chunk b' hb' c hcb
      obtain ⟨ms, pops, h1, -, -, -, -, h2, -⟩ := emit_plain ho q hq (g.qplain b)
      rw [d] at h1
      obtain rfl := Option.some.inj h1
      exact h2 m hm
    · exact ih (g.takes b) m hm

theorem nextIndexChunk_spec {o : Opts} (ho : o.Ok) (n : Nat) (st : Ix) (p : List (List Chunk)) (h : Inv st p)
    (g : Good o p) (hn : p.flatten.length < n) (hb : ∀ m ∈ st.buf, m.Ok) :
    ∃ r st' p' ms, nextIndexChunk o n st = some (r, st') ∧ Emits o p ms p' ∧ Inv st' p' ∧ st'.buf = [] ∧
      ((r = none ∧ st.buf ++ ms = [] ∧ p'.flatten = []) ∨ (r = some (st.buf ++ ms) ∧ st.buf ++ ms ≠ [])) := by
  induction n generalizing st p with
  | zero => omega
  | succ n ih =>
    simp only [nextIndexChunk]
    cases hp : o.chunkHeap.pop st.sorter with
    | none =>
      refine ⟨tryDrain 1 st, { st with buf := [] }, p, [], rfl, .nil p, ⟨h.sorter, h.rest⟩, rfl, ?_⟩
      rw [List.append_nil]
      by_cases hbuf : st.buf = []
      · left
        refine ⟨?_, hbuf, h.empty ho.chunkHeap hp⟩
        simp [tryDrain, values, hbuf]
      · right
        refine ⟨?_, hbuf⟩
        have hv : ¬ values st.buf < 1 := by
          cases hc : st.buf with
          | nil => exact absurd hc hbuf
          | cons m ms =>
            have := (hb m (by rw [hc]; simp)).ne
            have := List.length_pos_iff.mpr this
            simp only [values, List.map_cons, List.sum_cons]
            omega
        have hne : st.buf.isEmpty = false := by simpa using hbuf
        simp [tryDrain, hv, hne]
    | some x =>
      obtain ⟨c, l⟩ := x
      obtain ⟨q, p1, e1, e2, e3, e4, e5, e6⟩ := round_spec ho h g hp st.left (Nat.le_of_eq h.left.symm)
      have hq : ∀ c ∈ q, c.Ok o.cols := by
        intro c hc
        obtain ⟨b', hb', hcb⟩ := List.mem_flatten.mp (e3.mem (.inl hc))
        exact g.chunk b' hb' c hcb
      obtain ⟨ms, pops, f1, -, -, -, -, f2, -⟩ := emit_plain ho q hq (g.qplain e3)
      have hcount := e3.count
      have hqpos := List.length_pos_iff.mpr e2
      simp only [e1, f1, e5]
      have hE : Emits o p ms p1 := by
        have := Emits.round e2 e3 e6 f1 (.nil p1)
        simpa using this
      cases hd : tryDrain o.rowLimit
          { (grow o st.left [c] (({ st with sorter := l } : Ix).advance o c.stream)).2 with buf := st.buf ++ ms } with
      | some b =>
        have hb' : b = st.buf ++ ms ∧ st.buf ++ ms ≠ [] := by
          simp only [tryDrain] at hd
          split at hd
          · cases hd
          · split at hd
            · cases hd
            · rename_i hne
              exact ⟨(Option.some.inj hd).symm, by simpa using hne⟩
        exact ⟨_, _, p1, ms, rfl, hE, ⟨e4.sorter, e4.rest⟩, rfl, .inr ⟨by rw [hb'.1], hb'.2⟩⟩
      | none =>
        obtain ⟨r, st', p', ms', g1, g2, g3, g4, g5⟩ := ih
          { (grow o st.left [c] (({ st with sorter := l } : Ix).advance o c.stream)).2 with buf := st.buf ++ ms } p1
          ⟨e4.sorter, e4.rest⟩ (g.takes e3) (by omega)
          (by
            intro m hm
            rcases List.mem_append.mp hm with hm | hm
            · exact hb m hm
            · exact f2 m hm)
        refine ⟨r, st', p', ms ++ ms', g1, hE.trans g2, g3, g4, ?_⟩
        simpa [List.append_assoc] using g5

theorem rowGroups_spec {o : Opts} (ho : o.Ok) (n : Nat) (st : Ix) (p : List (List Chunk)) (h : Inv st p)
    (g : Good o p) (hn : p.flatten.length < n) (hb : st.buf = []) :
    ∃ gs p', rowGroups o n st = some gs ∧ (∀ x ∈ gs, x ≠ []) ∧ Emits o p gs.flatten p' ∧ p'.flatten = [] := by
  induction n generalizing st p with
  | zero => omega
  | succ n ih =>
    obtain ⟨r, st', p1, ms, h1, h2, h3, h4, h5⟩ := nextIndexChunk_spec ho (st.left + 1) st p h g
      (by rw [h.left]; omega) (by rw [hb]; intro m hm; cases hm)
    rw [hb, List.nil_append] at h5
    simp only [rowGroups, h1]
    rcases h5 with ⟨rfl, h5, h6⟩ | ⟨rfl, h5⟩
    · subst h5
      exact ⟨[], p1, rfl, by simp, h2, h6⟩
    · obtain ⟨gs, p2, g1, g2, g3, g4⟩ := ih st' p1 h3 (h2.good g) (by have := h2.count_lt h5; omega) h4
      refine ⟨ms :: gs, p2, by simp [g1], ?_, ?_, g4⟩
      · intro x hx
        rcases List.mem_cons.mp hx with rfl | hx
        · exact h5
        · exact g2 x hx
      · simpa using h2.trans g3

theorem filesOf_spec (full : List (List MChunk) → Bool) (gs acc : List (List MChunk)) :
    (filesOf full gs acc).flatten = acc ++ gs ∧ ∀ f ∈ filesOf full gs acc, f ≠ [] := by
  induction gs generalizing acc with
  | nil =>
    simp only [filesOf]
    split
    · rename_i h
      have h : acc = [] := by simpa using h
      simp [h]
    · rename_i h
      have h : acc ≠ [] := by simpa using h
      simp [h]
  | cons x gs ih =>
    simp only [filesOf]
    split
    · obtain ⟨h1, h2⟩ := ih []
      refine ⟨by simp [h1], ?_⟩
      intro f hf
      rcases List.mem_cons.mp hf with rfl | hf
      · simp
      · exact h2 f hf
    · obtain ⟨h1, h2⟩ := ih (acc ++ [x])
      exact ⟨by simp [h1], h2⟩

/-- The sorter at the start. -/
theorem init_inv {o : Opts} (ho : o.chunkHeap.Ok Chunk.lo) (p : List (List Chunk)) : Inv (Ix.init o p) p ∧ (Ix.init o p).buf = [] := by
  have key : ∀ n, n ≤ p.length →
      let st := (List.range n).foldl (fun st s => st.advance o s) (⟨p, [], []⟩ : Ix)
      st.sorter.Perm ((p.take n).filterMap List.head?) ∧ st.rest = (p.take n).map List.tail ++ p.drop n ∧ st.buf = [] := by
    intro n
    induction n with
    | zero => intro _; simp
    | succ n ih =>
      intro hn
      obtain ⟨h1, h2, h3⟩ := ih (by omega)
      rw [List.range_succ, List.foldl_append]
      simp only [List.foldl_cons, List.foldl_nil]
      generalize (List.range n).foldl (fun st s => st.advance o s) (⟨p, [], []⟩ : Ix) = st at h1 h2 h3 ⊢
      have hlt : n < p.length := by omega
      have ht : p.take (n + 1) = p.take n ++ [p[n]] := by rw [List.take_add_one]; simp [hlt]
      have hd : p.drop n = p[n] :: p.drop (n + 1) := (List.getElem_cons_drop hlt).symm
      have hr : st.rest[n]? = some p[n] := by
        rw [h2, hd, List.getElem?_append_right (by simp; omega)]
        simp [Nat.min_eq_left (Nat.le_of_lt hlt)]
      have hset : ∀ y, st.rest.set n y =
          (p.take n).map List.tail ++ y :: p.drop (n + 1) := by
        intro y
        rw [h2, List.set_append_right _ _ (by simp; omega)]
        simp only [List.length_map, List.length_take, Nat.min_eq_left (Nat.le_of_lt hlt), Nat.sub_self]
        rw [hd]; rfl
      simp only [Ix.advance, hr]
      cases hc : p[n] with
      | nil =>
        simp only
        refine ⟨?_, ?_, h3⟩
        · rw [ht, hc, List.filterMap_append]
          have : [([] : List Chunk)].filterMap List.head? = [] := rfl
          rw [this, List.append_nil]; exact h1
        · rw [ht, hc, h2, hd, hc]; simp
      | cons c t =>
        simp only
        refine ⟨?_, ?_, h3⟩
        · rw [ht, hc, List.filterMap_append]
          refine (ho.push _ c).trans ?_
          refine (h1.cons c).trans ?_
          have : [c :: t].filterMap List.head? = [c] := rfl
          rw [this]
          exact (List.perm_append_singleton c _).symm
        · rw [hset, ht, hc]; simp
  obtain ⟨h1, h2, h3⟩ := key p.length (Nat.le_refl _)
  refine ⟨⟨?_, ?_⟩, h3⟩
  · simpa [Ix.init] using h1
  · simpa [Ix.init] using h2

/-- The index pass. -/
theorem indexFiles_spec {o : Opts} (ho : o.Ok) (p : List (List Chunk)) (g : Good o p) :
    ∃ files p', indexFiles o p = some files ∧ (∀ f ∈ files, f ≠ []) ∧ Emits o p files.flatten p' ∧ p'.flatten = [] := by
  obtain ⟨h1, h2⟩ := init_inv ho.chunkHeap p
  obtain ⟨gs, p', g1, g2, g3, g4⟩ := rowGroups_spec ho (p.flatten.length + 1) _ p h1 g (by omega) h2
  obtain ⟨f1, f2⟩ := filesOf_spec o.full gs []
  rw [List.nil_append] at f1
  refine ⟨(filesOf o.full gs []).map List.flatten, p', by simp only [indexFiles, g1, Option.map_some], ?_, ?_, g4⟩
  · intro f hf
    obtain ⟨x, hx, rfl⟩ := List.mem_map.mp hf
    obtain ⟨y, hy⟩ := List.exists_mem_of_ne_nil _ (f2 x hx)
    have hyg : y ∈ gs := by rw [← f1]; exact List.mem_flatten.mpr ⟨x, hx, hy⟩
    obtain ⟨z, hz⟩ := List.exists_mem_of_ne_nil _ (g2 y hyg)
    exact List.ne_nil_of_mem (List.mem_flatten.mpr ⟨y, hy, hz⟩)
  · have : ((filesOf o.full gs []).map List.flatten).flatten = gs.flatten := by
      rw [← List.flatten_flatten, f1]
    rw [this]; exact g3

end OptiPrism.Storage.PMerge
