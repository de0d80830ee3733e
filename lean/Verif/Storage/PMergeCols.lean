import Verif.Storage.PMergeIndex

/-!
# The merge of part files: data columns

Helper lemmas for `PMergeProps`: the order of the index pass drains the streams, and each data column follows that order.
-/

namespace OptiPrism.Storage.PMerge

/-! ### the order of all rows -/

def keysOf (b : List Chunk) : List Key := b.flatMap Chunk.keys

theorem pushed_set_prefix {K : Type} (x t : List K) (rem : List (List K)) (s : Nat) (h : rem[s]? = some (x ++ t)) :
    (pushed rem).Perm (x.map (fun k => (s, k)) ++ pushed (rem.set s t)) := by
  induction x generalizing rem with
  | nil =>
    have : rem.set s t = rem := by
      apply List.ext_getElem?
      intro j
      by_cases hj : s = j
      · subst hj
        have hlt : s < rem.length := (List.getElem?_eq_some_iff.mp h).1
        rw [h]; simp [hlt]
      · rw [List.getElem?_set_ne hj]
    rw [this]; exact List.Perm.refl _
  | cons k x ih =>
    have h1 := pushed_set_perm rem s k (x ++ t) (by simpa using h)
    have hlt : s < rem.length := (List.getElem?_eq_some_iff.mp h).1
    have h2 := ih (rem.set s (x ++ t)) (by simp [hlt])
    rw [List.set_set] at h2
    exact h1.trans (h2.cons _)

theorem Takes.pushed {p p' : List (List Chunk)} {q : List Chunk} (h : Takes p q p') :
    (pushed (p.map keysOf)).Perm (queueRows q ++ Storage.pushed (p'.map keysOf)) := by
  induction q generalizing p with
  | nil => rw [h]; exact List.Perm.refl _
  | cons c q ih =>
    obtain ⟨t, h1, h2⟩ := h
    have h3 := pushed_set_prefix c.keys (keysOf t) (p.map keysOf) c.stream (by rw [List.getElem?_map, h1]; rfl)
    have h4 := ih h2
    rw [List.map_set] at h4
    refine h3.trans ?_
    simp only [queueRows, List.flatMap_cons, List.append_assoc]
    exact h4.append_left _

theorem queue_ok {o : Opts} {p p' : List (List Chunk)} {q : List Chunk} (g : Good o p) (h : Takes p q p') : ∀ c ∈ q, c.Ok o.cols := by
  intro c hc
  obtain ⟨b, hb, hcb⟩ := List.mem_flatten.mp (h.mem (.inl hc))
  exact g.chunk b hb c hcb

theorem Emits.drain {o : Opts} (ho : o.Ok) {p p' : List (List Chunk)} {ms : List MChunk} (h : Emits o p ms p')
    (g : Good o p) :
    ∃ pops : List (Nat × Key), ms.flatMap MChunk.keys = pops.map Prod.snd ∧
      (ms.flatMap MChunk.order = pops.map fun p => some p.1) ∧
      (pushed (p.map keysOf)).Perm (pops ++ pushed (p'.map keysOf)) ∧ SortedBy VLe Prod.snd pops := by
  induction h with
  | nil p => exact ⟨[], rfl, rfl, List.Perm.refl _, List.Pairwise.nil⟩
  | @round p p1 p2 q ms1 ms2 a b c d e ih =>
    obtain ⟨pops2, i1, i2, i3, i4⟩ := ih (g.takes b)
    obtain ⟨ms, pops1, h1, h2, h3, h4, h5, -, -⟩ := emit_plain ho q (queue_ok g b) (g.qplain b)
    rw [d] at h1
    obtain rfl := Option.some.inj h1
    refine ⟨pops1 ++ pops2, by simp [h2, i1], by simp [h3, i2], ?_, ?_⟩
    · refine b.pushed.trans ?_
      rw [List.append_assoc]
      exact (h4.symm.append_right _).trans (i3.append_left _)
    · refine List.pairwise_append.mpr ⟨h5, i4, ?_⟩
      intro x hx y hy
      have hx' := h4.mem_iff.mp hx
      obtain ⟨cx, hcx, hkx⟩ := List.mem_flatMap.mp hx'
      obtain ⟨kx, hkx', rfl⟩ := List.mem_map.mp hkx
      have hy' := i3.mem_iff.mpr (List.mem_append_left _ hy)
      rw [mem_pushed] at hy'
      obtain ⟨ky, hky, hyk⟩ := hy'
      rw [List.getElem?_map, Option.map_eq_some_iff] at hky
      obtain ⟨bb, hbb, rfl⟩ := hky
      obtain ⟨cy, hcy, hyk⟩ := List.mem_flatMap.mp hyk
      exact c cx hcx kx hkx' cy (List.mem_flatten.mpr ⟨bb, List.mem_of_getElem? hbb, hcy⟩) y.2 hyk

/-! ### readers -/

variable {V : Type}

def Reader.pullN : Nat → Reader V → Option (List V × Reader V)
  | 0, r => some ([], r)
  | n + 1, r =>
    match r.pull with
    | none => none
    | some (v, r) => (Reader.pullN n r).map fun x => (v :: x.1, x.2)

theorem Reader.pullN_add (m n : Nat) (r : Reader V) (x : List V) (r1 : Reader V) (h : r.pullN m = some (x, r1)) :
    r.pullN (m + n) = (r1.pullN n).map fun y => (x ++ y.1, y.2) := by
  induction m generalizing r x with
  | zero =>
    simp only [Reader.pullN, Option.some.injEq, Prod.mk.injEq] at h
    obtain ⟨rfl, rfl⟩ := h
    simp
  | succ m ih =>
    rw [Nat.succ_add_eq_add_succ, Nat.add_succ]
    simp only [Reader.pullN] at h ⊢
    cases hp : r.pull with
    | none => rw [hp] at h; cases h
    | some y =>
      rw [hp] at h
      simp only [Option.map_eq_some_iff, Prod.mk.injEq] at h
      obtain ⟨z, hz, rfl, rfl⟩ := h
      simp only [ih y.2 z.1 hz, Option.map_map]
      rfl

/-- A page being read. -/
theorem pullN_page (gs : List (List (List V))) (buf : List (List V)) (cur : List V) (i n : Nat) (hn : n = cur.length - i)
    (hi : i < cur.length) :
    Reader.pullN n (⟨gs, buf, some cur, i⟩ : Reader V) = some (cur.drop i, ⟨gs, buf, none, 0⟩) := by
  induction n generalizing i with
  | zero => omega
  | succ n ih =>
    have hd : cur.drop i = cur[i] :: cur.drop (i + 1) := (List.getElem_cons_drop hi).symm
    simp only [Reader.pullN, Reader.pull, List.getElem?_eq_getElem hi]
    by_cases hl : i = cur.length - 1
    · have hn0 : n = 0 := by omega
      subst hn0
      rw [if_pos hl]
      simp only [Reader.pullN, Option.map_some]
      rw [hd, List.drop_of_length_le (by omega : cur.length ≤ i + 1)]
    · rw [if_neg hl]
      simp only [ih (i + 1) (by omega) (by omega), Option.map_some]
      rw [hd]

theorem pull_loaded (gs : List (List (List V))) (p : List V) (ps : List (List V)) (i : Nat) :
    (⟨gs, p :: ps, none, i⟩ : Reader V).pull = (⟨gs, ps, some p, 0⟩ : Reader V).pull := rfl

theorem pull_group (gs : List (List (List V))) (p : List V) (ps : List (List V)) (i : Nat) :
    (⟨(p :: ps) :: gs, [], none, i⟩ : Reader V).pull = (⟨gs, ps, some p, 0⟩ : Reader V).pull := rfl

theorem pullN_congr {r r' : Reader V} (h : r.pull = r'.pull) (n : Nat) : r.pullN (n + 1) = r'.pullN (n + 1) := by
  simp only [Reader.pullN, h]

theorem pullN_buf (gs : List (List (List V))) (ps : List (List V)) (h : ∀ p ∈ ps, p ≠ []) :
    Reader.pullN ps.flatten.length (⟨gs, ps, none, 0⟩ : Reader V) = some (ps.flatten, ⟨gs, [], none, 0⟩) := by
  induction ps with
  | nil => rfl
  | cons p ps ih =>
    have hp : 0 < p.length := List.length_pos_iff.mpr (h p (by simp))
    have h1 := pullN_page gs ps p 0 p.length (by omega) hp
    have h2 : Reader.pullN p.length (⟨gs, p :: ps, none, 0⟩ : Reader V) = some (p, ⟨gs, ps, none, 0⟩) := by
      obtain ⟨n, hn⟩ : ∃ n, p.length = n + 1 := ⟨p.length - 1, by omega⟩
      rw [hn] at h1 ⊢
      rw [pullN_congr (pull_loaded gs p ps 0), h1]
      rfl
    rw [List.flatten_cons, List.length_append, Reader.pullN_add _ _ _ _ _ h2, ih (fun p hp => h p (by simp [hp]))]
    rfl

theorem pullN_groups (gs1 gs2 : List (List (List V))) (h : ∀ g ∈ gs1, g ≠ [] ∧ ∀ p ∈ g, p ≠ []) :
    Reader.pullN (gs1.map List.flatten).flatten.length (⟨gs1 ++ gs2, [], none, 0⟩ : Reader V) =
      some ((gs1.map List.flatten).flatten, ⟨gs2, [], none, 0⟩) := by
  induction gs1 with
  | nil => rfl
  | cons g gs1 ih =>
    obtain ⟨hg, hp⟩ := h g (by simp)
    have h1 := pullN_buf (gs1 ++ gs2) g hp
    have h2 : Reader.pullN g.flatten.length (⟨g :: (gs1 ++ gs2), [], none, 0⟩ : Reader V) =
        some (g.flatten, ⟨gs1 ++ gs2, [], none, 0⟩) := by
      cases g with
      | nil => exact absurd rfl hg
      | cons p ps =>
        have hpl : 0 < p.length := List.length_pos_iff.mpr (hp p (by simp))
        obtain ⟨n, hn⟩ : ∃ n, (p :: ps).flatten.length = n + 1 := ⟨(p :: ps).flatten.length - 1, by simp; omega⟩
        rw [hn] at h1 ⊢
        rw [pullN_congr (pull_group (gs1 ++ gs2) p ps 0), ← pullN_congr (pull_loaded (gs1 ++ gs2) p ps 0)]
        exact h1
    rw [List.map_cons, List.flatten_cons, List.length_append, List.cons_append, Reader.pullN_add _ _ _ _ _ h2,
      ih (fun g hg => h g (by simp [hg]))]
    rfl

/-! ### one column of one merge -/

theorem mergeCol_append (null : V) (has : Nat → Bool) (str : List Nat) (a b : List (Option Nat)) (rd : Readers V) :
    mergeCol null has str rd (a ++ b) =
      (mergeCol null has str rd a).bind fun x => (mergeCol null has str x.2 b).map fun y => (x.1 ++ y.1, y.2) := by
  induction a generalizing rd with
  | nil => simp [mergeCol]
  | cons e a ih =>
    cases e with
    | none => simpa [mergeCol] using ih rd
    | some s =>
      simp only [List.cons_append, mergeCol]
      split
      · cases hp : (rd s).pull with
        | none => rfl
        | some y =>
          simp only [ih]
          cases mergeCol null has str (rd.set s y.2) a with
          | none => rfl
          | some z =>
            simp only [Option.bind_some, Option.map_some, Option.map_map]
            cases mergeCol null has str z.2 b <;> rfl
      · simp only [ih]
        cases mergeCol null has str rd a with
        | none => rfl
        | some z =>
          simp only [Option.bind_some, Option.map_some, Option.map_map]
          cases mergeCol null has str z.2 b <;> rfl

theorem colChunks_append (null : V) (has : Nat → Bool) (a b : List MChunk) (rd : Readers V) :
    colChunks null has rd (a ++ b) =
      (colChunks null has rd a).bind fun x => (colChunks null has x.2 b).map fun y => (x.1 ++ y.1, y.2) := by
  induction a generalizing rd with
  | nil => simp [colChunks]
  | cons m a ih =>
    simp only [List.cons_append, colChunks]
    cases colChunk null has rd m with
    | none => rfl
    | some x =>
      simp only [ih]
      cases colChunks null has x.2 a with
      | none => rfl
      | some z =>
        simp only [Option.bind_some, Option.map_some, Option.map_map]
        cases colChunks null has z.2 b with
        | none => rfl
        | some w => simp

theorem colChunks_merge (null : V) (has : Nat → Bool) (str : List Nat) (ms : List MChunk)
    (h : ∀ m ∈ ms, ∃ ord, m.ro = .merge ord str) (rd : Readers V) :
    colChunks null has rd ms = mergeCol null has str rd (ms.flatMap MChunk.order) := by
  induction ms generalizing rd with
  | nil => rfl
  | cons m ms ih =>
    obtain ⟨ord, ho⟩ := h m (by simp)
    have hm : m.order = ord := by simp [MChunk.order, ho]
    rw [List.flatMap_cons, mergeCol_append, hm]
    simp only [colChunks, colChunk, ho]
    cases mergeCol null has str rd ord with
    | none => rfl
    | some x =>
      simp only [Option.bind_some, ih (fun m hm => h m (by simp [hm]))]

/-- A column of a merge takes from each stream as many values as the order says. -/
theorem mergeCol_spec (null : V) (has : Nat → Bool) (str : List Nat) (ss : List Nat) (rd rd' : Readers V)
    (rem rem' : List (List V)) (X T : Nat → List V)
    (hstr : ∀ s ∈ ss, s ∈ str) (hlt : ∀ s ∈ ss, s < rem.length) (hlen : rem'.length = rem.length)
    (hrem : ∀ s, s < rem.length → rem[s]? = some (X s ++ T s)) (hrem' : ∀ s, s < rem.length → rem'[s]? = some (T s))
    (hcnt : ∀ s, (X s).length = ss.count s)
    (hhas : ∀ s, has s = true → (rd s).pullN (ss.count s) = some (X s, rd' s))
    (hno : ∀ s, has s = false → X s = List.replicate (ss.count s) null ∧ rd' s = rd s) :
    ∃ out, mergeCol null has str rd (ss.map some) = some (out, rd') ∧
      ∀ ro, gatherRem rem (ss.map some ++ ro) = (gatherRem rem' ro).map (out ++ ·) := by
  induction ss generalizing rd rem X with
  | nil =>
    have hX : ∀ s, X s = [] := fun s => List.length_eq_zero_iff.mp (hcnt s)
    have e1 : rem' = rem := by
      apply List.ext_getElem?
      intro s
      by_cases hs : s < rem.length
      · rw [hrem' s hs, hrem s hs, hX s, List.nil_append]
      · rw [List.getElem?_eq_none (by omega), List.getElem?_eq_none (by omega)]
    have e2 : rd' = rd := by
      funext s
      cases hh : has s with
      | true =>
        have := hhas s hh
        simp only [List.count_nil, Reader.pullN, Option.some.injEq, Prod.mk.injEq] at this
        exact this.2.symm
      | false => exact (hno s hh).2
    subst e1 e2
    refine ⟨[], rfl, ?_⟩
    intro ro
    simp
  | cons s ss ih =>
    have hs := hlt s (by simp)
    have hc : (s :: ss).count s = ss.count s + 1 := by simp
    have hXs := hcnt s
    rw [hc] at hXs
    obtain ⟨v, x, hx⟩ : ∃ v x, X s = v :: x := by
      cases hX : X s with
      | nil => rw [hX] at hXs; simp at hXs
      | cons v x => exact ⟨v, x, rfl⟩
    have hne : ∀ j, j ≠ s → (s :: ss).count j = ss.count j := by
      intro j hj; simp [List.count_cons]; omega
    have hgat : ∀ out, (∀ ro, gatherRem (rem.set s (x ++ T s)) (ss.map some ++ ro) = (gatherRem rem' ro).map (out ++ ·)) →
        ∀ ro, gatherRem rem ((s :: ss).map some ++ ro) = (gatherRem rem' ro).map ((v :: out) ++ ·) := by
      intro out hout ro
      have hr := hrem s hs
      rw [hx, List.cons_append] at hr
      simp only [List.map_cons, List.cons_append, gatherRem, hr, hout ro]
      cases gatherRem rem' ro <;> rfl
    -- the state after one row
    have step : ∀ r : Reader V, (∀ j, has j = true → ((rd.set s r) j).pullN (ss.count j) = some ((if j = s then x else X j), rd' j)) →
        (∀ j, has j = false → (if j = s then x else X j) = List.replicate (ss.count j) null ∧ rd' j = (rd.set s r) j) →
        ∃ out, mergeCol null has str (rd.set s r) (ss.map some) = some (out, rd') ∧
          ∀ ro, gatherRem (rem.set s (x ++ T s)) (ss.map some ++ ro) = (gatherRem rem' ro).map (out ++ ·) := by
      intro r h1 h2
      refine ih (rd.set s r) (rem.set s (x ++ T s)) (fun j => if j = s then x else X j)
        (fun j hj => hstr j (by simp [hj])) (fun j hj => by rw [List.length_set]; exact hlt j (by simp [hj]))
        (by rw [List.length_set]; exact hlen) ?_ (fun j hj => hrem' j (by simpa using hj)) ?_ h1 h2
      · intro j hj
        rw [List.length_set] at hj
        by_cases hjs : j = s
        · subst hjs; simp [hj]
        · rw [List.getElem?_set_ne (Ne.symm hjs), if_neg hjs]; exact hrem j hj
      · intro j
        by_cases hjs : j = s
        · subst hjs; rw [if_pos rfl]; rw [hx] at hXs; simpa using hXs
        · rw [if_neg hjs, hcnt j, hne j hjs]
    have hset : ∀ (r : Reader V) j, j ≠ s → (rd.set s r) j = rd j := fun r j hj => by simp [Readers.set, hj]
    have hset' : ∀ r : Reader V, (rd.set s r) s = r := fun r => by simp [Readers.set]
    cases hh : has s with
    | true =>
      have hp := hhas s hh
      rw [hc, hx] at hp
      simp only [Reader.pullN] at hp
      cases hpl : (rd s).pull with
      | none => rw [hpl] at hp; cases hp
      | some y =>
        obtain ⟨w, r⟩ := y
        rw [hpl] at hp
        simp only [Option.map_eq_some_iff, Prod.mk.injEq, List.cons.injEq] at hp
        obtain ⟨z, hz, ⟨rfl, hz1⟩, hz2⟩ := hp
        obtain ⟨out, g1, g2⟩ := step r
          (by
            intro j hj
            by_cases hjs : j = s
            · subst hjs; rw [hset', hz, if_pos rfl, ← hz1, ← hz2]
            · rw [hset r j hjs, if_neg hjs, ← hne j hjs]; exact hhas j hj)
          (by
            intro j hj
            have hjs : j ≠ s := by intro e; subst e; rw [hh] at hj; cases hj
            rw [hset r j hjs, if_neg hjs, ← hne j hjs]; exact hno j hj)
        refine ⟨w :: out, ?_, hgat out g2⟩
        have hcs : str.contains s = true := by simpa using hstr s (by simp)
        simp only [List.map_cons, mergeCol, hcs, hh, Bool.and_self, ↓reduceIte, hpl, g1, Option.map_some]
    | false =>
      obtain ⟨hx1, hx2⟩ := hno s hh
      rw [hc, hx, List.replicate_succ, List.cons.injEq] at hx1
      obtain ⟨out, g1, g2⟩ := step (rd s)
          (by
            intro j hj
            have hjs : j ≠ s := by intro e; subst e; rw [hh] at hj; cases hj
            rw [hset _ j hjs, if_neg hjs, ← hne j hjs]; exact hhas j hj)
          (by
            intro j hj
            by_cases hjs : j = s
            · subst hjs; rw [hset', if_pos rfl]; exact ⟨hx1.2, hx2⟩
            · rw [hset _ j hjs, if_neg hjs, ← hne j hjs]; exact hno j hj)
      have hid : rd.set s (rd s) = rd := by
        funext j
        by_cases hjs : j = s
        · subst hjs; simp [Readers.set]
        · simp [Readers.set, hjs]
      rw [hid] at g1
      refine ⟨v :: out, ?_, hgat out g2⟩
      simp only [List.map_cons, mergeCol, hh, Bool.and_false, Bool.false_eq_true, ↓reduceIte, g1, Option.map_some, hx1.1]

/-! ### readers and streams -/

def atD {α : Type} (p : List (List α)) (s : Nat) : List α := (p[s]?).getD []

theorem Takes.filter {p p' : List (List Chunk)} {q : List Chunk} (h : Takes p q p') :
    p'.length = p.length ∧ (∀ c ∈ q, c.stream < p.length) ∧
      ∀ s, atD p s = q.filter (fun c => c.stream == s) ++ atD p' s := by
  induction q generalizing p with
  | nil => rw [h]; simp
  | cons c q ih =>
    obtain ⟨t, h1, h2⟩ := h
    obtain ⟨i1, i2, i3⟩ := ih h2
    have hlt : c.stream < p.length := (List.getElem?_eq_some_iff.mp h1).1
    refine ⟨by simpa using i1, ?_, ?_⟩
    · intro d hd
      rcases List.mem_cons.mp hd with rfl | hd
      · exact hlt
      · simpa using i2 d hd
    · intro s
      have := i3 s
      by_cases hs : c.stream = s
      · subst hs
        simp only [atD, h1, Option.getD_some]
        simp only [atD, List.getElem?_set_self hlt, Option.getD_some] at this
        simp [this]
      · have hne : (c.stream == s) = false := by simpa using hs
        rw [List.filter_cons_of_neg (by simp [hne]), ← this]
        simp only [atD, List.getElem?_set_ne hs]

/-- The pages of the groups `gs` fit the chunks `b`. -/
def Fits : List (List (List V)) → List Chunk → Prop
  | [], [] => True
  | g :: gs, c :: b => g ≠ [] ∧ (∀ p ∈ g, p ≠ []) ∧ g.flatten.length = c.keys.length ∧ Fits gs b
  | _, _ => False

theorem Fits.split {gs : List (List (List V))} {b1 b2 : List Chunk} (h : Fits gs (b1 ++ b2)) :
    Fits (gs.take b1.length) b1 ∧ Fits (gs.drop b1.length) b2 ∧
      (gs.take b1.length).flatten.flatten.length = (keysOf b1).length ∧
      ∀ g ∈ gs.take b1.length, g ≠ [] ∧ ∀ p ∈ g, p ≠ [] := by
  induction b1 generalizing gs with
  | nil => exact ⟨by simp [Fits], by simpa using h, by simp [keysOf], by simp⟩
  | cons c b1 ih =>
    cases gs with
    | nil => exact absurd h (by simp [Fits])
    | cons g gs =>
      obtain ⟨h1, h2, h3, h4⟩ := h
      obtain ⟨i1, i2, i3, i4⟩ := ih h4
      refine ⟨⟨h1, h2, h3, i1⟩, i2, ?_, ?_⟩
      · simp only [List.length_cons, List.take_succ_cons, List.flatten_cons, List.flatten_append, List.length_append, i3, h3]
        simp [keysOf]
      · intro x hx
        simp only [List.length_cons, List.take_succ_cons, List.mem_cons] at hx
        rcases hx with rfl | hx
        · exact ⟨h1, h2⟩
        · exact i4 x hx

/-- The reader of a column stands between row groups, before those of the chunks `b`; `v` are the values to come. -/
def AlS (null : V) (has : Bool) (r : Reader V) (b : List Chunk) (v : List V) : Prop :=
  if has then r = ⟨r.groups, [], none, 0⟩ ∧ Fits r.groups b ∧ v = r.groups.flatten.flatten
  else v = List.replicate (keysOf b).length null

structure Al (null : V) (has : Nat → Bool) (rd : Readers V) (p : List (List Chunk)) (vals : List (List V)) : Prop where
  len : vals.length = p.length
  at_ : ∀ s, AlS null (has s) (rd s) (atD p s) (atD vals s)

theorem Fits.length {gs : List (List (List V))} {b : List Chunk} (h : Fits gs b) :
    gs.flatten.flatten.length = (keysOf b).length := by
  have := (Fits.split (b1 := b) (b2 := []) (by simpa using h)).2.2.1
  have hl : gs.length = b.length := by
    clear this
    induction b generalizing gs with
    | nil => cases gs with
      | nil => rfl
      | cons g gs => exact absurd h (by simp [Fits])
    | cons c b ih => cases gs with
      | nil => exact absurd h (by simp [Fits])
      | cons g gs => simp [ih h.2.2.2]
  rw [← hl, List.take_length] at this
  exact this

theorem gatherRem_prefix (x t : List V) (rem : List (List V)) (s : Nat) (h : rem[s]? = some (x ++ t)) (ro : List (Option Nat)) :
    gatherRem rem (List.replicate x.length (some s) ++ ro) = (gatherRem (rem.set s t) ro).map (x ++ ·) := by
  induction x generalizing rem with
  | nil =>
    have : rem.set s t = rem := by
      apply List.ext_getElem?
      intro j
      by_cases hj : s = j
      · subst hj
        have hlt : s < rem.length := (List.getElem?_eq_some_iff.mp h).1
        rw [h]; simp [hlt]
      · rw [List.getElem?_set_ne hj]
    rw [this]; simp
  | cons v x ih =>
    have hlt : s < rem.length := (List.getElem?_eq_some_iff.mp h).1
    have h2 := ih (rem.set s (x ++ t)) (by simp [hlt])
    rw [List.set_set] at h2
    rw [List.cons_append] at h
    simp only [List.length_cons, List.replicate_succ, List.cons_append, gatherRem, h, h2]
    cases gatherRem (rem.set s t) ro <;> rfl

theorem atD_get {α : Type} {p : List (List α)} {s : Nat} (h : s < p.length) : p[s]? = some (atD p s) := by
  simp [atD, h]

theorem count_order (q : List Chunk) (s : Nat) :
    ((queueRows q).map Prod.fst).count s = (keysOf (q.filter fun c => c.stream == s)).length := by
  induction q with
  | nil => rfl
  | cons c q ih =>
    simp only [queueRows, List.flatMap_cons, List.map_append, List.count_append] at ih ⊢
    rw [ih]
    have h1 : ((c.keys.map fun k => (c.stream, k)).map Prod.fst) = List.replicate c.keys.length c.stream := by
      rw [List.map_map]; simp [Function.comp_def, List.map_const']
    rw [h1, List.count_replicate]
    by_cases hs : c.stream = s
    · subst hs; simp [keysOf]
    · have hne : (c.stream == s) = false := by simpa using hs
      simp [hne]

theorem mergeCol_length (null : V) (has : Nat → Bool) (str ss : List Nat) (rd rd' : Readers V) (x : List V)
    (h : mergeCol null has str rd (ss.map some) = some (x, rd')) : x.length = ss.length := by
  induction ss generalizing rd x with
  | nil => simp only [List.map_nil, mergeCol, Option.some.injEq, Prod.mk.injEq] at h; simp [← h.1]
  | cons s ss ih =>
    simp only [List.map_cons, mergeCol] at h
    split at h
    · split at h
      · cases h
      · simp only [Option.map_eq_some_iff, Prod.mk.injEq] at h
        obtain ⟨y, hy, rfl, rfl⟩ := h
        simp [ih _ _ hy]
    · simp only [Option.map_eq_some_iff, Prod.mk.injEq] at h
      obtain ⟨y, hy, rfl, rfl⟩ := h
      simp [ih _ _ hy]

/-- However many of the chunks are written, each column has as many values as the order says. -/
def LenOk (null : V) (has : Nat → Bool) (rd : Readers V) (ms : List MChunk) : Prop :=
  ∀ a b, ms = a ++ b → ∀ x r, colChunks null has rd a = some (x, r) → x.length = (a.flatMap MChunk.order).length

/-- One round, one column. -/
theorem round_col (null : V) (has : Nat → Bool) {p p1 : List (List Chunk)} {q : List Chunk} {ms : List MChunk}
    (ht : Takes p q p1) (hr : Refers q ms) (hperm : ∃ ss : List Nat, ms.flatMap MChunk.order = ss.map some ∧ ss.Perm ((queueRows q).map Prod.fst))
    (rd : Readers V) (vals : List (List V)) (al : Al null has rd p vals) :
    ∃ out rd' vals', colChunks null has rd ms = some (out, rd') ∧ Al null has rd' p1 vals' ∧ LenOk null has rd ms ∧
      ∀ ro, gatherRem vals (ms.flatMap MChunk.order ++ ro) = (gatherRem vals' ro).map (out ++ ·) := by
  obtain ⟨f1, f2, f3⟩ := ht.filter
  rcases hr with ⟨c, rfl, rfl⟩ | hr
  · -- the chunk is copied
    obtain ⟨t, h1, h2⟩ := ht
    have h2 : p1 = p.set c.stream t := h2
    subst h2
    have hlt : c.stream < p.length := (List.getElem?_eq_some_iff.mp h1).1
    have hp : atD p c.stream = c :: t := by simp [atD, h1]
    have hv := atD_get (p := vals) (s := c.stream) (by rw [al.len]; exact hlt)
    have ha := al.at_ c.stream
    rw [hp] at ha
    have other : ∀ (rd' : Readers V) (w : List V), (∀ j, j ≠ c.stream → rd' j = rd j) →
        AlS null (has c.stream) (rd' c.stream) t w → Al null has rd' (p.set c.stream t) (vals.set c.stream w) := by
      intro rd' w hrd hw
      refine ⟨by simp [al.len], ?_⟩
      intro s
      by_cases hs : c.stream = s
      · subst hs
        have e1 : atD (p.set c.stream t) c.stream = t := by simp [atD, hlt]
        have e2 : atD (vals.set c.stream w) c.stream = w := by simp [atD, al.len, hlt]
        rw [e1, e2]; exact hw
      · have e1 : atD (p.set c.stream t) s = atD p s := by simp [atD, List.getElem?_set_ne hs]
        have e2 : atD (vals.set c.stream w) s = atD vals s := by simp [atD, List.getElem?_set_ne hs]
        rw [e1, e2, hrd s (Ne.symm hs)]; exact al.at_ s
    have horder : [(⟨c.keys, c.lo, c.hi, .pick c.stream c.keys.length⟩ : MChunk)].flatMap MChunk.order =
        List.replicate c.keys.length (some c.stream) := by simp [MChunk.order]
    have hlenOk : ∀ out rd', out.length = c.keys.length →
        colChunks null has rd [(⟨c.keys, c.lo, c.hi, .pick c.stream c.keys.length⟩ : MChunk)] = some (out, rd') →
        LenOk null has rd [(⟨c.keys, c.lo, c.hi, .pick c.stream c.keys.length⟩ : MChunk)] := by
      intro out rd' hl hcol a b hab x r hx
      cases a with
      | nil => simp only [colChunks, Option.some.injEq, Prod.mk.injEq] at hx; simp [← hx.1]
      | cons m a =>
        simp only [List.cons_append, List.cons.injEq] at hab
        obtain ⟨rfl, hab⟩ := hab
        obtain ⟨rfl, -⟩ := List.append_eq_nil_iff.mp hab.symm
        rw [hcol] at hx
        simp only [Option.some.injEq, Prod.mk.injEq] at hx
        rw [horder, ← hx.1, hl, List.length_replicate]
    rw [horder]
    cases hh : has c.stream with
    | true =>
      rw [hh] at ha
      simp only [AlS, if_true] at ha
      obtain ⟨a1, a2, a3⟩ := ha
      cases hg : (rd c.stream).groups with
      | nil => rw [hg] at a2; exact absurd a2 (by simp [Fits])
      | cons g gs =>
        rw [hg] at a1 a2 a3
        obtain ⟨b1, b2, b3, b4⟩ := a2
        simp only [List.flatten_cons, List.flatten_append] at a3
        have hcol : colChunks null has rd [(⟨c.keys, c.lo, c.hi, .pick c.stream c.keys.length⟩ : MChunk)] =
            some (g.flatten, rd.set c.stream ⟨gs, [], none, 0⟩) := by
          simp only [colChunks, colChunk, hh, if_true]
          rw [a1]
          simp [Reader.nextChunk]
        refine ⟨g.flatten, rd.set c.stream ⟨gs, [], none, 0⟩, vals.set c.stream gs.flatten.flatten, hcol, ?_,
          hlenOk _ _ b3 hcol, ?_⟩
        · refine other _ _ (fun j hj => by simp [Readers.set, hj]) ?_
          simp only [AlS, hh, if_true, Readers.set]
          exact ⟨trivial, b4, trivial⟩
        · intro ro
          rw [← b3]
          exact gatherRem_prefix g.flatten gs.flatten.flatten vals c.stream (by rw [hv, a3]) ro
    | false =>
      rw [hh] at ha
      simp only [AlS, Bool.false_eq_true, if_false] at ha
      have hk : (keysOf (c :: t)).length = c.keys.length + (keysOf t).length := by simp [keysOf]
      rw [hk, ← List.replicate_append_replicate] at ha
      have hcol : colChunks null has rd [(⟨c.keys, c.lo, c.hi, .pick c.stream c.keys.length⟩ : MChunk)] =
          some (List.replicate c.keys.length null, rd) := by
        simp [colChunks, colChunk, hh]
      refine ⟨List.replicate c.keys.length null, rd, vals.set c.stream (List.replicate (keysOf t).length null), hcol, ?_,
        hlenOk _ _ (by simp) hcol, ?_⟩
      · exact other rd _ (fun _ _ => rfl) (by simp [AlS, hh])
      · intro ro
        have := gatherRem_prefix (List.replicate c.keys.length null) (List.replicate (keysOf t).length null) vals c.stream
          (by rw [hv, ha]) ro
        rw [List.length_replicate] at this
        exact this
  · -- the chunks are merged
    obtain ⟨ss, hss, hpm⟩ := hperm
    have hcount : ∀ s, ss.count s = (keysOf (q.filter fun c => c.stream == s)).length := by
      intro s
      rw [hpm.count_eq, count_order]
    have hmemss : ∀ s ∈ ss, s ∈ q.map Chunk.stream := by
      intro s hs
      have := hpm.mem_iff.mp hs
      obtain ⟨x, hx, rfl⟩ := List.mem_map.mp this
      obtain ⟨c, hc, hxc⟩ := List.mem_flatMap.mp hx
      obtain ⟨k, -, rfl⟩ := List.mem_map.mp hxc
      exact List.mem_map_of_mem hc
    let rd' : Readers V := fun s =>
      if has s then ⟨(rd s).groups.drop (q.filter fun c => c.stream == s).length, [], none, 0⟩ else rd s
    let vals' : List (List V) := (List.range vals.length).map fun s => (atD vals s).drop (ss.count s)
    have hvals' : ∀ s, s < vals.length → vals'[s]? = some ((atD vals s).drop (ss.count s)) := by
      intro s hs; simp [vals', hs]
    -- what one stream gives
    have hone : ∀ s, ((atD vals s).take (ss.count s)).length = ss.count s ∧
        (has s = true → (rd s).pullN (ss.count s) = some ((atD vals s).take (ss.count s), rd' s)) ∧
        (has s = false → (atD vals s).take (ss.count s) = List.replicate (ss.count s) null ∧ rd' s = rd s) ∧
        AlS null (has s) (rd' s) (atD p1 s) ((atD vals s).drop (ss.count s)) := by
      intro s
      have ha := al.at_ s
      rw [f3 s] at ha
      rw [hcount s]
      cases hh : has s with
      | true =>
        rw [hh] at ha
        simp only [AlS, if_true] at ha
        obtain ⟨a1, a2, a3⟩ := ha
        obtain ⟨b1, b2, b3, b4⟩ := a2.split
        have hsplit : (rd s).groups.flatten.flatten =
            ((rd s).groups.take (q.filter fun c => c.stream == s).length).flatten.flatten ++
            ((rd s).groups.drop (q.filter fun c => c.stream == s).length).flatten.flatten := by
          rw [← List.flatten_append, ← List.flatten_append, List.take_append_drop]
        have htake : (atD vals s).take (keysOf (q.filter fun c => c.stream == s)).length =
            ((rd s).groups.take (q.filter fun c => c.stream == s).length).flatten.flatten := by
          rw [a3, hsplit, ← b3, List.take_left']; rfl
        have hdrop : (atD vals s).drop (keysOf (q.filter fun c => c.stream == s)).length =
            ((rd s).groups.drop (q.filter fun c => c.stream == s).length).flatten.flatten := by
          rw [a3, hsplit, ← b3, List.drop_left']; rfl
        refine ⟨by rw [htake, b3], ?_, (by intro h; cases h), ?_⟩
        · intro _
          rw [htake, ← b3, a1]
          have := pullN_groups ((rd s).groups.take (q.filter fun c => c.stream == s).length)
            ((rd s).groups.drop (q.filter fun c => c.stream == s).length) b4
          rw [List.take_append_drop, ← List.flatten_flatten] at this
          simp only [rd', hh, if_true]
          exact this
        · simp only [AlS, if_true, rd', hh]
          exact ⟨trivial, b2, hdrop⟩
      | false =>
        rw [hh] at ha
        simp only [AlS, Bool.false_eq_true, if_false] at ha
        have hk : (keysOf (q.filter (fun c => c.stream == s) ++ atD p1 s)).length =
            (keysOf (q.filter fun c => c.stream == s)).length + (keysOf (atD p1 s)).length := by simp [keysOf]
        rw [hk] at ha
        rw [ha]
        refine ⟨by simp, (by intro h; cases h), ?_, ?_⟩
        · intro _
          exact ⟨by simp, by simp [rd', hh]⟩
        · simp [AlS]
    obtain ⟨out, g1, g2⟩ := mergeCol_spec null has (q.map Chunk.stream) ss rd rd' vals vals'
      (fun s => (atD vals s).take (ss.count s)) (fun s => (atD vals s).drop (ss.count s)) hmemss
      (by
        intro s hs
        obtain ⟨c, hc, rfl⟩ := List.mem_map.mp (hmemss s hs)
        rw [al.len]; exact f2 c hc)
      (by simp [vals'])
      (by intro s hs; rw [List.take_append_drop]; exact atD_get hs) hvals'
      (fun s => (hone s).1) (fun s => (hone s).2.1) (fun s => (hone s).2.2.1)
    refine ⟨out, rd', vals', ?_, ⟨by simp [vals', al.len, f1], ?_⟩, ?_, ?_⟩
    · rw [colChunks_merge null has (q.map Chunk.stream) ms hr, hss]; exact g1
    · intro s
      have h4 := (hone s).2.2.2
      by_cases hs : s < vals.length
      · have : atD vals' s = (atD vals s).drop (ss.count s) := by simp [atD, hvals' s hs]
        rw [this]; exact h4
      · have h5 : atD vals s = [] := by simp [atD, List.getElem?_eq_none (Nat.le_of_not_lt hs)]
        have h6 : atD vals' s = [] := by
          have : vals'.length ≤ s := by simp [vals']; omega
          simp [atD, List.getElem?_eq_none this]
        rw [h5, List.drop_nil] at h4
        rw [h6]; exact h4
    · intro a b hab x r hx
      have ha : ∀ m ∈ a, ∃ ord, m.ro = .merge ord (q.map Chunk.stream) := fun m hm => hr m (by rw [hab]; simp [hm])
      rw [colChunks_merge null has (q.map Chunk.stream) a ha] at hx
      have hsa : ∃ sa : List Nat, a.flatMap MChunk.order = sa.map some := by
        rw [hab, List.flatMap_append] at hss
        obtain ⟨sa, sb, -, h1, -⟩ := List.append_eq_map_iff.mp hss
        exact ⟨sa, h1.symm⟩
      obtain ⟨sa, hsa⟩ := hsa
      rw [hsa] at hx ⊢
      rw [mergeCol_length null has _ sa rd r x hx, List.length_map]
    · rw [hss]; exact g2

theorem Emits.col {o : Opts} (ho : o.Ok) (null : V) (has : Nat → Bool) {p p' : List (List Chunk)} {ms : List MChunk}
    (h : Emits o p ms p') (g : Good o p) (rd : Readers V) (vals : List (List V)) (al : Al null has rd p vals) :
    ∃ out rd' vals', colChunks null has rd ms = some (out, rd') ∧ Al null has rd' p' vals' ∧ LenOk null has rd ms ∧
      ∀ ro, gatherRem vals (ms.flatMap MChunk.order ++ ro) = (gatherRem vals' ro).map (out ++ ·) := by
  induction h generalizing rd vals with
  | nil p =>
    refine ⟨[], rd, vals, rfl, al, ?_, by intro ro; simp⟩
    intro a b hab x r hx
    obtain ⟨rfl, -⟩ := List.append_eq_nil_iff.mp hab.symm
    simp only [colChunks, Option.some.injEq, Prod.mk.injEq] at hx
    simp [← hx.1]
  | @round p p1 p2 q ms1 ms2 a b c d e ih =>
    obtain ⟨ms, pops, h1, h2, h3, h4, h5, -, h7⟩ := emit_plain ho q (queue_ok g b) (g.qplain b)
    rw [d] at h1
    obtain rfl := Option.some.inj h1
    obtain ⟨out1, rd1, vals1, i1, i2, il, i3⟩ := round_col null has b h7
      ⟨pops.map Prod.fst, by rw [h3, List.map_map]; rfl, h4.map _⟩ rd vals al
    obtain ⟨out2, rd2, vals2, j1, j2, jl, j3⟩ := ih (g.takes b) rd1 vals1 i2
    refine ⟨out1 ++ out2, rd2, vals2, ?_, j2, ?_, ?_⟩
    · rw [colChunks_append, i1]
      simp [j1]
    · intro x y hxy v r hv
      rcases List.append_eq_append_iff.mp hxy with ⟨z, h8, h9⟩ | ⟨z, h8, h9⟩
      · rw [h8, colChunks_append, i1] at hv
        simp only [Option.bind_some, Option.map_eq_some_iff, Prod.mk.injEq] at hv
        obtain ⟨w, hw, rfl, rfl⟩ := hv
        rw [h8, List.flatMap_append, List.length_append, List.length_append, jl z y h9 w.1 w.2 hw,
          il ms1 [] (by simp) out1 rd1 i1]
      · exact il x z h8 v r hv
    · intro ro
      rw [List.flatMap_append, List.append_assoc, i3, j3]
      cases gatherRem vals2 ro with
      | none => rfl
      | some x => simp

end OptiPrism.Storage.PMerge
