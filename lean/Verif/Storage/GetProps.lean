import Verif.Storage.Get

/-!
# C21 (point reads), C22 (compare-and-swap)
-/

namespace OptiPrism.Storage

variable {R K : Type}

/-! ### C21 -/

/-- Where a row is stored. -/
def StoredIn (d : Disk R K) (p : Proc R K) (r : R) : Prop :=
  r ∈ p.mem ∨ ∃ (l : Nat) (lv : DLevel K) (q : PartRef K) (rows : List R), p.md.levels[l]? = some lv ∧
    q ∈ lv.parts ∧ d.parts l q.id = some (.full rows) ∧ r ∈ rows

/-- A way of cutting files into row groups. -/
def IsGrouping (groups : List R → List (List R)) : Prop := ∀ rows, (groups rows).flatten = rows

/-- The requirement: in a consistent table the only row with key `k` is found. -/
def C21_full (le : K → K → Prop) [DecidableRel le] [DecidableEq K] (cols : K → List Int) (key : R → K) : Prop :=
  ∀ groups : List R → List (List R), IsGrouping groups → ∀ d p, Clean le key d p → ∀ r, StoredIn d p r →
    (∀ r', StoredIn d p r' → key r' = key r → r' = r) →
    getRow le cols key groups d p (key r) = some (some r)

theorem getFile_sound [DecidableEq K] {cols : K → List Int} {key : R → K} {k : K} {groups : List (List R)} {r : R}
    (h : getFile cols key k groups = some r) : key r = k ∧ r ∈ groups.flatten := by
  unfold getFile at h
  split at h
  · cases h
  · rename_i g hg
    refine ⟨by simpa using List.find?_some h, ?_⟩
    exact List.mem_flatten.mpr ⟨g, List.mem_of_find?_eq_some hg, List.mem_of_find?_eq_some h⟩

theorem getParts_sound {le : K → K → Prop} [DecidableRel le] [DecidableEq K] {cols : K → List Int} {key : R → K}
    {groups : List R → List (List R)} (hg : IsGrouping groups) {file : Nat → Option (PFile R)} {k : K}
    {qs : List (PartRef K)} {r : R} (h : getParts le cols key groups file k qs = some (some (some r))) :
    key r = k ∧ ∃ q ∈ qs, ∃ rows, file q.id = some (.full rows) ∧ r ∈ rows := by
  induction qs with
  | nil => simp [getParts] at h
  | cons q qs ih =>
    unfold getParts at h
    split at h
    · split at h
      · rename_i rows hf
        simp only [Option.some.injEq] at h
        obtain ⟨h1, h2⟩ := getFile_sound h
        rw [hg] at h2
        exact ⟨h1, q, by simp, rows, hf, h2⟩
      · cases h
    · obtain ⟨h1, q', hq, rest⟩ := ih h
      exact ⟨h1, q', List.mem_cons_of_mem _ hq, rest⟩

theorem getLevels_sound {le : K → K → Prop} [DecidableRel le] [DecidableEq K] {cols : K → List Int} {key : R → K}
    {groups : List R → List (List R)} (hg : IsGrouping groups) {files : Nat → Nat → Option (PFile R)} {k : K}
    {ls : List (DLevel K)} : ∀ {l : Nat} {r : R}, getLevels le cols key groups files k l ls = some (some r) →
    key r = k ∧ ∃ (j : Nat) (lv : DLevel K), ls[j]? = some lv ∧ ∃ q ∈ lv.parts, ∃ rows,
      files (l + j) q.id = some (.full rows) ∧ r ∈ rows := by
  induction ls with
  | nil => intro l r h; simp [getLevels] at h
  | cons lv ls ih =>
    intro l r h
    unfold getLevels at h
    split at h
    · cases h
    · rename_i x hx
      simp only [Option.some.injEq] at h
      subst h
      obtain ⟨h1, q, hq, rows, hf, hr⟩ := getParts_sound hg hx
      exact ⟨h1, 0, lv, rfl, q, by simpa using hq, rows, hf, hr⟩
    · obtain ⟨h1, j, lv', hj, q, hq, rows, hf, hr⟩ := ih h
      exact ⟨h1, j + 1, lv', by simpa using hj, q, hq, rows, by
        rwa [show l + (j + 1) = l + 1 + j by omega], hr⟩

/-- Soundness, without conditions: what a point read returns is a stored row with that key. -/
theorem C21_sound {le : K → K → Prop} [DecidableRel le] [DecidableEq K] {cols : K → List Int} {key : R → K}
    {groups : List R → List (List R)} (hg : IsGrouping groups) {d : Disk R K} {p : Proc R K} {k : K} {r : R}
    (h : getRow le cols key groups d p k = some (some r)) : key r = k ∧ StoredIn d p r := by
  unfold getRow at h
  split at h
  · rename_i r' hr
    simp only [Option.some.injEq] at h
    subst h
    exact ⟨by simpa using List.find?_some hr, .inl (by simpa using List.mem_of_find?_eq_some hr)⟩
  · obtain ⟨h1, j, lv, hj, q, hq, rows, hf, hr⟩ := getLevels_sound hg h
    rw [Nat.zero_add] at hf
    exact ⟨h1, .inr ⟨j, lv, q, rows, hj, hq, hf, hr⟩⟩

/-- In a consistent table a point read does not fail. -/
theorem C21_no_error {le : K → K → Prop} [DecidableRel le] [DecidableEq K] {cols : K → List Int} {key : R → K}
    {groups : List R → List (List R)} {d : Disk R K} {p : Proc R K} (hc : Clean le key d p) (k : K) :
    (getRow le cols key groups d p k).isSome := by
  have hp : ∀ (file : Nat → Option (PFile R)) (qs : List (PartRef K)),
      (∀ q ∈ qs, ∃ rows, file q.id = some (.full rows)) → (getParts le cols key groups file k qs).isSome := by
    intro file qs
    induction qs with
    | nil => intro _; simp [getParts]
    | cons q qs ih =>
      intro h
      unfold getParts
      split
      · obtain ⟨rows, hf⟩ := h q (by simp)
        simp [hf]
      · exact ih fun x hx => h x (List.mem_cons_of_mem _ hx)
  have hl : ∀ (ls : List (DLevel K)) (l : Nat), (∀ (j : Nat) (lv : DLevel K), ls[j]? = some lv → ∀ q ∈ lv.parts, ∃ rows,
      d.parts (l + j) q.id = some (.full rows)) → (getLevels le cols key groups d.parts k l ls).isSome := by
    intro ls
    induction ls with
    | nil => intro l _; simp [getLevels]
    | cons lv ls ih =>
      intro l h
      unfold getLevels
      have := hp (d.parts l) lv.parts.reverse (fun q hq => h 0 lv rfl q (by simpa using hq))
      obtain ⟨x, hx⟩ := Option.isSome_iff_exists.mp this
      rw [hx]
      cases x with
      | some x => rfl
      | none =>
        refine ih (l + 1) fun j lv' hj q hq => ?_
        have := h (j + 1) lv' (by simpa using hj) q hq
        rwa [show l + 1 + j = l + (j + 1) by omega]
  unfold getRow
  split
  · rfl
  · apply hl
    intro j lv hj q hq
    obtain ⟨rows, hf, _⟩ := hc.parts j lv hj q hq
    exact ⟨rows, by rwa [Nat.zero_add]⟩

/-- A part covers a key when its recorded range does. -/
def Covers (le : K → K → Prop) (q : PartRef K) (k : K) : Prop := le q.min k ∧ le k q.max

theorem groupFits_of_mem {cols : K → List Int} {key : R → K} {g : List R} {r : R} (h : r ∈ g) :
    groupFits cols key (key r) g = true := by
  unfold groupFits
  rw [List.all_eq_true]
  intro i _
  simp only [Bool.and_eq_true, List.any_eq_true, decide_eq_true_eq]
  exact ⟨⟨r, h, Int.le_refl _⟩, ⟨r, h, Int.le_refl _⟩⟩

theorem find_unique {key : R → K} [DecidableEq K] {l : List R} {r : R} (hm : r ∈ l)
    (hu : ∀ r' ∈ l, key r' = key r → r' = r) : l.find? (fun x => decide (key x = key r)) = some r := by
  cases hf : l.find? (fun x => decide (key x = key r)) with
  | none =>
    rw [List.find?_eq_none] at hf
    exact absurd (by simp) (hf r hm)
  | some r' =>
    have := hu r' (List.mem_of_find?_eq_some hf) (by simpa using List.find?_some hf)
    rw [this]

theorem getParts_skip {le : K → K → Prop} [DecidableRel le] [DecidableEq K] {cols : K → List Int} {key : R → K}
    {groups : List R → List (List R)} {file : Nat → Option (PFile R)} {k : K} (qs rest : List (PartRef K))
    (h : ∀ q ∈ qs, ¬ Covers le q k) :
    getParts le cols key groups file k (qs ++ rest) = getParts le cols key groups file k rest := by
  induction qs with
  | nil => rfl
  | cons q qs ih =>
    rw [List.cons_append, getParts, if_neg (show ¬ (le q.min k ∧ le k q.max) from h q (by simp))]
    exact ih fun x hx => h x (List.mem_cons_of_mem _ hx)

theorem getLevels_skip {le : K → K → Prop} [DecidableRel le] [DecidableEq K] {cols : K → List Int} {key : R → K}
    {groups : List R → List (List R)} {files : Nat → Nat → Option (PFile R)} {k : K} (ls rest : List (DLevel K)) :
    ∀ l, (∀ lv ∈ ls, ∀ q ∈ lv.parts, ¬ Covers le q k) →
    getLevels le cols key groups files k l (ls ++ rest) = getLevels le cols key groups files k (l + ls.length) rest := by
  induction ls with
  | nil => intro l _; rfl
  | cons lv ls ih =>
    intro l h
    have h0 : getParts le cols key groups (files l) k lv.parts.reverse = some none := by
      have := getParts_skip (cols := cols) (key := key) (groups := groups) (file := files l) lv.parts.reverse []
        (fun q hq => h lv (by simp) q (by simpa using hq))
      simpa [getParts] using this
    rw [List.cons_append, getLevels, h0]
    dsimp only
    rw [ih (l + 1) fun x hx => h x (List.mem_cons_of_mem _ hx)]
    congr 1
    simp; omega

/-- Missing from the full statement: a row in a part file is only found if (a) no part searched
earlier (a later part of its level, or any part of a smaller level) covers its key, and (b) no
earlier row group of its file fits column by column. Rows in memory are always found. The conditions
are needed: see `C21_exact`. -/
theorem C21_partial {le : K → K → Prop} [DecidableRel le] [DecidableEq K] {cols : K → List Int} {key : R → K}
    {groups : List R → List (List R)} {d : Disk R K} {p : Proc R K} (hc : Clean le key d p) :
    (∀ pre r post, p.mem = pre ++ r :: post → (∀ r' ∈ post, key r' ≠ key r) →
      getRow le cols key groups d p (key r) = some (some r)) ∧
    (∀ (l : Nat) (lv : DLevel K) (q : PartRef K) (newer older : List (PartRef K)) (rows : List R) (r : R)
      (gs hs : List (List R)) (g : List R),
      (∀ r' ∈ p.mem, key r' ≠ key r) → p.md.levels[l]? = some lv → lv.parts = older ++ q :: newer →
      d.parts l q.id = some (.full rows) → groups rows = gs ++ g :: hs → r ∈ g → r ∈ rows →
      (∀ r' ∈ g, key r' = key r → r' = r) →
      (∀ q' ∈ newer, ¬ Covers le q' (key r)) →
      (∀ (j : Nat) (lv' : DLevel K), j < l → p.md.levels[j]? = some lv' → ∀ q' ∈ lv'.parts, ¬ Covers le q' (key r)) →
      (∀ g' ∈ gs, groupFits cols key (key r) g' = false) →
      getRow le cols key groups d p (key r) = some (some r)) := by
  constructor
  · intro pre r post hm hpost
    unfold getRow
    have : p.mem.reverse.find? (fun x => decide (key x = key r)) = some r := by
      rw [hm]
      simp only [List.reverse_append, List.reverse_cons, List.append_assoc, List.find?_append]
      have h1 : post.reverse.find? (fun x => decide (key x = key r)) = none := by
        rw [List.find?_eq_none]
        intro x hx
        simpa using hpost x (by simpa using hx)
      simp [h1]
    rw [this]
  · intro l lv q newer older rows r gs hs g hmem hlv hparts hf hgr hg hrows hu hnew hlow hgs
    unfold getRow
    have h0 : p.mem.reverse.find? (fun x => decide (key x = key r)) = none := by
      rw [List.find?_eq_none]
      intro x hx
      simpa using hmem x (by simpa using hx)
    rw [h0]
    dsimp only
    have hsplit : p.md.levels = p.md.levels.take l ++ lv :: p.md.levels.drop (l + 1) := by
      have hlt := (List.getElem?_eq_some_iff.mp hlv).1
      have he := (List.getElem?_eq_some_iff.mp hlv).2
      rw [← he, List.getElem_cons_drop, List.take_append_drop]
    have hlen : (p.md.levels.take l).length = l := by
      rw [List.length_take]
      have := (List.getElem?_eq_some_iff.mp hlv).1
      omega
    rw [hsplit, getLevels_skip _ _ 0 (by
      intro lv' hlv' q' hq'
      obtain ⟨j, hj⟩ := List.getElem?_of_mem hlv'
      rw [List.getElem?_take] at hj
      split at hj
      · exact hlow j lv' (by assumption) hj q' hq'
      · cases hj)]
    rw [hlen, Nat.zero_add, getLevels, hparts]
    have hcov : le q.min (key r) ∧ le (key r) q.max := by
      obtain ⟨rows', hf', _, _, _, hin⟩ := hc.parts l lv hlv q (by rw [hparts]; simp)
      rw [hf] at hf'
      simp only [Option.some.injEq, PFile.full.injEq] at hf'
      subst hf'
      exact hin r hrows
    have h1 : getParts le cols key groups (d.parts l) (key r) (older ++ q :: newer).reverse = some (some (some r)) := by
      rw [List.reverse_append, List.reverse_cons, List.append_assoc,
        getParts_skip _ _ (fun q' hq' => hnew q' (by simpa using hq'))]
      simp only [List.singleton_append, getParts, if_pos hcov, hf]
      have hfind : (groups rows).find? (groupFits cols key (key r)) = some g := by
        rw [hgr, List.find?_append]
        have : gs.find? (groupFits cols key (key r)) = none := by
          rw [List.find?_eq_none]
          intro x hx
          simp [hgs x hx]
        rw [this]
        simp [groupFits_of_mem hg]
      simp only [getFile, hfind]
      rw [find_unique hg hu]
    rw [h1]

/-- The conditions are exact: with no row of that key in memory, a point read looks at the first
covering part in search order only, and there at the first fitting row group only. -/
theorem C21_exact {le : K → K → Prop} [DecidableRel le] [DecidableEq K] {cols : K → List Int} {key : R → K}
    {groups : List R → List (List R)} {d : Disk R K} {p : Proc R K} (k : K) (hmem : ∀ r ∈ p.mem, key r ≠ k)
    {l : Nat} {lv : DLevel K} {q : PartRef K} {newer older : List (PartRef K)} {rows : List R}
    (hlv : p.md.levels[l]? = some lv) (hparts : lv.parts = older ++ q :: newer)
    (hf : d.parts l q.id = some (.full rows)) (hcov : Covers le q k)
    (hnew : ∀ q' ∈ newer, ¬ Covers le q' k)
    (hlow : ∀ (j : Nat) (lv' : DLevel K), j < l → p.md.levels[j]? = some lv' → ∀ q' ∈ lv'.parts, ¬ Covers le q' k) :
    getRow le cols key groups d p k = some (getFile cols key k (groups rows)) := by
  unfold getRow
  have h0 : p.mem.reverse.find? (fun x => decide (key x = k)) = none := by
    rw [List.find?_eq_none]
    intro x hx
    simpa using hmem x (by simpa using hx)
  rw [h0]
  dsimp only
  have hsplit : p.md.levels = p.md.levels.take l ++ lv :: p.md.levels.drop (l + 1) := by
    have hlt := (List.getElem?_eq_some_iff.mp hlv).1
    have he := (List.getElem?_eq_some_iff.mp hlv).2
    rw [← he, List.getElem_cons_drop, List.take_append_drop]
  have hlen : (p.md.levels.take l).length = l := by
    rw [List.length_take]
    have := (List.getElem?_eq_some_iff.mp hlv).1
    omega
  rw [hsplit, getLevels_skip _ _ 0 (by
    intro lv' hlv' q' hq'
    obtain ⟨j, hj⟩ := List.getElem?_of_mem hlv'
    rw [List.getElem?_take] at hj
    split at hj
    · exact hlow j lv' (by assumption) hj q' hq'
    · cases hj)]
  rw [hlen, Nat.zero_add, getLevels, hparts]
  rw [List.reverse_append, List.reverse_cons, List.append_assoc,
    getParts_skip _ _ (fun q' hq' => hnew q' (by simpa using hq'))]
  have : le q.min k ∧ le k q.max := hcov
  simp only [List.singleton_append, getParts, if_pos this, hf]

theorem stored_iff {le : K → K → Prop} {key : R → K} {d : Disk R K} {p : Proc R K} (hc : Clean le key d p)
    {t : ATbl R} (ht : viewOf d p = some t) {r : R} : StoredIn d p r ↔ r ∈ t.mem ∨ r ∈ t.parts.flatten := by
  have h := partsOf_some d.parts 0 p.md.levels (by
    intro l lv hl q hq
    obtain ⟨rows, hr, _⟩ := hc.parts l lv hl q hq
    exact ⟨rows, by simpa using hr⟩)
  unfold viewOf at ht
  rw [h] at ht
  simp only [Option.map_some, Option.some.injEq] at ht
  subst ht
  simp only [StoredIn, List.mem_flatten, Nat.zero_add]
  constructor
  · rintro (hm | ⟨l, lv, q, rows, hl, hq, hf, hr⟩)
    · exact .inl hm
    · refine .inr ⟨rows, ⟨_, List.mem_mapIdx.mpr ⟨l, (List.getElem?_eq_some_iff.mp hl).1, rfl⟩, ?_⟩, hr⟩
      rw [(List.getElem?_eq_some_iff.mp hl).2]
      exact List.mem_map.mpr ⟨q, hq, by simp [fileRows, hf]⟩
  · rintro (hm | ⟨rows, ⟨x, hx, hxr⟩, hr⟩)
    · exact .inl hm
    · obtain ⟨l, hl, rfl⟩ := List.mem_mapIdx.mp hx
      obtain ⟨q, hq, hqr⟩ := List.mem_map.mp hxr
      obtain ⟨rows', hf, _⟩ := hc.parts l _ (List.getElem?_eq_getElem hl) q hq
      refine .inr ⟨l, _, q, rows', List.getElem?_eq_getElem hl, hq, hf, ?_⟩
      simp only [fileRows, hf, Option.getD_some] at hqr
      rw [hqr]; exact hr

def demoCols : Int × Int → List Int := fun k => [k.1, k.2]

/-- Row (3,0) flushed, then rows (1,0) and (5,0) flushed: the second part covers 3. -/
def demoGetHist : List (HOp DRow) :=
  [.insert ((3, 0), 7), .flush, .insert ((1, 0), 8), .insert ((5, 0), 9), .flush, .insert ((9, 9), 1)]

def demoGet (groups : List DRow → List (List DRow)) (k : Int × Int) : Option (Option DRow) :=
  (hrun lexLe (demoEnv 4 0 0) (createDisk 3, createProc 3) demoGetHist).bind fun s =>
    getRow lexLe demoCols Prod.fst groups s.1 s.2 k

/-- The rows in memory and in the last part are found; (3,0) is not, though a scan returns it. -/
theorem demoGet_misses : demoGet (fun r => [r]) (9, 9) = some (some ((9, 9), 1)) ∧
    demoGet (fun r => [r]) (5, 0) = some (some ((5, 0), 9)) ∧
    demoGet (fun r => [r]) (3, 0) = some none ∧
    histView (demoEnv 4 0 0) 3 demoGetHist = some ([((9, 9), 1)], [[((3, 0), 7)], [((1, 0), 8), ((5, 0), 9)]]) := by
  decide +kernel

/-- C21 fails: overlapping parts. -/
theorem C21_violated : ¬ C21_full lexLe demoCols (Prod.fst : DRow → Int × Int) := by
  intro hfull
  have hg := demoGet_misses.2.2.1
  have hv := demoGet_misses.2.2.2
  unfold demoGet at hg
  unfold histView at hv
  cases h1 : hrun lexLe (demoEnv 4 0 0) (createDisk 3, createProc 3) demoGetHist with
  | none => rw [h1] at hg; simp at hg
  | some s =>
    rw [h1] at hg hv
    simp only [Option.bind_some] at hg hv
    obtain ⟨hc, _, _⟩ := hrun_clean lexTotOrd (demoEnv_ok 4 0 0 (by omega)) demoGetHist
      (create_clean lexLe Prod.fst 3) (by simp [createProc]) h1
    -- the stored rows are those of the scan
    obtain ⟨t, ht, htv⟩ := Option.map_eq_some_iff.mp hv
    have hmem : t.mem = [((9, 9), 1)] := by simpa using congrArg Prod.fst htv
    have hparts : t.parts = [[((3, 0), 7)], [((1, 0), 8), ((5, 0), 9)]] := by simpa using congrArg Prod.snd htv
    have hst := fun r => stored_iff hc ht (r := r)
    have : getRow lexLe demoCols Prod.fst (fun r => [r]) s.1 s.2 (3, 0) = some (some ((3, 0), 7)) := by
      refine hfull (fun r => [r]) (fun rows => by simp) s.1 s.2 hc ((3, 0), 7) ?_ ?_
      · rw [hst]; simp [hmem, hparts]
      · intro r' hr' hk
        rw [hst, hmem, hparts] at hr'
        simp at hr'
        rcases hr' with rfl | rfl | rfl | rfl <;> simp_all
    rw [hg] at this
    simp at this

/-- The second reason: one sorted file with two row groups. The key (2,5) of the second group lies in
the column ranges of the first. -/
theorem C21_group_misses :
    getFile demoCols (Prod.fst : DRow → Int × Int) (2, 5) [[((1, 1), 0), ((1, 9), 1), ((2, 3), 2)], [((2, 5), 3)]] = none ∧
    getFile demoCols (Prod.fst : DRow → Int × Int) (2, 5) [[((1, 1), 0), ((1, 9), 1), ((2, 3), 2), ((2, 5), 3)]] =
      some ((2, 5), 3) := by
  decide

/-! ### C22 -/

theorem nodup_length_le {α : Type} [DecidableEq α] {l m : List α} (h : l.Nodup) (hs : ∀ x ∈ l, x ∈ m) :
    l.length ≤ m.length := by
  induction l generalizing m with
  | nil => simp
  | cons a l ih =>
    rw [List.nodup_cons] at h
    have ha := hs a (by simp)
    have := ih (m := m.erase a) h.2 (fun x hx => by
      have hne : x ≠ a := by rintro rfl; exact h.1 hx
      exact (List.mem_erase_of_ne hne).mpr (hs x (List.mem_cons_of_mem _ hx)))
    rw [List.length_erase_of_mem ha] at this
    have := List.length_pos_of_mem ha
    simp
    omega

section
variable {A V : Type} [DecidableEq A]

/-- The version remembered for a key. -/
def remembered (c : Lru A) (a : A) : Option Int := (c.find? fun e => decide (e.1 = a)).map Prod.snd

/-- The requirement: once a version was fetched for `a`, as long as it is the latest fetch for `a` and at
most ten keys are in play, every replace with another version fails and leaves the rows alone, and
the first one with the fetched version succeeds. -/
def C22_full (A V : Type) [DecidableEq A] : Prop :=
  ∀ (t : CasTbl A V) (a : A) (v : Int) (ops : List (CasOp A V)) (keys : List A), keys.length ≤ 10 → a ∈ keys →
    (∀ o ∈ ops, o.key ∈ keys) →
    (∀ o ∈ ops, ∀ w, o ≠ .getCas a w) → (∀ o ∈ ops, ∀ x, o ≠ .replace a v x) →
    ∀ w x, let t' := (t.getCas a v).run ops
      (w ≠ v → (t'.replace a w x).1 = false ∧ (t'.replace a w x).2.rows = t'.rows) ∧
      (w = v → (t'.replace a w x).1 = true ∧ (t'.replace a w x).2.rows = t'.rows ++ [(a, v, x)])

/-- Keys in the cache ahead of `a`. -/
theorem lru_keep (ops : List (CasOp A V)) (keys : List A) (hk : keys.length ≤ 10) (a : A) (ha : a ∈ keys) (v : Int) :
    (∀ o ∈ ops, o.key ∈ keys ∧ o.key ≠ a) → ∀ (t : CasTbl A V) (pre post : Lru A),
    t.cache = pre ++ (a, v) :: post → (pre.map Prod.fst).Nodup → (∀ e ∈ pre, e.1 ∈ keys ∧ e.1 ≠ a) →
    ∃ pre' post', (t.run ops).cache = pre' ++ (a, v) :: post' ∧ ∀ e ∈ pre', e.1 ≠ a := by
  induction ops with
  | nil => intro _ t pre post h hn hp; exact ⟨pre, post, h, fun e he => (hp e he).2⟩
  | cons o ops ih =>
    intro ho t pre post h hn hp
    have ho' := fun x hx => ho x (List.mem_cons_of_mem _ hx)
    obtain ⟨hok, hoa⟩ := ho o (by simp)
    have hflt : ∀ b, b ≠ a → (t.cache.filter fun e => decide (e.1 ≠ b)) =
        (pre.filter fun e => decide (e.1 ≠ b)) ++ (a, v) :: (post.filter fun e => decide (e.1 ≠ b)) := by
      intro b hb
      rw [h, List.filter_append, List.filter_cons]
      simp [Ne.symm hb]
    have hpn : ∀ b, (((pre.filter fun e => decide (e.1 ≠ b))).map Prod.fst).Nodup := by
      intro b
      rw [List.Nodup, List.pairwise_map] at hn ⊢
      exact hn.filter _
    have hpm : ∀ b, ∀ e ∈ pre.filter (fun e => decide (e.1 ≠ b)), e.1 ∈ keys ∧ e.1 ≠ a :=
      fun b e he => hp e (List.mem_filter.mp he).1
    show ∃ pre' post', ((t.step o).run ops).cache = _ ∧ _
    cases o with
    | getCas b w =>
      simp only [CasOp.key] at hok hoa
      -- the new front part has distinct keys of `keys` other than `a`
      let front : Lru A := (b, w) :: pre.filter fun e => decide (e.1 ≠ b)
      have hfn : (front.map Prod.fst).Nodup := by
        rw [List.map_cons, List.nodup_cons]
        refine ⟨?_, hpn b⟩
        rw [List.mem_map]
        rintro ⟨e, he, heq⟩
        have := (List.mem_filter.mp he).2
        simp only [ne_eq, decide_eq_true_eq] at this
        exact this heq
      have hfm : ∀ e ∈ front, e.1 ∈ keys ∧ e.1 ≠ a := by
        intro e he
        rcases List.mem_cons.mp he with rfl | he
        · exact ⟨hok, hoa⟩
        · exact hpm b e he
      have hlen : front.length + 1 ≤ keys.length := by
        have hnd : (a :: front.map Prod.fst).Nodup := by
          rw [List.nodup_cons]
          refine ⟨?_, hfn⟩
          rw [List.mem_map]
          rintro ⟨e, he, heq⟩
          exact (hfm e he).2 heq
        have hsub : ∀ x ∈ a :: front.map Prod.fst, x ∈ keys := by
          intro x hx
          rcases List.mem_cons.mp hx with rfl | hx
          · exact ha
          · obtain ⟨e, he, rfl⟩ := List.mem_map.mp hx
            exact (hfm e he).1
        have := nodup_length_le hnd hsub
        simpa using this
      have hcache : (t.step (.getCas b w)).cache = (front ++ (a, v) :: (post.filter fun e => decide (e.1 ≠ b))).take 10 := by
        simp only [CasTbl.step, CasTbl.getCas, Lru.put, hflt b hoa, front, List.cons_append]
      have hsplit : (front ++ (a, v) :: (post.filter fun e => decide (e.1 ≠ b))).take 10 =
          front ++ (a, v) :: (post.filter fun e => decide (e.1 ≠ b)).take (10 - front.length - 1) := by
        rw [List.take_append, List.take_of_length_le (by omega)]
        have : 10 - front.length = (10 - front.length - 1) + 1 := by omega
        rw [this, List.take_succ_cons]
        simp
      exact ih ho' _ front _ (by rw [hcache, hsplit]) hfn hfm
    | replace b w x =>
      simp only [CasOp.key] at hok hoa
      have hcache : (t.step (.replace b w x)).cache = (t.cache.filter fun e => decide (e.1 ≠ b)) := by
        simp only [CasTbl.step, CasTbl.replace, Lru.pop]
        split
        · rename_i c cache hc
          simp only [Prod.mk.injEq] at hc
          split <;> exact hc.2.symm
        · rename_i cache hc
          simp only [Prod.mk.injEq] at hc
          exact hc.2.symm
      exact ih ho' _ _ _ (by rw [hcache, hflt b hoa]) (hpn b) (hpm b)

/-- Missing from the full statement: only the first replace of that key after the fetch is
protected, since it takes the remembered version out of the cache whether it succeeds or not. -/
theorem C22_partial (t : CasTbl A V) (a : A) (v : Int) (ops : List (CasOp A V)) (keys : List A)
    (hk : keys.length ≤ 10) (ha : a ∈ keys) (ho : ∀ o ∈ ops, o.key ∈ keys ∧ o.key ≠ a) (w : Int) (x : V) :
    let t' := (t.getCas a v).run ops
    (w ≠ v → (t'.replace a w x).1 = false ∧ (t'.replace a w x).2.rows = t'.rows) ∧
    (w = v → (t'.replace a w x).1 = true ∧ (t'.replace a w x).2.rows = t'.rows ++ [(a, v, x)]) := by
  intro t'
  obtain ⟨pre, post, hc, hp⟩ := lru_keep ops keys hk a ha v ho (t.getCas a v) []
    ((t.cache.filter fun e => decide (e.1 ≠ a)).take 9) (by simp [CasTbl.getCas, Lru.put]) (by simp) (by simp)
  have hpop : t'.cache.pop a = (some v, t'.cache.filter fun e => decide (e.1 ≠ a)) := by
    simp only [Lru.pop, Prod.mk.injEq, and_true]
    show (((t.getCas a v).run ops).cache.find? _).map _ = _
    rw [hc, List.find?_append]
    have : pre.find? (fun e => decide (e.1 = a)) = none := by
      rw [List.find?_eq_none]
      intro e he
      simpa using hp e he
    rw [this]
    simp
  constructor
  · intro hne
    have : v ≠ w := fun e => hne e.symm
    simp [CasTbl.replace, hpop, this]
  · intro he
    subst he
    simp [CasTbl.replace, hpop]

/-- C22 fails: a stale writer that is refused simply tries again. -/
theorem C22_violated : ¬ C22_full Nat Nat := by
  intro h
  have := (h ⟨[], []⟩ 1 5 [.replace 1 4 0] [1] (by simp) (by simp) (by simp [CasOp.key]) (by simp) (by simp) 4 0).1 (by decide)
  revert this
  decide

/-- And two writers that fetched the same version both succeed: the second overwrites the first's
update unnoticed. -/
theorem C22_lost_update :
    let t := ((⟨[(1, 5, 0)], []⟩ : CasTbl Nat Nat).getCas 1 5).getCas 1 5
    (t.replace 1 5 10).1 = true ∧ ((t.replace 1 5 10).2.replace 1 5 20).1 = true ∧
    ((t.replace 1 5 10).2.replace 1 5 20).2.rows = [(1, 5, 0), (1, 5, 10), (1, 5, 20)] := by decide

/-- The bound on the number of keys is needed: the eleventh fetch evicts the first. -/
theorem C22_eviction :
    let t := (⟨[], []⟩ : CasTbl Nat Nat).run ((List.range 11).map fun i => .getCas i 5)
    (t.replace 0 4 1).1 = true ∧ (t.replace 1 4 1).1 = false := by decide

example : ∃ t' : CasTbl Nat Nat, t' = ((⟨[(1, 5, 0)], []⟩ : CasTbl Nat Nat).getCas 1 5).run [.getCas 2 7, .replace 2 7 1] ∧
    (t'.replace 1 4 9).1 = false ∧ (t'.replace 1 5 9).1 = true := ⟨_, rfl, by decide, by decide⟩

end

end OptiPrism.Storage
