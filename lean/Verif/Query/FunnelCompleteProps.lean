import Verif.Query.FunnelUserProps

/-! Properties C85 (completeness) and C86 (ratios). -/

namespace OptiPrism.Query

variable {G K : Type}

theorem step_match {c : FCfg} (g : FGroup) (r : FRow G K) (h : matchesStep c g.curStep r = true) :
    (g.step c r).1 = if g.curStep < c.len - 1 then
        { g with completed := g.completed + 1,
                 steps := fun i => if i = g.curStep then r.ts else g.steps i,
                 curStep := g.curStep + 1 }
      else { FGroup.pushed c { g with
              completed := g.completed + 1,
              steps := fun i => if i = g.curStep then r.ts else g.steps i } with
             curStep := 0, completed := 0 } := by
  unfold FGroup.step
  rw [if_pos h]
  dsimp only
  split <;> rfl

theorem step_mismatch {c : FCfg} (g : FGroup) (r : FRow G K) (h : matchesStep c g.curStep r = false) :
    (g.step c r).1 = g := by
  unfold FGroup.step
  rw [if_neg (by rw [h]; simp)]

/-- Some attempt was completed. -/
def Done (c : FCfg) (g : FGroup) : Prop :=
  ∃ k b, g.buckets k = some b ∧ ∀ i, i < c.len → 1 ≤ (b i).total

/-- The state of the only user of a group, all of whose rows lie within the window of the first. -/
structure Greedy (c : FCfg) (t0 : Int) (P : List (FRow G K)) (g : FGroup) : Prop where
  first : g.first = false
  comp : g.completed = g.curStep
  lt : g.curStep < c.len
  start : 0 < g.curStep → t0 ≤ g.steps 0
  key : 0 < g.curStep → c.key (g.steps 0) ∈ c.buckets
  bucket : ∀ k, (g.buckets k).isSome = decide (k ∈ c.buckets)
  nonneg : ∀ k b, g.buckets k = some b → ∀ i, 0 ≤ (b i).total
  greedy : ∀ es : List (FRow G K), es.Sublist P → es.length ≤ c.len →
    (∀ j r, es[j]? = some r → FRow.step r j = true) → Done c g ∨ es.length ≤ g.curStep

theorem pushed_total (c : FCfg) (g : FGroup) (k : Int) (b : Nat → StepResult)
    (h : g.buckets k = some b) : ∃ b', (g.pushed c).buckets k = some b' ∧
      ∀ i, (b' i).total = (b i).total +
        if k = c.key (g.steps 0) ∧ i < g.completed then 1 else 0 := by
  unfold FGroup.pushed
  by_cases h0 : g.completed = 0
  · rw [if_pos h0]
    exact ⟨b, h, fun i => by rw [if_neg (by omega)]; simp⟩
  · rw [if_neg h0]
    dsimp only
    by_cases hk : k = c.key (g.steps 0)
    · rw [if_pos hk, h]
      refine ⟨_, rfl, fun i => ?_⟩
      have : (setDropped c (addSteps g b) i).total = (addSteps g b i).total := by
        unfold setDropped; split <;> rfl
      rw [this]
      unfold addSteps
      by_cases hi : i < g.completed
      · rw [if_pos hi, if_pos (c := k = c.key (g.steps 0) ∧ i < g.completed) ⟨hk, hi⟩]
      · rw [if_neg hi, if_neg (fun x => hi x.2)]; simp
    · rw [if_neg hk]
      exact ⟨b, h, fun i => by rw [if_neg (fun x => hk x.1)]; simp⟩

theorem pushed_isSome (c : FCfg) (g : FGroup) (k : Int) :
    ((g.pushed c).buckets k).isSome = (g.buckets k).isSome := by
  unfold FGroup.pushed
  split
  · rfl
  · dsimp only
    split
    · rw [Option.isSome_map]
    · rfl

theorem pushed_nonneg (c : FCfg) (g : FGroup)
    (h : ∀ k b, g.buckets k = some b → ∀ i, 0 ≤ (b i).total) :
    ∀ k b, (g.pushed c).buckets k = some b → ∀ i, 0 ≤ (b i).total := by
  intro k b hb i
  have hs := pushed_isSome c g k
  rw [hb] at hs
  cases hg : g.buckets k with
  | none => rw [hg] at hs; cases hs
  | some b0 =>
    obtain ⟨b', e, ht⟩ := pushed_total c g k b0 hg
    rw [hb] at e
    cases e
    rw [ht i]
    have := h k b0 hg i
    split <;> omega

theorem pushed_done (c : FCfg) (g : FGroup) (h : Done c g) : Done c (g.pushed c) := by
  obtain ⟨k, b, hb, ht⟩ := h
  obtain ⟨b', e, ht'⟩ := pushed_total c g k b hb
  refine ⟨k, b', e, fun i hi => ?_⟩
  rw [ht' i]
  have := ht i hi
  split <;> omega

theorem sublist_snoc {α : Type} {es P : List α} {r : α} (h : es.Sublist (P ++ [r])) :
    es.Sublist P ∨ ∃ es', es = es' ++ [r] ∧ es'.Sublist P := by
  obtain ⟨l1, l2, e, h1, h2⟩ := List.sublist_append_iff.mp h
  cases l2 with
  | nil => left; rw [e, List.append_nil]; exact h1
  | cons x l =>
    right
    have : x :: l = [r] := by
      have hlen := h2.length_le
      cases l with
      | nil => rw [List.singleton_sublist, List.mem_singleton] at h2; rw [h2]
      | cons y l => simp at hlen
    exact ⟨l1, by rw [e, this], h1⟩

/-- A row of the user is matched greedily. -/
theorem step_greedy {c : FCfg} {t0 : Int} {P : List (FRow G K)} {g : FGroup}
    (he : ∀ o ∈ c.orders, o = .exact) (h : Greedy c t0 P g) (r : FRow G K) (ht : t0 ≤ r.ts)
    (hkey : c.key r.ts ∈ c.buckets) : Greedy c t0 (P ++ [r]) (g.step c r).1 := by
  have hms : matchesStep c g.curStep r = r.step g.curStep := by
    unfold matchesStep
    have hl : g.curStep < c.orders.length := h.lt
    rw [List.getElem?_eq_getElem hl, he _ (List.getElem_mem hl)]
  cases hm : r.step g.curStep with
  | false =>
    rw [step_mismatch g r (by rw [hms, hm])]
    refine ⟨h.first, h.comp, h.lt, h.start, h.key, h.bucket, h.nonneg, ?_⟩
    intro es hs hlen hacc
    rcases sublist_snoc hs with hs | ⟨es', rfl, hs'⟩
    · exact h.greedy es hs hlen hacc
    · rw [List.length_append, List.length_singleton] at hlen
      have hl := hacc es'.length r (by rw [List.getElem?_append_right (Nat.le_refl _)]; simp)
      rcases h.greedy es' hs' (by omega) (fun j q hq => hacc j q (by
        obtain ⟨hlt, _⟩ := List.getElem?_eq_some_iff.mp hq
        rw [List.getElem?_append_left hlt]; exact hq)) with hd | hle
      · exact .inl hd
      · right
        rw [List.length_append, List.length_singleton]
        have : es'.length ≠ g.curStep := by
          intro e; rw [e, hm] at hl; cases hl
        omega
  | true =>
    rw [step_match g r (by rw [hms, hm])]
    have hs0 : t0 ≤ (if 0 = g.curStep then r.ts else g.steps 0) := by
      split
      · exact ht
      · exact h.start (by omega)
    have hk0 : c.key (if 0 = g.curStep then r.ts else g.steps 0) ∈ c.buckets := by
      split
      · exact hkey
      · exact h.key (by omega)
    have grow : ∀ es : List (FRow G K), es.Sublist (P ++ [r]) → es.length ≤ c.len →
        (∀ j q, es[j]? = some q → FRow.step q j = true) → Done c g ∨ es.length ≤ g.curStep + 1 := by
      intro es hs hlen hacc
      rcases sublist_snoc hs with hs | ⟨es', rfl, hs'⟩
      · exact (h.greedy es hs hlen hacc).imp id (fun h => by omega)
      · rw [List.length_append, List.length_singleton] at hlen ⊢
        exact (h.greedy es' hs' (by omega) (fun j q hq => hacc j q (by
          obtain ⟨hlt, _⟩ := List.getElem?_eq_some_iff.mp hq
          rw [List.getElem?_append_left hlt]; exact hq))).imp id (fun h => by omega)
    by_cases hl : g.curStep < c.len - 1
    · rw [if_pos hl]
      refine ⟨h.first, ?_, ?_, fun _ => hs0, fun _ => hk0, h.bucket, h.nonneg, grow⟩
      · show g.completed + 1 = g.curStep + 1
        rw [h.comp]
      · show g.curStep + 1 < c.len
        omega
    · rw [if_neg hl]
      have hlt := h.lt
      refine ⟨(pushed_first c _).trans h.first, rfl, by show 0 < c.len; omega,
        fun hc => absurd hc (Nat.lt_irrefl 0), fun hc => absurd hc (Nat.lt_irrefl 0), ?_, ?_, ?_⟩
      · intro k
        exact (pushed_isSome c { g with
              completed := g.completed + 1,
              steps := fun i => if i = g.curStep then r.ts else g.steps i } k).trans (h.bucket k)
      · exact pushed_nonneg c { g with
              completed := g.completed + 1,
              steps := fun i => if i = g.curStep then r.ts else g.steps i } h.nonneg
      · intro es _ _ _
        left
        have hsome := h.bucket (c.key (if 0 = g.curStep then r.ts else g.steps 0))
        simp only [hk0, decide_true] at hsome
        cases hb : g.buckets (c.key (if 0 = g.curStep then r.ts else g.steps 0)) with
        | none => rw [hb] at hsome; cases hsome
        | some b =>
          obtain ⟨b', e, ht'⟩ := pushed_total c { g with
              completed := g.completed + 1,
              steps := fun i => if i = g.curStep then r.ts else g.steps i } _ b hb
          refine ⟨_, b', e, fun i hi => ?_⟩
          rw [ht' i, if_pos ⟨rfl, by show i < g.completed + 1; rw [h.comp]; omega⟩]
          have := h.nonneg _ b hb i
          omega

theorem runG_greedy {c : FCfg} (hn : 0 < c.len) (hk : c.hasConst = false)
    (he : ∀ o ∈ c.orders, o = .exact) (hx : c.excludes = []) (u t0 : Int) :
    ∀ (rows P : List (FRow G K)) (g : FGroup), Greedy c t0 P g → g.cur = u →
    (∀ r ∈ rows, r.user = u ∧ t0 ≤ r.ts ∧ r.ts - t0 ≤ c.window ∧ c.key r.ts ∈ c.buckets) →
    Greedy c t0 (P ++ rows) (rows.foldl (rowPure c) g)
  | [], P, g, h, _, _ => by simpa using h
  | r :: rows, P, g, h, hc, hr => by
    obtain ⟨h1, h2, h3, h4⟩ := hr r (by simp)
    have e : rowPure c g r = (g.step c r).1 := by
      unfold rowPure
      rw [seen_eq h.first]
      dsimp only
      have hp : g.partition c r = g := by
        unfold FGroup.partition
        rw [if_neg (by rw [h1, hc]; simp)]
      by_cases h0 : g.curStep > 0
      · rw [if_pos h0, hx]
        show (if (!true) = true then _ else _) = _
        have := h.start h0
        rw [if_neg (by simp), if_neg (by omega), hp]
      · rw [if_neg h0]
        unfold FGroup.fresh
        rw [hk]
        simp only [Bool.false_eq_true, if_false]
        rw [hp]
    rw [List.foldl_cons]
    have g1 : Greedy c t0 (P ++ [r]) (rowPure c g r) := by
      rw [e]; exact step_greedy he h r h2 h4
    have := runG_greedy hn hk he hx u t0 rows (P ++ [r]) (rowPure c g r) g1
      (by rw [rowPure_cur, h1]) (fun q hq => hr q (List.mem_cons_of_mem _ hq))
    simpa using this

theorem sorted_split {α : Type} (f : α → Int) (u : Int) : ∀ l : List α,
    l.Pairwise (fun a b => f a ≤ f b) →
    l = l.filter (fun a => decide (f a < u)) ++ (l.filter (fun a => decide (f a = u)) ++
      l.filter (fun a => decide (u < f a)))
  | [], _ => rfl
  | a :: l, h => by
    rw [List.pairwise_cons] at h
    have ih := sorted_split f u l h.2
    rcases Int.lt_trichotomy (f a) u with h1 | h1 | h1
    · rw [List.filter_cons_of_pos (by simp [h1]), List.filter_cons_of_neg (by simp; omega),
        List.filter_cons_of_neg (by simp; omega), List.cons_append, ← ih]
    · have e1 : l.filter (fun a => decide (f a < u)) = [] := by
        rw [List.filter_eq_nil_iff]
        intro x hx
        have := h.1 x hx
        simp; omega
      rw [List.filter_cons_of_neg (by simp; omega), List.filter_cons_of_pos (by simp [h1]),
        List.filter_cons_of_neg (by simp; omega), e1, List.nil_append, List.cons_append]
      rw [e1, List.nil_append] at ih
      rw [← ih]
    · have e1 : l.filter (fun a => decide (f a < u)) = [] := by
        rw [List.filter_eq_nil_iff]
        intro x hx
        have := h.1 x hx
        simp; omega
      have e2 : l.filter (fun a => decide (f a = u)) = [] := by
        rw [List.filter_eq_nil_iff]
        intro x hx
        have := h.1 x hx
        simp; omega
      rw [List.filter_cons_of_neg (by simp; omega), List.filter_cons_of_neg (by simp; omega),
        List.filter_cons_of_pos (by simp [h1]), e1, e2, List.nil_append, List.nil_append]
      rw [e1, e2, List.nil_append, List.nil_append] at ih
      rw [← ih]

variable [DecidableEq G] [DecidableEq K]

theorem cnt_nonneg {c : FCfg} (hn : 0 < c.len) (hk : c.hasConst = false) (hu : c.unique = false)
    (rows : List (FRow G K)) (k : Int) (i : Nat) :
    0 ≤ cnt (((runG c rows).pushed c).buckets k) i := by
  obtain ⟨A, o, hi, _⟩ := runG_inv hn hk hu rows
  obtain ⟨_, p2, _, _, _⟩ := hi.pushed
  cases hb : ((runG c rows).pushed c).buckets k with
  | none => exact Int.le_refl 0
  | some b =>
    show 0 ≤ (b i).total
    rw [(p2 k b hb).total i]; omega

/-- C85 (partial): a user whose rows in a group all lie within the window of the first one and
contain rows for the first `m + 1` steps in order is counted at step `m`: exact step order, no
exclusions, no constants, no unique counting. -/
theorem C85_partial (c : FCfg) (hk : c.hasConst = false) (hu : c.unique = false)
    (he : ∀ o ∈ c.orders, o = .exact) (hx : c.excludes = []) (rows : List (FRow G K))
    (hp : rows.Pairwise fun a b => a.user ≤ b.user) (h0 : ∀ r ∈ rows, 0 ≤ r.user) (g : G) (u : Int)
    (t0 : Int)
    (hw : ∀ r ∈ rows, r.group = g → r.user = u →
      t0 ≤ r.ts ∧ r.ts - t0 ≤ c.window ∧ c.key r.ts ∈ c.buckets)
    (es : List (FRow G K)) (hs : es.Sublist rows) (hes : ∀ r ∈ es, r.group = g ∧ r.user = u)
    (m : Nat) (hm : es.length = m + 1) (hlen : m + 1 ≤ c.len)
    (hacc : ∀ j r, es[j]? = some r → FRow.step r j = true) :
    ∃ k, 1 ≤ countAlone c rows g k m := by
  have hn : 0 < c.len := by omega
  have hne : rows ≠ [] := by
    intro e
    rw [e, List.sublist_nil] at hs
    rw [hs] at hm; simp at hm
  let gr := rows.filter fun r => decide (r.group = g)
  let mine := gr.filter fun r => decide (r.user = u)
  have hgp : gr.Pairwise fun a b => a.user ≤ b.user := hp.sublist List.filter_sublist
  have hsplit := sorted_split FRow.user u gr hgp
  have hmine : es.Sublist mine := by
    have h1 : es.filter (fun r => decide (r.group = g)) = es :=
      List.filter_eq_self.mpr fun r hr => by simp [(hes r hr).1]
    have h2 : es.filter (fun r => decide (r.user = u)) = es :=
      List.filter_eq_self.mpr fun r hr => by simp [(hes r hr).2]
    have := (hs.filter (fun r => decide (r.group = g)))
    rw [h1] at this
    have := this.filter (fun r => decide (r.user = u))
    rw [h2] at this
    exact this
  have hmem : ∀ r ∈ mine, r.user = u ∧ t0 ≤ r.ts ∧ r.ts - t0 ≤ c.window ∧ c.key r.ts ∈ c.buckets := by
    intro r hr
    obtain ⟨hr1, hr2⟩ := List.mem_filter.mp hr
    obtain ⟨hr3, hr4⟩ := List.mem_filter.mp hr1
    have hr2 : r.user = u := by simpa using hr2
    exact ⟨hr2, hw r hr3 (by simpa using hr4) hr2⟩
  -- the greedy matching of this user's rows
  have hgr : Greedy c t0 mine (runG c mine) := by
    cases hmn : mine with
    | nil =>
      rw [hmn] at hmine
      rw [List.sublist_nil.mp hmine] at hm
      simp at hm
    | cons r rest =>
      rw [hmn] at hmem
      obtain ⟨h1, h2, h3, h4⟩ := hmem r (by simp)
      have g0 : Greedy c t0 ([] : List (FRow G K))
          { FGroup.new c with first := false, cur := r.user } := by
        refine ⟨rfl, rfl, hn, fun h => absurd h (Nat.lt_irrefl 0), fun h => absurd h (Nat.lt_irrefl 0),
          ?_, ?_, ?_⟩
        · intro k
          show (if k ∈ c.buckets then some (fun _ => (⟨0, 0, 0, 0⟩ : StepResult)) else none).isSome = _
          split
          next h => simp [h]
          next h => simp [h]
        · intro k b hb i
          have hb : (if k ∈ c.buckets then some (fun _ => (⟨0, 0, 0, 0⟩ : StepResult)) else none) =
            some b := hb
          split at hb
          · cases hb; exact Int.le_refl 0
          · cases hb
        · intro es hes _ _
          right
          rw [List.sublist_nil.mp hes]
          exact Nat.le_refl 0
      have e : runG c (r :: rest) =
          rest.foldl (rowPure c) (rowPure c { FGroup.new c with first := false, cur := r.user } r) := rfl
      rw [e]
      have := runG_greedy hn hk he hx u t0 (r :: rest) [] _ g0 h1 hmem
      exact this
  have hdone : Done c (runG c mine) ∨ es.length ≤ (runG c mine).curStep :=
    hgr.greedy es hmine (by omega) hacc
  -- after the open attempt is added
  have hcount : ∃ k b, ((runG c mine).pushed c).buckets k = some b ∧ 1 ≤ (b m).total := by
    rcases hdone with hd | hle
    · obtain ⟨k, b, hb, ht⟩ := pushed_done c _ hd
      exact ⟨k, b, hb, ht m (by omega)⟩
    · have hpos : 0 < (runG c mine).curStep := by omega
      have hkey := hgr.key hpos
      have hsome := hgr.bucket (c.key ((runG c mine).steps 0))
      simp only [hkey, decide_true] at hsome
      cases hb : (runG c mine).buckets (c.key ((runG c mine).steps 0)) with
      | none => rw [hb] at hsome; cases hsome
      | some b =>
        obtain ⟨b', e, ht'⟩ := pushed_total c _ _ b hb
        refine ⟨_, b', e, ?_⟩
        rw [ht' m, if_pos ⟨rfl, by rw [hgr.comp]; omega⟩]
        have := hgr.nonneg _ b hb m
        omega
  obtain ⟨k, b, hb, ht⟩ := hcount
  refine ⟨k, ?_⟩
  rw [countAlone_eq hn hk hu rows hne hp h0]
  show 1 ≤ cnt (((runG c gr).pushed c).buckets k) m
  have hnx : ∀ y : FRow G K, NotExcluded c y := by
    intro y j hj; rw [hx] at hj; simp at hj
  rw [hsplit, runG_add hn hk hu _ _ ?_ (fun y _ => hnx y), runG_add hn hk hu _ _ ?_ (fun y _ => hnx y)]
  · have n1 := cnt_nonneg hn hk hu (gr.filter fun r => decide (r.user < u)) k m
    have n2 := cnt_nonneg hn hk hu (gr.filter fun r => decide (u < r.user)) k m
    have n3 : cnt (((runG c (gr.filter fun r => decide (r.user = u))).pushed c).buckets k) m =
        (b m).total := by
      show cnt (((runG c mine).pushed c).buckets k) m = _
      rw [hb]; rfl
    omega
  · intro x hx y hy
    have h1 := (List.mem_filter.mp hx).2
    have h2 := (List.mem_filter.mp hy).2
    simp only [decide_eq_true_eq] at h1 h2
    omega
  · intro x hx y hy
    have h1 := (List.mem_filter.mp hx).2
    simp only [decide_eq_true_eq] at h1
    rcases List.mem_append.mp hy with hy | hy
    · have h2 := (List.mem_filter.mp hy).2
      simp only [decide_eq_true_eq] at h2
      omega
    · have h2 := (List.mem_filter.mp hy).2
      simp only [decide_eq_true_eq] at h2
      omega

example : countAlone exCfg [exRow 1 0 0, exRow 1 2 0, exRow 1 8 1, exRow 2 0 1] () 0 1 = 1 := by decide

/-- C85 is violated: the second and third row complete both steps within the window of 10, but the
attempt begun by the first row uses up the second one. -/
theorem C85_violated :
    Conversion exCfg [exRow 1 8 0, exRow 1 11 1] ∧
    countAlone exCfg [exRow 1 0 0, exRow 1 8 0, exRow 1 11 1] () 0 1 = 0 := by
  refine ⟨⟨by simp, ?_, ?_, ?_, ?_⟩, by decide⟩
  · intro j r h
    match j with
    | 0 => simp at h; rw [← h]; rfl
    | 1 => simp at h; rw [← h]; rfl
    | n + 2 => simp at h
  · simp [exRow]
  · simp [exRow]
  · intro f r hf hr
    simp at hf hr
    rw [← hf, hr]
    decide

/-! ### Ratios -/

/-- C86 (partial): the conversion ratio reported by one worker for a funnel bucket is the percentage
of the first step, between 0 and 100. -/
theorem C86_partial (c : FCfg) (exist : Option (Int → Bool)) (batches : List (List (FRow G K)))
    (f : G → Int → Option (Nat → StepResult)) (h : funnel c exist batches = some f) (g : G) (k : Int)
    (b : Nat → StepResult) (hb : f g k = some b) (i : Nat) (hi : i < c.len) :
    0 < (b 0).total ∧ conversionRatio b i * ((b 0).total : Rat) = ((b i).total : Rat) * 100 := by
  obtain ⟨A, _, _, hc, _⟩ := funnel_attempts c (by omega) exist batches f h g
  obtain ⟨_, hc⟩ := hc k b hb
  have hpos : 0 < (b 0).total := by
    have h1 := hc.total 0
    have h2 : (b 0).total ≠ 0 := by
      unfold funnel at h
      cases hs : fBatches c exist batches with
      | none => rw [hs] at h; cases h
      | some st =>
        rw [hs] at h
        cases h
        unfold fFinish at hb
        cases hg : st.groups g with
        | none => rw [hg] at hb; cases hb
        | some gr =>
          rw [hg] at hb
          dsimp only at hb
          cases hq : (gr.pushed c).buckets k with
          | none => rw [hq] at hb; cases hb
          | some b0 =>
            rw [hq] at hb
            dsimp only at hb
            split at hb
            next hz => cases hb; exact hz
            next => cases hb
    omega
  refine ⟨hpos, ?_⟩
  have hne : ((b 0).total : Rat) ≠ 0 := by
    intro e
    have : (b 0).total = 0 := by exact_mod_cast e
    omega
  unfold conversionRatio
  by_cases h0 : i = 0
  · rw [if_pos h0, h0, Rat.mul_comm]
  · rw [if_neg h0]
    by_cases ht : (b i).total > 0
    · rw [if_pos ht, Rat.mul_assoc, Rat.mul_comm 100, ← Rat.mul_assoc, Rat.div_mul_cancel hne]
    · rw [if_neg ht]
      have : (b i).total = 0 := by
        have := hc.total i
        omega
      rw [this, Rat.zero_mul]
      simp [Rat.zero_mul]

/-- C86 is violated: average times are reported a hundred times too large, and the final ratio is the
average of the ratios of the workers, not the ratio of the final numbers. -/
theorem C86_violated :
    (∀ (b : Nat → StepResult) (i : Nat), 0 < i → 0 < (b i).total →
      avgTime b i = 100 * (((b i).time : Rat) / ((b i).total : Rat))) ∧
    ∃ b1 b2 : Nat → StepResult, finalTotal [b1, b2] 0 = 4 ∧ finalTotal [b1, b2] 1 = 1 ∧
      finalRatio [b1, b2] 1 = 50 := by
  refine ⟨?_, ?_⟩
  · intro b i h0 ht
    unfold avgTime
    rw [if_neg (by omega), if_pos ht, Rat.mul_comm]
  · refine ⟨fun _ => ⟨1, 0, 0, 0⟩, fun i => if i = 0 then ⟨3, 0, 0, 0⟩ else ⟨0, 3, 0, 0⟩, by decide,
      by decide, by decide +kernel⟩

end OptiPrism.Query
