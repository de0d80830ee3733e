import Verif.Query.FunnelRun

/-! The counters of a stream of several users are the sums of the counters of the users. -/

namespace OptiPrism.Query

variable {G K : Type}

/-- The totals of the third bucket are the sums of the first two. -/
def BRel : Option (Nat → StepResult) → Option (Nat → StepResult) → Option (Nat → StepResult) → Prop
  | none, none, none => True
  | some b0, some b2, some b1 => ∀ i, (b1 i).total = (b0 i).total + (b2 i).total
  | _, _, _ => False

theorem BRel.cnt {b0 b2 b1 : Option (Nat → StepResult)} (h : BRel b0 b2 b1) (i : Nat) :
    cnt b1 i = cnt b0 i + cnt b2 i := by
  cases b0 <;> cases b2 <;> cases b1 <;> simp only [BRel, OptiPrism.Query.cnt] at h ⊢
  · rfl
  · exact h i

/-- `g1` is `g2` with the counters `base` added. -/
structure Rel (base : Int → Option (Nat → StepResult)) (g1 g2 : FGroup) : Prop where
  first1 : g1.first = false
  first2 : g2.first = false
  cur : g1.cur = g2.cur
  curStep : g1.curStep = g2.curStep
  comp1 : g1.completed = g2.curStep
  comp2 : g2.completed = g2.curStep
  steps : ∀ j, j < g2.curStep → g1.steps j = g2.steps j
  b : ∀ k, BRel (base k) (g2.buckets k) (g1.buckets k)

theorem pushed_rel (c : FCfg) (base : Int → Option (Nat → StepResult)) (g1 g2 : FGroup)
    (hc : g1.completed = g2.completed) (hs : ∀ j, j < g2.completed → g1.steps j = g2.steps j)
    (hb : ∀ k, BRel (base k) (g2.buckets k) (g1.buckets k)) (k : Int) :
    BRel (base k) ((g2.pushed c).buckets k) ((g1.pushed c).buckets k) := by
  unfold FGroup.pushed
  rw [hc]
  by_cases h0 : g2.completed = 0
  · rw [if_pos h0, if_pos h0]; exact hb k
  · rw [if_neg h0, if_neg h0]
    dsimp only
    rw [hs 0 (by omega)]
    by_cases hk : k = c.key (g2.steps 0)
    · rw [if_pos hk, if_pos hk]
      have h := hb k
      cases e0 : base k <;> cases e2 : g2.buckets k <;> cases e1 : g1.buckets k <;>
        rw [e0, e2, e1] at h <;> simp only [BRel, Option.map] at h ⊢
      have ht : ∀ (b : Nat → StepResult) (g : FGroup) i,
          (setDropped c (addSteps g b) i).total = (b i).total + if i < g.completed then 1 else 0 := by
        intro b g i
        have : (setDropped c (addSteps g b) i).total = (addSteps g b i).total := by
          unfold setDropped; split <;> rfl
        rw [this]
        unfold addSteps
        split <;> simp
      intro i
      rw [ht, ht, h i, hc]
      omega
    · rw [if_neg hk, if_neg hk]; exact hb k

theorem step_rel (c : FCfg) {base : Int → Option (Nat → StepResult)} {g1 g2 : FGroup}
    (h : Rel base g1 g2) (r : FRow G K) : Rel base (g1.step c r).1 (g2.step c r).1 := by
  unfold FGroup.step
  rw [h.curStep]
  by_cases hm : matchesStep c g2.curStep r = true
  · rw [if_pos hm, if_pos hm]
    dsimp only
    have hst : ∀ j, j < g2.curStep + 1 → (if j = g2.curStep then r.ts else g1.steps j) =
        if j = g2.curStep then r.ts else g2.steps j := by
      intro j hj
      split
      · rfl
      · exact h.steps j (by omega)
    by_cases hl : g2.curStep < c.len - 1
    · rw [if_pos hl, if_pos hl]
      refine ⟨h.first1, h.first2, h.cur, rfl, ?_, ?_, hst, h.b⟩
      · show g1.completed + 1 = g2.curStep + 1
        rw [h.comp1]
      · show g2.completed + 1 = g2.curStep + 1
        rw [h.comp2]
    · rw [if_neg hl, if_neg hl]
      refine ⟨?_, ?_, ?_, rfl, rfl, rfl, fun j hj => absurd hj (Nat.not_lt_zero j), ?_⟩
      · exact (pushed_first c _).trans h.first1
      · exact (pushed_first c _).trans h.first2
      · show (FGroup.pushed c _).cur = (FGroup.pushed c _).cur
        rw [pushed_cur, pushed_cur]; exact h.cur
      · intro k
        refine pushed_rel c base
          { g1 with completed := g1.completed + 1,
                    steps := fun i => if i = g2.curStep then r.ts else g1.steps i,
                    curStep := g2.curStep }
          { g2 with completed := g2.completed + 1,
                    steps := fun i => if i = g2.curStep then r.ts else g2.steps i } ?_ ?_ h.b k
        · show g1.completed + 1 = g2.completed + 1
          rw [h.comp1, h.comp2]
        · intro j hj
          refine hst j ?_
          rw [← h.comp2]; exact hj
  · rw [if_neg hm, if_neg hm]; exact h

theorem partition_rel (c : FCfg) {base : Int → Option (Nat → StepResult)} {g1 g2 : FGroup}
    (h : Rel base g1 g2) (r : FRow G K) : Rel base (g1.partition c r) (g2.partition c r) := by
  unfold FGroup.partition
  rw [h.cur]
  by_cases hu : r.user ≠ g2.cur
  · rw [if_pos hu, if_pos hu]
    refine ⟨(pushed_first c _).trans h.first1, (pushed_first c _).trans h.first2, rfl, rfl, rfl, rfl,
      fun j hj => absurd hj (Nat.not_lt_zero j), ?_⟩
    exact pushed_rel c base g1 g2 (by rw [h.comp1, h.comp2])
      (fun j hj => h.steps j (by rw [← h.comp2]; exact hj)) h.b
  · rw [if_neg hu, if_neg hu]; exact h

theorem reset_rel {base : Int → Option (Nat → StepResult)} {g1 g2 : FGroup}
    (h1 : g1.first = false) (h2 : g2.first = false) (hc : g1.cur = g2.cur)
    (hb : ∀ k, BRel (base k) (g2.buckets k) (g1.buckets k)) : Rel base g1.reset g2.reset :=
  ⟨h1, h2, hc, rfl, rfl, rfl, fun j hj => absurd hj (Nat.not_lt_zero j), hb⟩

theorem fresh_rel (c : FCfg) {base : Int → Option (Nat → StepResult)} {g1 g2 : FGroup}
    (h : Rel base g1 g2) (i : Nat) (r : FRow G K) :
    Rel base (g1.fresh c i r).1 (g2.fresh c i r).1 := by
  unfold FGroup.fresh
  refine step_rel c (partition_rel c ?_ r) r
  split
  · exact ⟨h.first1, h.first2, h.cur, h.curStep, h.comp1, h.comp2, h.steps, h.b⟩
  · exact h

theorem seen_eq {g : FGroup} (h : g.first = false) (r : FRow G K) : g.seen r = g := by
  unfold FGroup.seen; rw [h]; rfl

theorem rowPure_rel (c : FCfg) {base : Int → Option (Nat → StepResult)} {g1 g2 : FGroup}
    (h : Rel base g1 g2) (r : FRow G K) : Rel base (rowPure c g1 r) (rowPure c g2 r) := by
  unfold rowPure
  rw [seen_eq h.first1, seen_eq h.first2]
  dsimp only
  rw [h.curStep]
  by_cases hc : g2.curStep > 0
  · rw [if_pos hc, if_pos hc, h.steps 0 hc]
    split
    · exact fresh_rel c (reset_rel h.first1 h.first2 h.cur h.b) 0 r
    · split
      · refine fresh_rel c (reset_rel ((pushed_first c _).trans h.first1)
          ((pushed_first c _).trans h.first2) ?_ ?_) 0 r
        · rw [pushed_cur, pushed_cur]; exact h.cur
        · exact pushed_rel c base g1 g2 (by rw [h.comp1, h.comp2])
            (fun j hj => h.steps j (by rw [← h.comp2]; exact hj)) h.b
      · exact step_rel c (partition_rel c h r) r
  · rw [if_neg hc, if_neg hc]; exact fresh_rel c h 0 r

theorem foldl_rel (c : FCfg) {base : Int → Option (Nat → StepResult)} :
    ∀ (rows : List (FRow G K)) (g1 g2 : FGroup), Rel base g1 g2 →
    Rel base (rows.foldl (rowPure c) g1) (rows.foldl (rowPure c) g2)
  | [], _, _, h => h
  | r :: rows, _, _, h => foldl_rel c rows _ _ (rowPure_rel c h r)

/-- No exclusion holds at a row. -/
def NotExcluded (c : FCfg) (r : FRow G K) : Prop := ∀ j, j < c.excludes.length → r.excl j = false

theorem checkExclude_true (cur : Nat) (r : FRow G K) : ∀ (l : List (Option (Nat × Nat))) (j : Nat),
    (∀ i, i < l.length → r.excl (j + i) = false) → checkExclude cur r j l = true
  | [], _, _ => rfl
  | some (a, b) :: l, j, h => by
    unfold checkExclude
    split
    · rfl
    · refine checkExclude_true cur r l (j + 1) fun i hi => ?_
      have := h (i + 1) (by simpa using hi)
      rw [← this]; congr 1; omega
  | none :: l, j, h => by
    unfold checkExclude
    have h0 : r.excl j = false := h 0 (by simp)
    rw [h0]
    refine checkExclude_true cur r l (j + 1) fun i hi => ?_
    have := h (i + 1) (by simpa using hi)
    rw [← this]; congr 1; omega

theorem step_cur (c : FCfg) (g : FGroup) (r : FRow G K) : (g.step c r).1.cur = g.cur := by
  unfold FGroup.step
  split
  · dsimp only
    split
    · rfl
    · exact pushed_cur c _
  · rfl

theorem step_first (c : FCfg) (g : FGroup) (r : FRow G K) : (g.step c r).1.first = g.first := by
  unfold FGroup.step
  split
  · dsimp only
    split
    · rfl
    · exact pushed_first c _
  · rfl

theorem partition_cur (c : FCfg) (g : FGroup) (r : FRow G K) : (g.partition c r).cur = r.user := by
  unfold FGroup.partition
  split
  · rfl
  · next h => simpa using (Eq.symm (by simpa using h : r.user = g.cur))

theorem partition_first (c : FCfg) (g : FGroup) (r : FRow G K) :
    (g.partition c r).first = g.first := by
  unfold FGroup.partition
  split
  · exact pushed_first c _
  · rfl

theorem fresh_cur (c : FCfg) (g : FGroup) (i : Nat) (r : FRow G K) :
    (g.fresh c i r).1.cur = r.user := by
  unfold FGroup.fresh
  rw [step_cur, partition_cur]

theorem fresh_first (c : FCfg) (g : FGroup) (i : Nat) (r : FRow G K) :
    (g.fresh c i r).1.first = g.first := by
  unfold FGroup.fresh
  rw [step_first, partition_first]
  split <;> rfl

theorem seen_first (g : FGroup) (r : FRow G K) : (g.seen r).first = false := by
  unfold FGroup.seen
  split
  · rfl
  · next h => simpa using h

theorem rowPure_cur (c : FCfg) (g : FGroup) (r : FRow G K) : (rowPure c g r).cur = r.user := by
  unfold rowPure
  dsimp only
  split
  · split
    · exact fresh_cur c _ 0 r
    · split
      · exact fresh_cur c _ 0 r
      · rw [step_cur, partition_cur]
  · exact fresh_cur c _ 0 r

theorem rowPure_first (c : FCfg) (g : FGroup) (r : FRow G K) : (rowPure c g r).first = false := by
  unfold rowPure
  dsimp only
  split
  · split
    · exact (fresh_first c _ 0 r).trans (seen_first g r)
    · split
      · exact (fresh_first c _ 0 r).trans ((pushed_first c _).trans (seen_first g r))
      · rw [step_first, partition_first]; exact seen_first g r
  · exact (fresh_first c _ 0 r).trans (seen_first g r)

/-- The first row of a new user that is not excluded closes the attempt of the previous one. -/
theorem rowPure_new_user {c : FCfg} {g : FGroup} (hk : c.hasConst = false) (hf : g.first = false)
    (hcomp : g.completed = g.curStep) (hb : ∀ k, (g.buckets k).isSome = decide (k ∈ c.buckets))
    (r : FRow G K) (hu : r.user ≠ g.cur) (hx : NotExcluded c r) :
    Rel (fun k => (g.pushed c).buckets k) (rowPure c g r) (rowPure c (FGroup.new c) r) := by
  have hpb : ∀ k, ((g.pushed c).buckets k).isSome = decide (k ∈ c.buckets) := by
    intro k
    unfold FGroup.pushed
    split
    · exact hb k
    · dsimp only
      split
      · rw [Option.isSome_map]; exact hb k
      · exact hb k
  -- the group of the first row alone
  have e2 : rowPure c (FGroup.new c) r =
      (FGroup.step c { FGroup.new c with first := false, cur := r.user } r).1 := by
    unfold rowPure
    have : (FGroup.new c).seen r = { FGroup.new c with first := false, cur := r.user } := rfl
    rw [this]
    have h0 : ({ FGroup.new c with first := false, cur := r.user } : FGroup).curStep = 0 := rfl
    dsimp only
    rw [if_neg (by rw [show (FGroup.new c).curStep = 0 from rfl]; omega)]
    unfold FGroup.fresh
    rw [hk]
    simp only [Bool.false_eq_true, if_false]
    unfold FGroup.partition
    rw [if_neg (by simp)]
  -- the same row after the rows of the previous user
  have e1 : ∃ g', rowPure c g r = (FGroup.step c g' r).1 ∧ g'.first = false ∧ g'.cur = r.user ∧
      g'.curStep = 0 ∧ g'.completed = 0 ∧ g'.buckets = (g.pushed c).buckets := by
    unfold rowPure
    rw [seen_eq hf]
    dsimp only
    by_cases hc : g.curStep > 0
    · rw [if_pos hc, checkExclude_true g.curStep r c.excludes 0
        (fun i hi => by rw [Nat.zero_add]; exact hx i hi)]
      simp only [Bool.not_true, Bool.false_eq_true, if_false]
      split
      · unfold FGroup.fresh
        rw [hk]
        simp only [Bool.false_eq_true, if_false]
        refine ⟨_, rfl, ?_, partition_cur c _ r, ?_⟩
        · rw [partition_first]; exact (pushed_first c g).trans hf
        · have hu' : r.user ≠ (g.pushed c).reset.cur := by
            show r.user ≠ (g.pushed c).cur
            rw [pushed_cur]; exact hu
          unfold FGroup.partition
          rw [if_pos hu']
          have : (g.pushed c).reset.pushed c = (g.pushed c).reset := by
            rw [FGroup.pushed, if_pos (show (g.pushed c).reset.completed = 0 from rfl)]
          rw [this]
          exact ⟨rfl, rfl, rfl⟩
      · refine ⟨_, rfl, ?_, partition_cur c _ r, ?_⟩
        · rw [partition_first]; exact hf
        · unfold FGroup.partition
          rw [if_pos hu]
          exact ⟨rfl, rfl, rfl⟩
    · rw [if_neg hc]
      unfold FGroup.fresh
      rw [hk]
      simp only [Bool.false_eq_true, if_false]
      refine ⟨_, rfl, ?_, partition_cur c _ r, ?_⟩
      · rw [partition_first]; exact hf
      · unfold FGroup.partition
        rw [if_pos hu]
        exact ⟨rfl, rfl, rfl⟩
  obtain ⟨g', e1, f1, c1, s1, p1, b1⟩ := e1
  rw [e1, e2]
  refine step_rel c ⟨f1, rfl, c1, s1, p1, rfl, fun j hj => absurd hj (Nat.not_lt_zero j), ?_⟩ r
  intro k
  rw [b1]
  have := hpb k
  show BRel _ (if k ∈ c.buckets then some (fun _ => ⟨0, 0, 0, 0⟩) else none) _
  by_cases hm : k ∈ c.buckets
  · rw [if_pos hm]
    simp only [hm, decide_true] at this
    cases e : (g.pushed c).buckets k with
    | none => rw [e] at this; cases this
    | some b => intro i; simp
  · rw [if_neg hm]
    simp only [hm, decide_false] at this
    cases e : (g.pushed c).buckets k with
    | none => trivial
    | some b => rw [e] at this; cases this

/-- Rows of other users after rows of some users add their own counters. -/
theorem runG_add [DecidableEq G] [DecidableEq K] {c : FCfg} (hn : 0 < c.len) (hk : c.hasConst = false) (hu : c.unique = false)
    (xs ys : List (FRow G K)) (hd : ∀ x ∈ xs, ∀ y ∈ ys, x.user ≠ y.user)
    (hx : ∀ y, ys.head? = some y → NotExcluded c y) (k : Int) (i : Nat) :
    cnt (((runG c (xs ++ ys)).pushed c).buckets k) i =
      cnt (((runG c xs).pushed c).buckets k) i + cnt (((runG c ys).pushed c).buckets k) i := by
  have hnil : cnt (((runG c ([] : List (FRow G K))).pushed c).buckets k) i = 0 := by
    have : ((runG c ([] : List (FRow G K))).pushed c).buckets k =
        if k ∈ c.buckets then some (fun _ => ⟨0, 0, 0, 0⟩) else none := rfl
    rw [this]
    split <;> rfl
  cases ys with
  | nil => rw [List.append_nil, hnil]; omega
  | cons y ys =>
    cases hxs : xs.getLast? with
    | none =>
      rw [List.getLast?_eq_none_iff.mp hxs, hnil, List.nil_append]; omega
    | some x =>
      obtain ⟨xs', rfl⟩ : ∃ xs', xs = xs' ++ [x] := by
        obtain ⟨ys', e⟩ := List.getLast?_eq_some_iff.mp hxs
        exact ⟨ys', e⟩
      obtain ⟨A, o, hi, _⟩ := runG_inv hn hk hu (xs' ++ [x])
      have hg : runG c (xs' ++ [x]) = rowPure c (runG c xs') x := by
        unfold runG; rw [List.foldl_append]; rfl
      have hcur : (runG c (xs' ++ [x])).cur = x.user := by rw [hg, rowPure_cur]
      have hfst : (runG c (xs' ++ [x])).first = false := by rw [hg, rowPure_first]
      have hr := rowPure_new_user hk hfst (by rw [hi.completed, hi.curStep]) hi.bucket y
        (by rw [hcur]; exact (hd x (by simp) y (by simp)).symm) (hx y rfl)
      have hf := foldl_rel c ys _ _ hr
      have e1 : runG c (xs' ++ [x] ++ y :: ys) =
          ys.foldl (rowPure c) (rowPure c (runG c (xs' ++ [x])) y) := by
        unfold runG; rw [List.foldl_append]; rfl
      have e2 : runG c (y :: ys) = ys.foldl (rowPure c) (rowPure c (FGroup.new c) y) := rfl
      rw [e1, e2]
      exact (pushed_rel c _ _ _ (by rw [hf.comp1, hf.comp2])
        (fun j hj => hf.steps j (by rw [← hf.comp2]; exact hj)) hf.b k).cnt i

end OptiPrism.Query
