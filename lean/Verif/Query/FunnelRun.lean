import Verif.Query.FunnelLemmas

/-! The funnel without constants and without unique counting as a fold over the rows. -/

namespace OptiPrism.Query

variable {G K : Type}

/-- The body of the loop without constants. -/
def rowPure (c : FCfg) (g : FGroup) (r : FRow G K) : FGroup :=
  let g := g.seen r
  if g.curStep > 0 then
    if !checkExclude g.curStep r 0 c.excludes then (g.reset.fresh c 0 r).1
    else if r.ts - g.steps 0 > c.window then ((g.pushed c).reset.fresh c 0 r).1
    else ((g.partition c r).step c r).1
  else (g.fresh c 0 r).1

/-- A group after its rows. -/
def runG (c : FCfg) (rows : List (FRow G K)) : FGroup := rows.foldl (rowPure c) (FGroup.new c)

theorem fresh_const {c : FCfg} (hk : c.hasConst = false) (g : FGroup) (i : Nat) (r : FRow G K) :
    g.fresh c i r = g.fresh c 0 r := by
  unfold FGroup.fresh; rw [hk]; rfl

theorem step_flag {c : FCfg} (hu : c.unique = false) (g : FGroup) (r : FRow G K) :
    (g.step c r).2 = false := by
  unfold FGroup.step
  split
  · dsimp only
    split
    · rfl
    · simp [hu]
  · rfl

theorem fresh_flag {c : FCfg} (hu : c.unique = false) (g : FGroup) (i : Nat) (r : FRow G K) :
    (g.fresh c i r).2 = false := step_flag hu _ r

theorem pair_eta {α : Type} (p : α × Bool) (h : p.2 = false) : p = (p.1, false) := by
  cases p; simp only at h; rw [h]

theorem fRow_pure [DecidableEq K] {c : FCfg} (hk : c.hasConst = false) (hu : c.unique = false)
    (batch : List (FRow G K)) (i : Nat) (g : FGroup) (r : FRow G K) :
    fRow c batch i g r = some (rowPure c g r, false) := by
  unfold fRow rowPure
  dsimp only
  rw [hk]
  simp only [Bool.false_eq_true, if_false]
  rw [fresh_const hk (g.seen r).reset i r, fresh_const hk (FGroup.pushed c (g.seen r)).reset i r,
    fresh_const hk (g.seen r) i r]
  split
  · split
    · exact congrArg some (pair_eta _ (fresh_flag hu _ _ _))
    · split
      · exact congrArg some (pair_eta _ (fresh_flag hu _ _ _))
      · exact congrArg some (pair_eta _ (step_flag hu _ _))
  · exact congrArg some (pair_eta _ (fresh_flag hu _ _ _))

section
variable [DecidableEq G] [DecidableEq K]

/-- One row on the state. -/
def usePure (c : FCfg) (st : FState G) (r : FRow G K) : FState G :=
  ⟨false, r.user, setGroup st.groups r.group
    (rowPure c ((st.groups r.group).getD (FGroup.new c)) r)⟩

theorem fUse_pure {c : FCfg} (hk : c.hasConst = false) (hu : c.unique = false)
    (batch : List (FRow G K)) (i : Nat) (st : FState G) (r : FRow G K) :
    fUse c batch i st r = some (usePure c st r) := by
  unfold fUse usePure
  rw [fRow_pure hk hu]; rfl

/-- The rows of users in the set. -/
def inside (exist : Option (Int → Bool)) (rows : List (FRow G K)) : List (FRow G K) :=
  rows.filter fun r => !outside exist r.user

theorem fLoop_pure {c : FCfg} (hk : c.hasConst = false) (hu : c.unique = false)
    (exist : Option (Int → Bool)) (batch : List (FRow G K)) : ∀ (rows : List (FRow G K)) (i : Nat)
    (st : FState G), st.skip = false →
    (∀ r, rows.getLast? = some r → outside exist r.user = false) →
    fLoop c exist batch i rows st = some ((inside exist rows).foldl (usePure c) st)
  | [], _, st, _, _ => rfl
  | r :: rest, i, st, hs, hl => by
    have hl' : ∀ q, rest.getLast? = some q → outside exist q.user = false := by
      intro q hq
      refine hl q ?_
      cases rest with
      | nil => cases hq
      | cons a l => rw [List.getLast?_cons_cons]; exact hq
    unfold fLoop
    have hst : ({ st with skip := false } : FState G) = st := by cases st; simp only at hs; subst hs; rfl
    rw [hs, hst]
    simp only [Bool.false_and, Bool.false_eq_true, if_false]
    cases ho : outside exist r.user with
    | true =>
      cases rest with
      | nil =>
        have := hl r rfl
        rw [ho] at this; cases this
      | cons a l =>
        simp only [List.isEmpty_cons, Bool.not_false, Bool.true_and, if_true]
        rw [fLoop_pure hk hu exist batch (a :: l) (i + 1) st hs hl']
        unfold inside
        rw [List.filter_cons_of_neg (a := r) (by rw [ho]; simp)]
    | false =>
      simp only [Bool.false_and, Bool.false_eq_true, if_false]
      rw [fUse_pure hk hu]
      show fLoop c exist batch (i + 1) rest (usePure c st r) = _
      rw [fLoop_pure hk hu exist batch rest (i + 1) _ rfl hl']
      unfold inside
      rw [List.filter_cons_of_pos (a := r) (by rw [ho]; rfl)]
      rfl

theorem usePure_skip {c : FCfg} : ∀ (rows : List (FRow G K)) (st : FState G), st.skip = false →
    (rows.foldl (usePure c) st).skip = false
  | [], _, h => h
  | r :: rows, st, _ => usePure_skip rows (usePure c st r) rfl

theorem usePure_cur {c : FCfg} : ∀ (rows : List (FRow G K)) (st : FState G) (m : Int),
    (∀ r ∈ rows, r.user ≤ m) → st.cur ≤ m → (rows.foldl (usePure c) st).cur ≤ m
  | [], _, _, _, h => h
  | r :: rows, st, m, hr, _ => usePure_cur rows (usePure c st r) m
      (fun q hq => hr q (List.mem_cons_of_mem _ hq)) (hr r (by simp))

theorem fBatches_pure_aux {c : FCfg} (hk : c.hasConst = false) (hu : c.unique = false)
    (exist : Option (Int → Bool)) : ∀ (batches : List (List (FRow G K))) (st : FState G),
    (∀ b ∈ batches, b ≠ []) →
    (∀ b ∈ batches, ∀ r, b.getLast? = some r → outside exist r.user = false) →
    batches.flatten.Pairwise (fun a b => a.user ≤ b.user) →
    (∀ r ∈ batches.flatten, st.cur ≤ r.user) → st.skip = false →
    batches.foldlM (fBatch c exist) st =
      some ((inside exist batches.flatten).foldl (usePure c) st)
  | [], st, _, _, _, _, _ => rfl
  | b :: bs, st, hne, hl, hp, hc, hs => by
    rw [List.foldlM_cons]
    have hb : fBatch c exist st b = some ((inside exist b).foldl (usePure c) st) := by
      unfold fBatch
      cases e : b with
      | nil => exact absurd e (hne b (by simp))
      | cons r l =>
        dsimp only
        have : st.cur ≤ r.user := hc r (by rw [e]; simp)
        rw [if_neg (by omega)]
        exact fLoop_pure hk hu exist (r :: l) (r :: l) 0 st hs
          (by rw [← e]; exact hl b (by simp))
    rw [hb]
    show List.foldlM (fBatch c exist) _ bs = _
    rw [List.flatten_cons, List.pairwise_append] at hp
    rw [fBatches_pure_aux hk hu exist bs _ (fun x hx => hne x (List.mem_cons_of_mem _ hx))
      (fun x hx => hl x (List.mem_cons_of_mem _ hx)) hp.2.1 ?_ (usePure_skip _ _ hs)]
    · unfold inside
      rw [List.flatten_cons, List.filter_append, List.foldl_append]
    · intro q hq
      refine usePure_cur _ _ _ ?_ (hc q (by rw [List.flatten_cons]; exact List.mem_append_right _ hq))
      intro r hr
      exact hp.2.2 r (List.mem_filter.mp hr).1 q hq

/-- Without constants and unique counting the batches do not matter. -/
theorem fBatches_pure {c : FCfg} (hk : c.hasConst = false) (hu : c.unique = false)
    (exist : Option (Int → Bool)) (batches : List (List (FRow G K)))
    (hne : ∀ b ∈ batches, b ≠ [])
    (hl : ∀ b ∈ batches, ∀ r, b.getLast? = some r → outside exist r.user = false)
    (hp : batches.flatten.Pairwise (fun a b => a.user ≤ b.user))
    (h0 : ∀ r ∈ batches.flatten, 0 ≤ r.user) :
    fBatches c exist batches =
      some ((inside exist batches.flatten).foldl (usePure c) ⟨false, 0, fun _ => none⟩) :=
  fBatches_pure_aux hk hu exist batches _ hne hl hp h0 rfl

/-- The groups evolve independently. -/
theorem usePure_groups {c : FCfg} (g : G) : ∀ (rows : List (FRow G K)) (st : FState G),
    (rows.foldl (usePure c) st).groups g =
      if (rows.filter fun r => decide (r.group = g)) = [] then st.groups g
      else some ((rows.filter fun r => decide (r.group = g)).foldl (rowPure c)
        ((st.groups g).getD (FGroup.new c)))
  | [], st => by simp
  | r :: rows, st => by
    rw [List.foldl_cons, usePure_groups g rows]
    by_cases hg : r.group = g
    · rw [List.filter_cons_of_pos (by simp [hg])]
      have e : (usePure c st r).groups g = some (rowPure c ((st.groups g).getD (FGroup.new c)) r) := by
        unfold usePure setGroup; simp [hg]
      rw [e, if_neg (c := r :: _ = []) (by simp), List.foldl_cons]
      split
      next h => rw [h]; rfl
      next h => rfl
    · rw [List.filter_cons_of_neg (by simp [hg])]
      have e : (usePure c st r).groups g = st.groups g := by
        unfold usePure setGroup
        dsimp only
        rw [if_neg (fun h => hg h.symm)]
      rw [e]

/-- The number of users counted at step `i`; a bucket left out counts nobody. -/
def cnt (o : Option (Nat → StepResult)) (i : Nat) : Int :=
  match o with
  | none => 0
  | some b => (b i).total

theorem rowPure_inv {c : FCfg} {P : List (FRow G K)} {A : List (Attempt G K)} {o : Attempt G K}
    {g : FGroup} (hk : c.hasConst = false) (hu : c.unique = false) (r : FRow G K)
    (h : FGInv c P A o g) (hf : g.first = true → o.span = []) :
    ∃ A' o', FGInv c (P ++ [r]) A' o' (rowPure c g r) ∧ (rowPure c g r).first = false :=
  fRow_inv [] 0 r h hf (fRow_pure hk hu [] 0 g r)

theorem runG_inv_aux {c : FCfg} (hk : c.hasConst = false) (hu : c.unique = false) :
    ∀ (rows P : List (FRow G K)) (A : List (Attempt G K)) (o : Attempt G K) (g : FGroup),
    FGInv c P A o g → (g.first = true → o.span = []) →
    ∃ A' o', FGInv c (P ++ rows) A' o' (rows.foldl (rowPure c) g) ∧
      ((rows.foldl (rowPure c) g).first = true → Attempt.span o' = [])
  | [], P, A, o, g, h, hf => ⟨A, o, by simpa using h, hf⟩
  | r :: rows, P, A, o, g, h, hf => by
    obtain ⟨A1, o1, h1, f1⟩ := rowPure_inv hk hu r h hf
    obtain ⟨A2, o2, h2, f2⟩ := runG_inv_aux hk hu rows (P ++ [r]) A1 o1 _ h1
      (fun e => by rw [f1] at e; cases e)
    exact ⟨A2, o2, by simpa using h2, f2⟩

theorem runG_inv {c : FCfg} (hn : 0 < c.len) (hk : c.hasConst = false) (hu : c.unique = false)
    (rows : List (FRow G K)) :
    ∃ A o, FGInv c rows A o (runG c rows) ∧ ((runG c rows).first = true → o.span = []) := by
  obtain ⟨A, o, h, hf⟩ := runG_inv_aux hk hu rows [] [] Attempt.nil (FGroup.new c)
    (new_inv c hn) (fun _ => rfl)
  rw [List.nil_append] at h
  exact ⟨A, o, h, hf⟩

/-- The counters reported by a funnel over one worker's rows. -/
theorem funnel_cnt {c : FCfg} (hn : 0 < c.len) (hk : c.hasConst = false) (hu : c.unique = false)
    (exist : Option (Int → Bool)) (batches : List (List (FRow G K)))
    (hne : ∀ b ∈ batches, b ≠ [])
    (hl : ∀ b ∈ batches, ∀ r, b.getLast? = some r → outside exist r.user = false)
    (hp : batches.flatten.Pairwise (fun a b => a.user ≤ b.user))
    (h0 : ∀ r ∈ batches.flatten, 0 ≤ r.user) :
    ∃ f, funnel c exist batches = some f ∧ ∀ g k i, cnt (f g k) i =
      cnt (((runG c ((inside exist batches.flatten).filter fun r => decide (r.group = g))).pushed c).buckets k) i := by
  unfold funnel
  rw [fBatches_pure hk hu exist batches hne hl hp h0]
  refine ⟨_, rfl, ?_⟩
  intro g k i
  unfold fFinish
  rw [usePure_groups g]
  generalize (inside exist batches.flatten).filter (fun r => decide (r.group = g)) = rows
  cases rows with
  | nil =>
    show cnt none i = _
    have : ((runG c ([] : List (FRow G K))).pushed c).buckets k =
        if k ∈ c.buckets then some (fun _ => ⟨0, 0, 0, 0⟩) else none := rfl
    rw [this]
    split <;> rfl
  | cons r rows =>
    rw [if_neg (by simp)]
    show cnt (match ((runG c (r :: rows)).pushed c).buckets k with
      | none => none | some b => if (b 0).total ≠ 0 then some b else none) i = _
    obtain ⟨A, o, hi, _⟩ := runG_inv hn hk hu (r :: rows)
    obtain ⟨_, p2, _, _, _⟩ := hi.pushed
    cases hb : ((runG c (r :: rows)).pushed c).buckets k with
    | none => rfl
    | some b =>
      dsimp only
      split
      · rfl
      · next hz =>
        have hc := p2 k b hb
        have e0 : (b 0).total = 0 := by omega
        rw [hc.total] at e0
        show (0 : Int) = (b i).total
        rw [hc.total]
        have : reached c (closeOpen A o) k 0 = [] := List.length_eq_zero_iff.mp (by omega)
        have hle : (reached c (closeOpen A o) k i).length ≤ (reached c (closeOpen A o) k 0).length := by
          unfold reached
          rw [← List.countP_eq_length_filter, ← List.countP_eq_length_filter]
          refine List.countP_mono_left ?_
          intro a _ h
          simp only [Bool.and_eq_true, decide_eq_true_eq] at h ⊢
          exact ⟨h.1, by omega⟩
        rw [this] at hle
        simp only [List.length_nil] at hle
        omega

end
end OptiPrism.Query
