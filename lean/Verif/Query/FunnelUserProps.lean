import Verif.Query.FunnelAdd
import Verif.Query.FunnelProps

/-! Properties C57, C58, C59, C85 (batching, exclusions, segments and completeness of a funnel). -/

namespace OptiPrism.Query

variable {G K : Type} [DecidableEq G] [DecidableEq K]

/-- C57 (partial): without constants and unique counting, two ways of cutting the same rows into
non-empty batches give the same funnel. With a set of users the last row of every batch must belong
to one of them. -/
theorem C57_partial (c : FCfg) (hk : c.hasConst = false) (hu : c.unique = false)
    (exist : Option (Int → Bool)) (b1 b2 : List (List (FRow G K))) (he : b1.flatten = b2.flatten)
    (hn1 : ∀ b ∈ b1, b ≠ []) (hn2 : ∀ b ∈ b2, b ≠ [])
    (hl1 : ∀ b ∈ b1, ∀ r, b.getLast? = some r → outside exist r.user = false)
    (hl2 : ∀ b ∈ b2, ∀ r, b.getLast? = some r → outside exist r.user = false)
    (hp : b1.flatten.Pairwise fun a b => a.user ≤ b.user) (h0 : ∀ r ∈ b1.flatten, 0 ≤ r.user) :
    funnel c exist b1 = funnel c exist b2 ∧ (funnel c exist b1).isSome = true := by
  unfold funnel
  rw [fBatches_pure hk hu exist b1 hn1 hl1 hp h0,
    fBatches_pure hk hu exist b2 hn2 hl2 (by rw [← he]; exact hp) (by rw [← he]; exact h0), he]
  exact ⟨rfl, rfl⟩

/-- Unique counting. -/
def exUnique : FCfg := { exCfg with unique := true }
/-- Constants. -/
def exConst : FCfg := { exCfg with hasConst := true }
/-- A row with a constant. -/
def exRowC (u t : Int) (s : Nat) (k : Nat) : FRow Unit Nat :=
  ⟨u, t, fun i => i == s, fun _ => false, k, ()⟩

/-- C57 is violated: with unique counting, with constants and with a set of users the result depends
on where the batches are cut. -/
theorem C57_violated :
    (∃ b1 b2 : List (List (FRow Unit Unit)), b1.flatten = b2.flatten ∧
      totals2 () (funnel exUnique none b1) = some (1, 1) ∧
      totals2 () (funnel exUnique none b2) = some (2, 2)) ∧
    (∃ b1 b2 : List (List (FRow Unit Nat)), b1.flatten = b2.flatten ∧
      totals2 () (funnel exConst none b1) = none ∧
      totals2 () (funnel exConst none b2) = some (1, 1)) ∧
    ∃ b1 b2 : List (List (FRow Unit Unit)), b1.flatten = b2.flatten ∧
      totals2 () (funnel exCfg (some fun u => u == 2) b1) = some (1, 0) ∧
      totals2 () (funnel exCfg (some fun u => u == 2) b2) = some (2, 0) := by
  refine ⟨⟨[[exRow 1 0 0, exRow 1 1 1, exRow 1 2 0, exRow 1 3 1]],
      [[exRow 1 0 0, exRow 1 1 1, exRow 1 2 0], [exRow 1 3 1]], rfl, by decide, by decide⟩,
    ⟨[[exRowC 1 0 0 7, exRowC 1 1 1 8]], [[exRowC 1 0 0 7], [exRowC 1 1 1 8]], rfl, by decide,
      by decide⟩,
    ⟨[[exRow 1 0 0, exRow 2 0 0]], [[exRow 1 0 0], [exRow 2 0 0]], rfl, by decide, by decide⟩⟩

/-- The number counted at step `i` when a list of rows is all the input. -/
def countAlone (c : FCfg) (rows : List (FRow G K)) (g : G) (k : Int) (i : Nat) : Int :=
  match funnel c none [rows] with
  | none => 0
  | some f => cnt (f g k) i

/-- The first row of a list in each group is not excluded. -/
def HeadsClean (c : FCfg) (rows : List (FRow G K)) : Prop :=
  ∀ g y, (rows.filter fun r => decide (r.group = g)).head? = some y → NotExcluded c y

theorem inside_none (rows : List (FRow G K)) : inside none rows = rows := by
  unfold inside outside
  exact List.filter_eq_self.mpr (fun _ _ => rfl)

theorem countAlone_eq {c : FCfg} (hn : 0 < c.len) (hk : c.hasConst = false) (hu : c.unique = false)
    (rows : List (FRow G K)) (hne : rows ≠ []) (hp : rows.Pairwise fun a b => a.user ≤ b.user)
    (h0 : ∀ r ∈ rows, 0 ≤ r.user) (g : G) (k : Int) (i : Nat) :
    countAlone c rows g k i =
      cnt (((runG c (rows.filter fun r => decide (r.group = g))).pushed c).buckets k) i := by
  have e : [rows].flatten = rows := by simp
  obtain ⟨f, hf, hc⟩ := funnel_cnt hn hk hu none [rows] (by simpa using hne)
    (fun _ _ _ _ => rfl) (by rw [e]; exact hp) (by rw [e]; exact h0)
  unfold countAlone
  rw [hf]
  dsimp only
  rw [hc, e, inside_none]

/-- C58 (partial): the rows of every user contribute what they would contribute alone, whatever the
other users do, if the first row of a user (in a group) is not an exclusion event; any exclusions,
without constants and unique counting. -/
theorem C58_isolation_partial (c : FCfg) (hn : 0 < c.len) (hk : c.hasConst = false)
    (hu : c.unique = false) (g : G) (k : Int) (i : Nat) : ∀ (blocks : List (List (FRow G K))),
    (∀ b ∈ blocks, b ≠ [] ∧ (∀ r ∈ b, 0 ≤ r.user) ∧ (∀ r ∈ b, ∀ q ∈ b, r.user = q.user) ∧
      HeadsClean c b) →
    blocks.Pairwise (fun x y => ∀ r ∈ x, ∀ q ∈ y, r.user < q.user) → blocks ≠ [] →
    countAlone c blocks.flatten g k i = (blocks.map fun b => countAlone c b g k i).sum := by
  have sorted : ∀ blocks : List (List (FRow G K)),
      (∀ b ∈ blocks, ∀ r ∈ b, ∀ q ∈ b, r.user = q.user) →
      blocks.Pairwise (fun x y => ∀ r ∈ x, ∀ q ∈ y, r.user < q.user) →
      blocks.flatten.Pairwise fun a b => a.user ≤ b.user := by
    intro blocks
    induction blocks with
    | nil => intro _ _; exact List.Pairwise.nil
    | cons b bs ih =>
      intro h1 h2
      rw [List.pairwise_cons] at h2
      rw [List.flatten_cons, List.pairwise_append]
      refine ⟨?_, ih (fun x hx => h1 x (List.mem_cons_of_mem _ hx)) h2.2, ?_⟩
      · exact List.pairwise_of_forall_mem_list fun r hr q hq =>
          Int.le_of_eq (h1 b (by simp) r hr q hq)
      · intro r hr q hq
        obtain ⟨y, hy, hqy⟩ := List.mem_flatten.mp hq
        exact Int.le_of_lt (h2.1 y hy r hr q hqy)
  intro blocks
  induction blocks with
  | nil => intro _ _ h; exact absurd rfl h
  | cons b bs ih =>
    intro hb hp _
    rw [List.map_cons, List.sum_cons]
    cases hbs : bs with
    | nil => simp
    | cons b2 bs2 =>
      rw [← hbs]
      have hne2 : bs ≠ [] := by rw [hbs]; simp
      have hp' := (List.pairwise_cons.mp hp)
      have hbt : ∀ x ∈ bs, x ≠ [] ∧ (∀ r ∈ x, 0 ≤ r.user) ∧ (∀ r ∈ x, ∀ q ∈ x, r.user = q.user) ∧
          HeadsClean c x := fun x hx => hb x (List.mem_cons_of_mem _ hx)
      rw [← ih hbt hp'.2 hne2]
      have s1 := sorted (b :: bs) (fun x hx => (hb x hx).2.2.1) hp
      have s2 := sorted bs (fun x hx => (hbt x hx).2.2.1) hp'.2
      have sb := sorted [b] (by
        intro x hx; rw [List.mem_singleton.mp hx]; exact (hb b (by simp)).2.2.1) (by simp)
      rw [List.flatten_cons, List.flatten_nil, List.append_nil] at sb
      have nn : ∀ l : List (List (FRow G K)), (∀ x ∈ l, ∀ r ∈ x, 0 ≤ r.user) →
          ∀ r ∈ l.flatten, 0 ≤ r.user := by
        intro l h r hr
        obtain ⟨x, hx, hrx⟩ := List.mem_flatten.mp hr
        exact h x hx r hrx
      have hbne : b ≠ [] := (hb b (by simp)).1
      have hfne : bs.flatten ≠ [] := by
        rw [hbs, List.flatten_cons]
        intro e
        exact (hb b2 (by rw [hbs]; simp)).1 (List.append_eq_nil_iff.mp e).1
      rw [countAlone_eq hn hk hu (b :: bs).flatten
          (by rw [List.flatten_cons]; intro e; exact hbne (List.append_eq_nil_iff.mp e).1) s1
          (nn (b :: bs) fun x hx => (hb x hx).2.1),
        countAlone_eq hn hk hu b hbne sb (hb b (by simp)).2.1,
        countAlone_eq hn hk hu bs.flatten hfne s2 (nn bs fun x hx => (hbt x hx).2.1)]
      rw [List.flatten_cons, List.filter_append]
      refine runG_add hn hk hu _ _ ?_ ?_ k i
      · intro x hx y hy
        have hx := (List.mem_filter.mp hx).1
        obtain ⟨z, hz, hyz⟩ := List.mem_flatten.mp (List.mem_filter.mp hy).1
        have := hp'.1 z hz x hx y hyz
        omega
      · intro y hy
        -- the first row of the group comes from the first block that has one
        have key : ∀ l : List (List (FRow G K)), (∀ x ∈ l, HeadsClean c x) →
            (l.flatten.filter fun r => decide (r.group = g)).head? = some y → NotExcluded c y := by
          intro l
          induction l with
          | nil => intro _ h; cases h
          | cons x l ihl =>
            intro hc h
            rw [List.flatten_cons, List.filter_append, List.head?_append] at h
            cases hh : (x.filter fun r => decide (r.group = g)).head? with
            | none =>
              rw [hh] at h
              exact ihl (fun z hz => hc z (List.mem_cons_of_mem _ hz)) h
            | some z =>
              rw [hh] at h
              simp only [Option.some_or, Option.some.injEq] at h
              exact hc x (by simp) g y (by rw [hh, h])
        exact key bs (fun x hx => (hbt x hx).2.2.2) hy

/-- C58 (partial): without step ranges exclusions are enforced: what is counted are runs of
consecutive rows of the group that begin with the first step, contain the steps and no excluded row
after the first. -/
theorem C58_enforced_partial (c : FCfg) (hn : 0 < c.len) (hk : c.hasConst = false)
    (hu : c.unique = false) (hr : ∀ x ∈ c.excludes, x = none) (rows : List (FRow G K))
    (hne : rows ≠ []) (hp : rows.Pairwise fun a b => a.user ≤ b.user) (h0 : ∀ r ∈ rows, 0 ≤ r.user)
    (g : G) :
    ∃ A : List (List (FRow G K) × List (FRow G K)),
      (∀ a ∈ A, a.1.Sublist a.2 ∧ a.1.head? = a.2.head? ∧
        a.2 <:+: (rows.filter fun r => decide (r.group = g)) ∧
        (∀ r ∈ a.2.tail, NotExcluded c r) ∧ ∀ j r, a.1[j]? = some r → Accepts c j r) ∧
      ∀ k i, k ∈ c.buckets → countAlone c rows g k i = ((A.filter fun a =>
        bucketOf c a.1 == some k && decide (i < a.1.length)).length : Int) := by
  obtain ⟨A, o, hi, _⟩ := runG_inv hn hk hu (rows.filter fun r => decide (r.group = g))
  obtain ⟨p1, p2, p3, _, p5⟩ := hi.pushed
  refine ⟨(closeOpen A o).map fun a => (a.events, a.span), ?_, ?_⟩
  · intro x hx
    obtain ⟨a, ha, rfl⟩ := List.mem_map.mp hx
    have v := p3 a ha
    exact ⟨v.sub, v.head.symm, p5 a ha, v.clean hr, v.accepts⟩
  · intro k i hkb
    rw [countAlone_eq hn hk hu rows hne hp h0]
    cases hb : ((runG c (rows.filter fun r => decide (r.group = g))).pushed c).buckets k with
    | none =>
      have := p1 k
      rw [hb] at this
      simp [hkb] at this
    | some b =>
      show (b i).total = _
      rw [(p2 k b hb).total i, List.filter_map, List.length_map]
      unfold reached
      congr 2
      refine List.filter_congr ?_
      intro a ha
      have hbk : bucketOf c a.events = some (c.key (a.at 0)) := by
        have := (p3 a ha).nonempty
        unfold bucketOf Attempt.at
        cases e : a.events with
        | nil => exact absurd e this
        | cons x l => rfl
      simp [hbk]

/-- Two steps and one exclusion. -/
def exExcl (range : Option (Nat × Nat)) : FCfg := { exCfg with excludes := [range] }
/-- A row with an exclusion event. -/
def exBad (u t : Int) : FRow Unit Unit := ⟨u, t, fun _ => false, fun _ => true, (), ()⟩

example : countAlone (exExcl none) [exRow 1 0 0, exBad 1 1, exRow 1 2 1, exRow 2 0 0] () 0 0 = 1 := by
  decide

/-- C58 is violated: an exclusion event of user 2 removes what user 1 did, and an exclusion in the
range of all steps is not enforced. -/
theorem C58_violated :
    (countAlone (exExcl none) [exRow 1 0 0] () 0 0 = 1 ∧
      countAlone (exExcl none) [exBad 2 0] () 0 0 = 0 ∧
      countAlone (exExcl none) [exRow 1 0 0, exBad 2 0] () 0 0 = 0) ∧
    countAlone (exExcl (some (0, 1))) [exRow 1 0 0, exBad 1 1, exRow 1 2 1] () 0 1 = 1 := by
  decide

/-- C59 (partial): a funnel evaluated with a set of users counts the rows of these users, without
constants and unique counting, if every batch ends with one of them. -/
theorem C59_partial (c : FCfg) (hk : c.hasConst = false) (hu : c.unique = false) (e : Int → Bool)
    (batches : List (List (FRow G K))) (hne : ∀ b ∈ batches, b ≠ [])
    (hl : ∀ b ∈ batches, ∀ r, b.getLast? = some r → e r.user = true)
    (hp : batches.flatten.Pairwise fun a b => a.user ≤ b.user)
    (h0 : ∀ r ∈ batches.flatten, 0 ≤ r.user) (hb : batches ≠ []) :
    funnel c (some e) batches = funnel c none [batches.flatten.filter fun r => e r.user] := by
  have hrows : batches.flatten.filter (fun r => e r.user) ≠ [] := by
    cases batches with
    | nil => exact absurd rfl hb
    | cons b bs =>
      cases hg : b.getLast? with
      | none => exact absurd (List.getLast?_eq_none_iff.mp hg) (hne b (by simp))
      | some r =>
        intro h
        have := List.filter_eq_nil_iff.mp h r (by
          rw [List.flatten_cons]; exact List.mem_append_left _ (List.mem_of_getLast? hg))
        exact this (hl b (by simp) r hg)
  have e1 : [batches.flatten.filter fun r => e r.user].flatten =
      batches.flatten.filter fun r => e r.user := by simp
  unfold funnel
  rw [fBatches_pure hk hu (some e) batches hne
      (fun b hb r hr => by show (!e r.user) = false; rw [hl b hb r hr]; rfl) hp h0,
    fBatches_pure hk hu none [batches.flatten.filter fun r => e r.user] (by simpa using hrows)
      (fun _ _ _ _ => rfl) (by rw [e1]; exact hp.sublist List.filter_sublist)
      (by rw [e1]; exact fun r hr => h0 r (List.mem_filter.mp hr).1), e1, inside_none]
  unfold inside outside
  simp

/-- C59 is violated: the executor evaluates a segment with an empty set of users, so that user 1 of
the segment is not counted, and two segments end in a panic for every input. -/
theorem C59_violated :
    ((funnelSegments exCfg [fun u => u == 1] [[exRow 1 0 0, exRow 1 1 1, exRow 2 0 0]]).map
        fun l => l.map fun f => totals2 () (some f)) = some [some (1, 0)] ∧
    totals2 () (funnel exCfg (some fun u => u == 1) [[exRow 1 0 0, exRow 1 1 1]]) = some (1, 1) ∧
    (∀ (c : FCfg) (s1 s2 : Int → Bool) (l : List (Int → Bool)) (b : List (List (FRow G K))),
      funnelSegments c (s1 :: s2 :: l) b = none) := by
  refine ⟨by decide, by decide, fun _ _ _ _ _ => rfl⟩

end OptiPrism.Query
