import Verif.Query.Funnel

/-! The attempts recorded by a funnel. -/

namespace OptiPrism.Query

variable {G K : Type}

/-- Specification: a row may complete step number `j`. -/
def Accepts (c : FCfg) (j : Nat) (r : FRow G K) : Prop :=
  match c.orders[j]? with
  | none => False
  | some .exact => r.step j = true
  | some (.any pairs) => ∃ p ∈ pairs, ∃ s, p.1 ≤ s ∧ s ≤ p.2 ∧ r.step s = true

/-- Specification: an attempt of a user. `span` are the rows from the first step to the end of the
attempt, `events` the rows completing its steps. -/
structure Attempt (G K : Type) where
  events : List (FRow G K)
  span : List (FRow G K)

/-- The time at which step `i` was completed. -/
def Attempt.at (a : Attempt G K) (i : Nat) : Int :=
  match a.events[i]? with
  | none => 0
  | some r => r.ts

/-- Specification: the events complete the steps in order, all by one user, within the window of the
first one; if exclusions have no step range, no row after the first one is excluded. -/
structure Attempt.Valid (c : FCfg) (a : Attempt G K) : Prop where
  nonempty : a.events ≠ []
  sub : a.events.Sublist a.span
  head : a.span.head? = a.events.head?
  len : a.events.length ≤ c.len
  accepts : ∀ j r, a.events[j]? = some r → Accepts c j r
  user : ∀ f, a.span.head? = some f → ∀ r ∈ a.span, r.user = f.user
  window : ∀ f, a.span.head? = some f → ∀ r ∈ a.span.tail, r.ts - f.ts ≤ c.window
  clean : (∀ x ∈ c.excludes, x = none) → ∀ r ∈ a.span.tail,
    ∀ j, j < c.excludes.length → r.excl j = false

theorem matchesStep_accepts (c : FCfg) (j : Nat) (r : FRow G K) (h : matchesStep c j r = true) :
    Accepts c j r := by
  unfold matchesStep at h
  unfold Accepts
  cases ho : c.orders[j]? with
  | none => rw [ho] at h; cases h
  | some o =>
    rw [ho] at h
    cases o with
    | exact => exact h
    | any pairs =>
      dsimp only at h ⊢
      have key : ∀ (l : List (Nat × Nat)) (m : Bool),
          l.foldl (fun m p => if p.1 ≤ p.2 then
            (List.range (p.2 + 1 - p.1)).any (fun d => r.step (p.1 + d)) else m) m = true →
          m = true ∨ ∃ p ∈ l, ∃ s, p.1 ≤ s ∧ s ≤ p.2 ∧ r.step s = true := by
        intro l
        induction l with
        | nil => intro m h; exact .inl h
        | cons p l ih =>
          intro m h
          rw [List.foldl_cons] at h
          rcases ih _ h with h | ⟨q, hq, s, hs⟩
          · by_cases hp : p.1 ≤ p.2
            · rw [if_pos hp] at h
              obtain ⟨d, hd, hs⟩ := List.any_eq_true.mp h
              have := List.mem_range.mp hd
              exact .inr ⟨p, by simp, p.1 + d, by omega, by omega, hs⟩
            · rw [if_neg hp] at h; exact .inl h
          · exact .inr ⟨q, List.mem_cons_of_mem _ hq, s, hs⟩
      rcases key pairs false h with h | h
      · cases h
      · exact h

theorem checkExclude_clean (cur : Nat) (r : FRow G K) : ∀ (l : List (Option (Nat × Nat))) (j : Nat),
    (∀ x ∈ l, x = none) → checkExclude cur r j l = true →
    ∀ i, i < l.length → r.excl (j + i) = false
  | [], _, _, _ => fun i hi => absurd hi (by simp)
  | some p :: l, _, hn, _ => by have := hn (some p) (by simp); cases this
  | none :: l, j, hn, h => by
    intro i hi
    unfold checkExclude at h
    cases he : r.excl j with
    | true => rw [he] at h; simp at h
    | false =>
      rw [he] at h
      cases i with
      | zero => exact he
      | succ i =>
        have := checkExclude_clean cur r l (j + 1) (fun x hx => hn x (List.mem_cons_of_mem _ hx))
          (by simpa using h) i (by simpa using hi)
        rw [← this]; congr 1; omega

/-- The attempts of bucket `k` that reach step `i`. -/
def reached (c : FCfg) (A : List (Attempt G K)) (k : Int) (i : Nat) : List (Attempt G K) :=
  A.filter fun a => c.key (a.at 0) == k && decide (i < a.events.length)

/-- The counters of a bucket describe a list of attempts. -/
structure Counts (c : FCfg) (A : List (Attempt G K)) (k : Int) (b : Nat → StepResult) : Prop where
  total : ∀ i, (b i).total = (reached c A k i).length
  time : ∀ i, 0 < i → (b i).time = ((reached c A k i).map fun a => a.at i - a.at (i - 1)).sum
  fromStart : ∀ i, 0 < i → (b i).fromStart = ((reached c A k i).map fun a => a.at i - a.at 0).sum
  dropped : ∀ i, i + 1 < c.len → (b (i + 1)).dropped = (b i).total - (b (i + 1)).total
  first : (b 0).time = 0 ∧ (b 0).fromStart = 0 ∧ (b 0).dropped = 0

/-- The state of a group after the rows `P`: closed attempts `A`, open attempt `o` (its events may
be empty). -/
structure FGInv (c : FCfg) (P : List (FRow G K)) (A : List (Attempt G K)) (o : Attempt G K)
    (g : FGroup) : Prop where
  bucket : ∀ k, (g.buckets k).isSome = decide (k ∈ c.buckets)
  counts : ∀ k b, g.buckets k = some b → Counts c A k b
  valid : ∀ a ∈ A, a.Valid c
  sub : ((A.map Attempt.span).flatten ++ o.span).Sublist P
  runs : ∀ a ∈ A, a.span <:+: P
  openRun : o.span <:+ P
  curStep : g.curStep = o.events.length
  completed : g.completed = o.events.length
  lt : o.events.length < c.len
  steps : ∀ j, j < o.events.length → g.steps j = o.at j
  openNil : o.events = [] → o.span = []
  openValid : o.events ≠ [] → o.Valid c
  openUser : ∀ r ∈ o.span, r.user = g.cur

/-- Adding an attempt to the counters. -/
theorem Counts.push (c : FCfg) (A : List (Attempt G K)) (k : Int) (b : Nat → StepResult)
    (g : FGroup) (o : Attempt G K) (h : Counts c A k b) (hk : c.key (o.at 0) = k)
    (hc : g.completed = o.events.length) (hne : o.events ≠ []) (hl : o.events.length ≤ c.len)
    (hs : ∀ j, j < o.events.length → g.steps j = o.at j) :
    Counts c (A ++ [o]) k (setDropped c (addSteps g b)) := by
  have hlen : 0 < o.events.length := by
    cases e : o.events with
    | nil => exact absurd e hne
    | cons a l => simp
  have hr : ∀ i, reached c (A ++ [o]) k i =
      reached c A k i ++ if i < o.events.length then [o] else [] := by
    intro i
    unfold reached
    rw [List.filter_append]
    congr 1
    by_cases hi : i < o.events.length
    · rw [if_pos hi, List.filter_cons_of_pos (by simp [hk, hi])]; rfl
    · rw [if_neg hi, List.filter_cons_of_neg (by simp [hi])]; rfl
  have ht : ∀ i, (setDropped c (addSteps g b) i).total = (addSteps g b i).total := by
    intro i; unfold setDropped; split <;> rfl
  have htm : ∀ i, (setDropped c (addSteps g b) i).time = (addSteps g b i).time := by
    intro i; unfold setDropped; split <;> rfl
  have hfs : ∀ i, (setDropped c (addSteps g b) i).fromStart = (addSteps g b i).fromStart := by
    intro i; unfold setDropped; split <;> rfl
  refine ⟨?_, ?_, ?_, ?_, ?_⟩
  · intro i
    rw [ht, hr, List.length_append]
    unfold addSteps
    rw [hc]
    by_cases hi : i < o.events.length
    · rw [if_pos hi, if_pos hi]
      show (b i).total + 1 = _
      rw [h.total i]; simp
    · rw [if_neg hi, if_neg hi, h.total i]; simp
  · intro i h0
    rw [htm, hr, List.map_append, List.sum_append]
    unfold addSteps
    rw [hc]
    by_cases hi : i < o.events.length
    · rw [if_pos hi, if_pos hi]
      show (b i).time + (if i > 0 then g.steps i - g.steps (i - 1) else 0) = _
      rw [if_pos h0, h.time i h0, hs i hi, hs (i - 1) (by omega)]; simp
    · rw [if_neg hi, if_neg hi, h.time i h0]; simp
  · intro i h0
    rw [hfs, hr, List.map_append, List.sum_append]
    unfold addSteps
    rw [hc]
    by_cases hi : i < o.events.length
    · rw [if_pos hi, if_pos hi]
      show (b i).fromStart + (if i > 0 then g.steps i - g.steps 0 else 0) = _
      rw [if_pos h0, h.fromStart i h0, hs i hi, hs 0 hlen]; simp
    · rw [if_neg hi, if_neg hi, h.fromStart i h0]; simp
  · intro i hi
    rw [ht, ht]
    unfold setDropped
    rw [if_pos ⟨by omega, hi⟩]
    rfl
  · have h0 : setDropped c (addSteps g b) 0 = addSteps g b 0 := by
      unfold setDropped; rw [if_neg (by omega)]
    rw [h0]
    unfold addSteps
    rw [hc, if_pos hlen]
    obtain ⟨h1, h2, h3⟩ := h.first
    refine ⟨?_, ?_, ?_⟩
    · show (b 0).time + (if (0:Nat) > 0 then g.steps 0 - g.steps (0 - 1) else 0) = 0
      rw [h1]; simp
    · show (b 0).fromStart + (if (0:Nat) > 0 then g.steps 0 - g.steps 0 else 0) = 0
      rw [h2]; simp
    · exact h3

/-- An attempt that belongs to another bucket leaves the counters as they are. -/
theorem Counts.other (c : FCfg) (A : List (Attempt G K)) (k : Int) (b : Nat → StepResult)
    (o : Attempt G K) (h : Counts c A k b) (hk : c.key (o.at 0) ≠ k) :
    Counts c (A ++ [o]) k b := by
  have hr : ∀ i, reached c (A ++ [o]) k i = reached c A k i := by
    intro i
    unfold reached
    rw [List.filter_append, List.filter_cons_of_neg (by simp [hk])]
    simp
  refine ⟨?_, ?_, ?_, h.dropped, h.first⟩
  · intro i; rw [hr]; exact h.total i
  · intro i; rw [hr]; exact h.time i
  · intro i; rw [hr]; exact h.fromStart i

/-- The empty attempt. -/
def Attempt.nil : Attempt G K := ⟨[], []⟩

/-- `pushed` on the buckets, for a group that agrees with attempt `o`. -/
theorem pushed_counts (c : FCfg) (A : List (Attempt G K)) (o : Attempt G K) (g : FGroup)
    (hb : ∀ k, (g.buckets k).isSome = decide (k ∈ c.buckets))
    (h : ∀ k b, g.buckets k = some b → Counts c A k b)
    (hc : g.completed = o.events.length) (hne : o.events ≠ []) (hl : o.events.length ≤ c.len)
    (hs : ∀ j, j < o.events.length → g.steps j = o.at j) :
    (∀ k, ((g.pushed c).buckets k).isSome = decide (k ∈ c.buckets)) ∧
    ∀ k b, (g.pushed c).buckets k = some b → Counts c (A ++ [o]) k b := by
  have hlen : 0 < o.events.length := by
    cases e : o.events with
    | nil => exact absurd e hne
    | cons a l => simp
  have hz : ¬ g.completed = 0 := by omega
  have hp : ∀ k, (g.pushed c).buckets k = if k = c.key (o.at 0) then
      (g.buckets k).map fun b => setDropped c (addSteps g b) else g.buckets k := by
    intro k
    unfold FGroup.pushed
    rw [if_neg hz, ← hs 0 hlen]
  refine ⟨?_, ?_⟩
  · intro k
    rw [hp k]
    split
    · rw [Option.isSome_map]; exact hb k
    · exact hb k
  · intro k b hk
    rw [hp k] at hk
    split at hk
    next e =>
      cases hg : g.buckets k with
      | none => rw [hg] at hk; cases hk
      | some b0 =>
        rw [hg] at hk
        cases hk
        exact (h k b0 hg).push c A k b0 g o e.symm hc hne hl hs
    next e => exact (h k b hk).other c A k b o (fun h => e h.symm)

/-- Closing the open attempt: it joins the closed ones if it has events. -/
def closeOpen (A : List (Attempt G K)) (o : Attempt G K) : List (Attempt G K) :=
  if o.events.isEmpty then A else A ++ [o]

theorem FGInv.pushed {c : FCfg} {P : List (FRow G K)} {A : List (Attempt G K)} {o : Attempt G K}
    {g : FGroup} (h : FGInv c P A o g) :
    (∀ k, ((g.pushed c).buckets k).isSome = decide (k ∈ c.buckets)) ∧
    (∀ k b, (g.pushed c).buckets k = some b → Counts c (closeOpen A o) k b) ∧
    (∀ a ∈ closeOpen A o, a.Valid c) ∧
    (((closeOpen A o).map Attempt.span).flatten).Sublist P ∧
    ∀ a ∈ closeOpen A o, a.span <:+: P := by
  unfold closeOpen
  cases he : o.events with
  | nil =>
    have : g.pushed c = g := by
      unfold FGroup.pushed
      rw [if_pos (by rw [h.completed, he]; rfl)]
    rw [this]
    refine ⟨h.bucket, h.counts, h.valid, ?_, h.runs⟩
    have := h.sub
    rw [h.openNil he, List.append_nil] at this
    exact this
  | cons e es =>
    have hne : o.events ≠ [] := by rw [he]; simp
    obtain ⟨h1, h2⟩ := pushed_counts c A o g h.bucket h.counts h.completed hne
      (Nat.le_of_lt h.lt) h.steps
    refine ⟨h1, h2, ?_, ?_, ?_⟩
    · intro a ha
      rcases List.mem_append.mp ha with ha | ha
      · exact h.valid a ha
      · rw [List.mem_singleton.mp ha]; exact h.openValid hne
    · have := h.sub
      simpa using this
    · intro a ha
      rcases List.mem_append.mp ha with ha | ha
      · exact h.runs a ha
      · rw [List.mem_singleton.mp ha]; exact h.openRun.isInfix

/-- Starting anew after dropping or closing the open attempt. -/
theorem FGInv.restart {c : FCfg} {P : List (FRow G K)} {A : List (Attempt G K)} {g : FGroup}
    (hn : 0 < c.len)
    (hb : ∀ k, (g.buckets k).isSome = decide (k ∈ c.buckets))
    (hc : ∀ k b, g.buckets k = some b → Counts c A k b)
    (hv : ∀ a ∈ A, a.Valid c) (hs : ((A.map Attempt.span).flatten).Sublist P)
    (hi : ∀ a ∈ A, a.span <:+: P) (h0 : g.curStep = 0) (h1 : g.completed = 0) :
    FGInv c P A Attempt.nil g :=
  ⟨hb, hc, hv, by simpa [Attempt.nil] using hs, hi, List.nil_suffix, h0, h1, hn,
    fun j hj => absurd hj (by simp [Attempt.nil]), fun _ => rfl,
    fun h => absurd rfl h, fun r hr => absurd hr (by simp [Attempt.nil])⟩

/-- One more row has been seen while no attempt is open. -/
theorem FGInv.weaken {c : FCfg} {P : List (FRow G K)} {A : List (Attempt G K)} {o : Attempt G K}
    {g : FGroup} (h : FGInv c P A o g) (ho : o.events = []) (r : FRow G K) :
    FGInv c (P ++ [r]) A o g :=
  { h with
    sub := h.sub.trans (List.sublist_append_left _ _)
    runs := fun a ha => (h.runs a ha).trans (List.prefix_append _ _).isInfix
    openRun := by rw [h.openNil ho]; exact List.nil_suffix }

theorem Attempt.at_append (es : List (FRow G K)) (sp : List (FRow G K)) (r : FRow G K) :
    ∀ j, (Attempt.mk (es ++ [r]) sp).at j =
      if j < es.length then (Attempt.mk es sp).at j else if j = es.length then r.ts else 0 := by
  intro j
  unfold Attempt.at
  dsimp only
  by_cases h : j < es.length
  · rw [if_pos h, List.getElem?_append_left h]
  · rw [if_neg h, List.getElem?_append_right (by omega)]
    by_cases e : j = es.length
    · rw [if_pos e, e]; simp
    · rw [if_neg e]
      have : ([r] : List (FRow G K))[j - es.length]? = none := by
        rw [List.getElem?_eq_none_iff]; simp; omega
      rw [this]

/-- The match of a row of the current user. `hr`: the row may extend the open attempt. -/
theorem step_inv {c : FCfg} {P : List (FRow G K)} {A : List (Attempt G K)} {o : Attempt G K}
    {g : FGroup} {r : FRow G K} (h : FGInv c P A o g) (hu : r.user = g.cur)
    (hw : o.events ≠ [] → r.ts - o.at 0 ≤ c.window)
    (hx : o.events ≠ [] → (∀ x ∈ c.excludes, x = none) →
      ∀ j, j < c.excludes.length → r.excl j = false) :
    ∃ A' o', FGInv c (P ++ [r]) A' o' (g.step c r).1 ∧ (g.step c r).1.cur = g.cur ∧
      (g.step c r).1.first = g.first := by
  have hsub : ((A.map Attempt.span).flatten ++ (o.span ++ [r])).Sublist (P ++ [r]) := by
    rw [← List.append_assoc]
    exact h.sub.append (List.Sublist.refl _)
  have hruns : ∀ a ∈ A, a.span <:+: P ++ [r] :=
    fun a ha => (h.runs a ha).trans (List.prefix_append _ _).isInfix
  have hsuf : o.span ++ [r] <:+ P ++ [r] := by
    obtain ⟨t, ht⟩ := h.openRun
    exact ⟨t, by rw [← ht, List.append_assoc]⟩
  have hsp : o.events ≠ [] → o.span ≠ [] := by
    intro hne e
    have := (h.openValid hne).sub
    rw [e] at this
    exact hne (List.sublist_nil.mp this)
  have hat : ∀ f, o.events ≠ [] → o.span.head? = some f → f.ts = o.at 0 := by
    intro f hne hf
    have := (h.openValid hne).head
    rw [hf] at this
    unfold Attempt.at
    cases he : o.events with
    | nil => exact absurd he hne
    | cons e es =>
      rw [he] at this
      simp only [List.head?_cons, Option.some.injEq] at this
      rw [this]; rfl
  -- the open attempt extended by the row, if it is open
  have hext : ∀ es : List (FRow G K), o.events ≠ [] → (es = o.events ∨ es = o.events ++ [r]) →
      es.length ≤ c.len → (es = o.events ++ [r] → Accepts c o.events.length r) →
      (Attempt.mk es (o.span ++ [r])).Valid c := by
    intro es hne hes hlen hacc
    have v := h.openValid hne
    have hspne := hsp hne
    obtain ⟨f, sp, hfs⟩ : ∃ f sp, o.span = f :: sp := by
      cases e : o.span with
      | nil => exact absurd e hspne
      | cons f sp => exact ⟨f, sp, rfl⟩
    have htail : (o.span ++ [r]).tail = o.span.tail ++ [r] := by rw [hfs]; rfl
    have hhead : (o.span ++ [r]).head? = o.span.head? := by rw [hfs]; rfl
    have hehead : es.head? = o.events.head? := by
      rcases hes with rfl | rfl
      · rfl
      · cases e : o.events with
        | nil => exact absurd e hne
        | cons a l => rfl
    refine ⟨?_, ?_, ?_, hlen, ?_, ?_, ?_, ?_⟩
    · rcases hes with rfl | rfl
      · exact hne
      · simp
    · rcases hes with rfl | rfl
      · exact v.sub.trans (List.sublist_append_left _ _)
      · exact v.sub.append (List.Sublist.refl _)
    · show (o.span ++ [r]).head? = es.head?
      rw [hhead, hehead]; exact v.head
    · intro j q hq
      rcases hes with rfl | rfl
      · exact v.accepts j q hq
      · dsimp only at hq
        by_cases hj : j < o.events.length
        · rw [List.getElem?_append_left hj] at hq; exact v.accepts j q hq
        · rw [List.getElem?_append_right (by omega)] at hq
          cases hd : j - o.events.length with
          | zero =>
            rw [hd] at hq
            have e : j = o.events.length := by omega
            simp at hq
            rw [← hq, e]; exact hacc rfl
          | succ n => rw [hd] at hq; simp at hq
    · intro f' hf' q hq
      dsimp only at hf' hq
      rw [hhead] at hf'
      rcases List.mem_append.mp hq with hq | hq
      · exact v.user f' hf' q hq
      · rw [List.mem_singleton.mp hq, hu]
        have hf : f' ∈ o.span := by
          rw [hfs] at hf' ⊢; simp at hf'; rw [← hf']; simp
        exact (h.openUser f' hf).symm
    · intro f' hf' q hq
      dsimp only at hf' hq
      rw [hhead] at hf'
      rw [htail] at hq
      rcases List.mem_append.mp hq with hq | hq
      · exact v.window f' hf' q hq
      · rw [List.mem_singleton.mp hq, hat f' hne hf']; exact hw hne
    · intro hnr q hq
      dsimp only at hq
      rw [htail] at hq
      rcases List.mem_append.mp hq with hq | hq
      · exact v.clean hnr q hq
      · rw [List.mem_singleton.mp hq]; exact hx hne hnr
  unfold FGroup.step
  by_cases hm : matchesStep c g.curStep r = true
  · rw [if_pos hm]
    have hacc : Accepts c o.events.length r := by
      rw [← h.curStep]; exact matchesStep_accepts c _ r hm
    -- the attempt including the row
    have hnew : ∃ sp : List (FRow G K), (Attempt.mk (o.events ++ [r]) sp).Valid c ∧
        ((A.map Attempt.span).flatten ++ sp).Sublist (P ++ [r]) ∧ (∀ q ∈ sp, q.user = g.cur) ∧
        sp <:+ P ++ [r] := by
      by_cases hne : o.events = []
      · refine ⟨[r], ?_, ?_, ?_, List.suffix_append _ _⟩
        · rw [hne]
          refine ⟨by simp, List.Sublist.refl _, rfl, ?_, ?_, ?_, ?_, ?_⟩
          · have := h.lt; show 1 ≤ c.len; omega
          · intro j q hq
            cases j with
            | zero => simp at hq; rw [← hq]; rw [hne] at hacc; exact hacc
            | succ j => simp at hq
          · intro f hf q hq
            simp at hf hq; rw [hq, hf]
          · intro f hf q hq; simp at hq
          · intro _ q hq; simp at hq
        · have := hsub
          rw [h.openNil hne] at this
          simpa using this
        · intro q hq; rw [List.mem_singleton.mp hq]; exact hu
      · refine ⟨o.span ++ [r], hext (o.events ++ [r]) hne (.inr rfl) ?_ (fun _ => hacc), hsub, ?_, hsuf⟩
        · have := h.lt; rw [List.length_append, List.length_singleton]; omega
        · intro q hq
          rcases List.mem_append.mp hq with hq | hq
          · exact h.openUser q hq
          · rw [List.mem_singleton.mp hq]; exact hu
    obtain ⟨sp, hval, hss, hus, hsr⟩ := hnew
    have hsteps : ∀ j, j < (o.events ++ [r]).length →
        (if j = g.curStep then r.ts else g.steps j) = (Attempt.mk (o.events ++ [r]) sp).at j := by
      intro j hj
      rw [List.length_append, List.length_singleton] at hj
      rw [Attempt.at_append, h.curStep]
      by_cases e : j = o.events.length
      · rw [if_pos e, if_neg (by omega), if_pos e]
      · rw [if_neg e, if_pos (by omega), h.steps j (by omega)]; rfl
    dsimp only
    by_cases hlast : g.curStep < c.len - 1
    · rw [if_pos hlast]
      refine ⟨A, ⟨o.events ++ [r], sp⟩, ⟨h.bucket, h.counts, h.valid, hss, hruns, hsr, ?_, ?_, ?_, hsteps, ?_,
        fun _ => hval, hus⟩, rfl, rfl⟩
      · show g.curStep + 1 = (o.events ++ [r]).length
        rw [h.curStep]; simp
      · show g.completed + 1 = (o.events ++ [r]).length
        rw [h.completed]; simp
      · show (o.events ++ [r]).length < c.len
        rw [h.curStep] at hlast; rw [List.length_append, List.length_singleton]; omega
      · intro e; simp at e
    · rw [if_neg hlast]
      have hlen : (o.events ++ [r]).length ≤ c.len := by
        have := h.lt; rw [List.length_append, List.length_singleton]; omega
      obtain ⟨p1, p2⟩ := pushed_counts c A ⟨o.events ++ [r], sp⟩
        { g with completed := g.completed + 1,
                 steps := fun i => if i = g.curStep then r.ts else g.steps i }
        h.bucket h.counts (by show g.completed + 1 = (o.events ++ [r]).length; rw [h.completed]; simp)
        (by simp) hlen hsteps
      refine ⟨A ++ [⟨o.events ++ [r], sp⟩], Attempt.nil, FGInv.restart ?_ p1 p2 ?_ ?_ ?_ rfl rfl, ?_, ?_⟩
      · have := h.lt; omega
      · intro a ha
        rcases List.mem_append.mp ha with ha | ha
        · exact h.valid a ha
        · rw [List.mem_singleton.mp ha]; exact hval
      · simpa using hss
      · intro a ha
        rcases List.mem_append.mp ha with ha | ha
        · exact hruns a ha
        · rw [List.mem_singleton.mp ha]; exact hsr.isInfix
      · show (FGroup.pushed c _).cur = g.cur
        unfold FGroup.pushed; split <;> rfl
      · show (FGroup.pushed c _).first = g.first
        unfold FGroup.pushed; split <;> rfl
  · rw [if_neg hm]
    by_cases hne : o.events = []
    · exact ⟨A, o, h.weaken hne r, rfl, rfl⟩
    · refine ⟨A, ⟨o.events, o.span ++ [r]⟩, ⟨h.bucket, h.counts, h.valid, hsub, hruns, hsuf, h.curStep,
        h.completed, h.lt, h.steps, fun e => absurd e hne, fun _ => ?_, ?_⟩, rfl, rfl⟩
      · refine hext o.events hne (.inl rfl) (Nat.le_of_lt h.lt) ?_
        intro e
        have := congrArg List.length e
        simp at this
      · intro q hq
        rcases List.mem_append.mp hq with hq | hq
        · exact h.openUser q hq
        · rw [List.mem_singleton.mp hq]; exact hu

theorem pushed_cur (c : FCfg) (g : FGroup) : (g.pushed c).cur = g.cur := by
  unfold FGroup.pushed; split <;> rfl
theorem pushed_first (c : FCfg) (g : FGroup) : (g.pushed c).first = g.first := by
  unfold FGroup.pushed; split <;> rfl

theorem partition_inv {c : FCfg} {P : List (FRow G K)} {A : List (Attempt G K)} {o : Attempt G K}
    {g : FGroup} (r : FRow G K) (h : FGInv c P A o g) :
    (r.user = g.cur ∧ g.partition c r = g) ∨
    (∃ A', FGInv c P A' Attempt.nil (g.partition c r) ∧ (g.partition c r).cur = r.user ∧
      (g.partition c r).first = g.first) := by
  unfold FGroup.partition
  by_cases hu : r.user ≠ g.cur
  · right
    rw [if_pos hu]
    obtain ⟨p1, p2, p3, p4, p5⟩ := h.pushed
    exact ⟨closeOpen A o, FGInv.restart (by have := h.lt; omega) p1 p2 p3 p4 p5 rfl rfl, rfl,
      pushed_first c g⟩
  · left
    rw [if_neg hu]
    exact ⟨by simpa using hu, rfl⟩

/-- A row with no open attempt. -/
theorem fresh_inv {c : FCfg} {P : List (FRow G K)} {A : List (Attempt G K)}
    {g : FGroup} (i : Nat) (r : FRow G K) (h : FGInv c P A Attempt.nil g) :
    ∃ A' o', FGInv c (P ++ [r]) A' o' (g.fresh c i r).1 ∧ (g.fresh c i r).1.first = g.first := by
  unfold FGroup.fresh
  have h' : FGInv c P A Attempt.nil (if c.hasConst then { g with constRow := i } else g) := by
    split
    · exact ⟨h.bucket, h.counts, h.valid, h.sub, h.runs, h.openRun, h.curStep, h.completed, h.lt, h.steps, h.openNil,
        h.openValid, h.openUser⟩
    · exact h
  have hf : (if c.hasConst then { g with constRow := i } else g).first = g.first := by
    split <;> rfl
  generalize (if c.hasConst then { g with constRow := i } else g) = g' at h' hf
  rcases partition_inv r h' with ⟨hu, e⟩ | ⟨A', h1, h2, h3⟩
  · rw [e]
    obtain ⟨A2, o2, i2, _, f2⟩ := step_inv h' hu (fun hne => absurd rfl hne)
      (fun hne => absurd rfl hne)
    exact ⟨A2, o2, i2, by rw [f2, hf]⟩
  · obtain ⟨A2, o2, i2, _, f2⟩ := step_inv h1 h2.symm (fun hne => absurd rfl hne)
      (fun hne => absurd rfl hne)
    exact ⟨A2, o2, i2, by rw [f2, h3, hf]⟩

theorem reset_inv {c : FCfg} {P : List (FRow G K)} {A : List (Attempt G K)} {g : FGroup}
    (hn : 0 < c.len)
    (hb : ∀ k, (g.buckets k).isSome = decide (k ∈ c.buckets))
    (hc : ∀ k b, g.buckets k = some b → Counts c A k b)
    (hv : ∀ a ∈ A, a.Valid c) (hs : ((A.map Attempt.span).flatten).Sublist P)
    (hi : ∀ a ∈ A, a.span <:+: P) : FGInv c P A Attempt.nil g.reset :=
  FGInv.restart hn hb hc hv hs hi rfl rfl

theorem seen_inv {c : FCfg} {P : List (FRow G K)} {A : List (Attempt G K)} {o : Attempt G K}
    {g : FGroup} (r : FRow G K) (h : FGInv c P A o g) (hf : g.first = true → o.span = []) :
    FGInv c P A o (g.seen r) ∧ (g.seen r).first = false := by
  unfold FGroup.seen
  cases e : g.first with
  | true =>
    refine ⟨⟨h.bucket, h.counts, h.valid, h.sub, h.runs, h.openRun, h.curStep, h.completed, h.lt, h.steps, h.openNil,
      h.openValid, ?_⟩, rfl⟩
    intro q hq; rw [hf e] at hq; cases hq
  | false => exact ⟨h, e⟩

/-- The body of the loop keeps the invariant. -/
theorem fRow_inv [DecidableEq K] {c : FCfg} {P : List (FRow G K)} {A : List (Attempt G K)}
    {o : Attempt G K} {g : FGroup} (batch : List (FRow G K)) (i : Nat) (r : FRow G K)
    (h : FGInv c P A o g) (hf : g.first = true → o.span = []) {p : FGroup × Bool}
    (e : fRow c batch i g r = some p) :
    ∃ A' o', FGInv c (P ++ [r]) A' o' p.1 ∧ p.1.first = false := by
  obtain ⟨hs, hsf⟩ := seen_inv r h hf
  unfold fRow at e
  dsimp only at e
  generalize g.seen r = g' at hs hsf e
  have hn : 0 < c.len := by have := hs.lt; omega
  have drop : ((A.map Attempt.span).flatten).Sublist P :=
    (List.sublist_append_left _ _).trans hs.sub
  have rfresh : ∃ A' o', FGInv c (P ++ [r]) A' o' (g'.reset.fresh c i r).1 ∧
      (g'.reset.fresh c i r).1.first = false := by
    obtain ⟨A', o', i', f'⟩ := fresh_inv i r (reset_inv hn hs.bucket hs.counts hs.valid drop hs.runs)
    exact ⟨A', o', i', by rw [f']; exact hsf⟩
  by_cases hc : g'.curStep > 0
  · rw [if_pos hc] at e
    have hne : o.events ≠ [] := by
      intro e0
      have := hs.curStep
      rw [e0] at this; simp at this; omega
    by_cases hx : checkExclude g'.curStep r 0 c.excludes = true
    · rw [hx] at e
      simp only [Bool.not_true, Bool.false_eq_true, if_false] at e
      by_cases hw : r.ts - g'.steps 0 > c.window
      · rw [if_pos hw] at e
        cases e
        obtain ⟨p1, p2, p3, p4, p5⟩ := hs.pushed
        obtain ⟨A', o', i', f'⟩ := fresh_inv i r (reset_inv (g := g'.pushed c) hn p1 p2 p3 p4 p5)
        exact ⟨A', o', i', by rw [f']; exact (pushed_first c g').trans hsf⟩
      · rw [if_neg hw] at e
        have go : ∃ A' o', FGInv c (P ++ [r]) A' o' ((g'.partition c r).step c r).1 ∧
            ((g'.partition c r).step c r).1.first = false := by
          rcases partition_inv r hs with ⟨hu, e'⟩ | ⟨A', h1, h2, h3⟩
          · rw [e']
            obtain ⟨A2, o2, i2, _, f2⟩ := step_inv hs hu
              (fun _ => by
                have h0 : 0 < o.events.length := by
                  have := hs.curStep; omega
                rw [← hs.steps 0 h0]; omega)
              (fun _ hnr j hj => by
                have := checkExclude_clean g'.curStep r c.excludes 0 hnr hx j hj
                rwa [Nat.zero_add] at this)
            exact ⟨A2, o2, i2, by rw [f2]; exact hsf⟩
          · obtain ⟨A2, o2, i2, _, f2⟩ := step_inv h1 h2.symm (fun hne => absurd rfl hne)
              (fun hne => absurd rfl hne)
            exact ⟨A2, o2, i2, by rw [f2, h3]; exact hsf⟩
        by_cases hk : c.hasConst = true
        · rw [if_pos hk] at e
          split at e
          · cases e
          · cases e; exact rfresh
          · cases e; exact go
        · rw [if_neg hk] at e
          cases e; exact go
    · have hx' : checkExclude g'.curStep r 0 c.excludes = false := by
        simpa using hx
      rw [hx'] at e
      simp only [Bool.not_false, if_true] at e
      cases e
      exact rfresh
  · rw [if_neg hc] at e
    cases e
    have h0 : o.events = [] := by
      have := hs.curStep
      cases ho : o.events with
      | nil => rfl
      | cons a l => rw [ho] at this; simp at this; omega
    have ho : o = Attempt.nil := by
      have := hs.openNil h0
      cases o; simp only [Attempt.nil] at *; subst h0; subst this; rfl
    rw [ho] at hs
    obtain ⟨A', o', i', f'⟩ := fresh_inv i r hs
    exact ⟨A', o', i', by rw [f']; exact hsf⟩

theorem new_inv (c : FCfg) (hn : 0 < c.len) :
    FGInv c ([] : List (FRow G K)) [] Attempt.nil (FGroup.new c) := by
  refine FGInv.restart hn ?_ ?_ (by simp) (by simp) (by simp) rfl rfl
  · intro k
    unfold FGroup.new
    dsimp only
    split
    next h => simp [h]
    next h => simp [h]
  · intro k b hb
    unfold FGroup.new at hb
    dsimp only at hb
    split at hb
    · cases hb
      refine ⟨?_, ?_, ?_, ?_, ?_⟩ <;> simp [reached]
    · cases hb

/-- The state after the rows `R` (used or skipped). -/
def FInv (c : FCfg) (R : List (FRow G K)) (st : FState G) : Prop :=
  ∀ g gr, st.groups g = some gr → ∃ P A o, FGInv c P A o gr ∧ gr.first = false ∧
    P.Sublist R ∧ ∀ r ∈ P, r.group = g

section
variable [DecidableEq G] [DecidableEq K]

theorem fUse_inv {c : FCfg} (hn : 0 < c.len) {R : List (FRow G K)} {st st' : FState G}
    (batch : List (FRow G K)) (i : Nat) (r : FRow G K) (h : FInv c R st)
    (e : fUse c batch i st r = some st') : FInv c (R ++ [r]) st' := by
  unfold fUse at e
  cases hr : fRow c batch i ((st.groups r.group).getD (FGroup.new c)) r with
  | none => rw [hr] at e; cases e
  | some p =>
    rw [hr] at e
    cases e
    intro g gr hg
    dsimp only at hg
    unfold setGroup at hg
    by_cases hgr : g = r.group
    · rw [if_pos hgr] at hg
      cases hg
      cases hs : st.groups r.group with
      | none =>
        rw [hs] at hr
        obtain ⟨A', o', i', f'⟩ := fRow_inv batch i r (new_inv c hn) (fun _ => rfl) hr
        refine ⟨[] ++ [r], A', o', i', f', ?_, ?_⟩
        · exact List.Sublist.append (List.nil_sublist _) (List.Sublist.refl _)
        · intro q hq; simp at hq; rw [hq, hgr]
      | some g0 =>
        rw [hs] at hr
        obtain ⟨P, A, o, i0, f0, s0, gp⟩ := h r.group g0 hs
        obtain ⟨A', o', i', f'⟩ := fRow_inv batch i r i0
          (fun e => by rw [f0] at e; cases e) hr
        refine ⟨P ++ [r], A', o', i', f', s0.append (List.Sublist.refl _), ?_⟩
        intro q hq
        rcases List.mem_append.mp hq with hq | hq
        · rw [gp q hq, hgr]
        · rw [List.mem_singleton.mp hq, hgr]
    · rw [if_neg hgr] at hg
      obtain ⟨P, A, o, i0, f0, s0, gp⟩ := h g gr hg
      exact ⟨P, A, o, i0, f0, s0.trans (List.sublist_append_left _ _), gp⟩

theorem FInv.skip {c : FCfg} {R : List (FRow G K)} {st : FState G} (h : FInv c R st)
    (r : FRow G K) (b : Bool) : FInv c (R ++ [r]) { st with skip := b } := by
  intro g gr hg
  obtain ⟨P, A, o, i0, f0, s0, gp⟩ := h g gr hg
  exact ⟨P, A, o, i0, f0, s0.trans (List.sublist_append_left _ _), gp⟩

theorem fLoop_inv {c : FCfg} (hn : 0 < c.len) (exist : Option (Int → Bool))
    (batch : List (FRow G K)) : ∀ (rows : List (FRow G K)) (i : Nat) (R : List (FRow G K))
    (st st' : FState G), FInv c R st → fLoop c exist batch i rows st = some st' →
    FInv c (R ++ rows) st'
  | [], _, R, st, st', h, e => by
    cases e; simpa using h
  | r :: rest, i, R, st, st', h, e => by
    have key : R ++ r :: rest = (R ++ [r]) ++ rest := by simp
    rw [key]
    unfold fLoop at e
    by_cases h1 : (st.skip && (st.cur == r.user && !rest.isEmpty)) = true
    · rw [if_pos h1] at e
      exact fLoop_inv hn exist batch rest (i + 1) (R ++ [r]) st st' (h.skip r st.skip) e
    · rw [if_neg h1] at e
      by_cases h2 : (outside exist r.user && !rest.isEmpty) = true
      · rw [if_pos h2] at e
        exact fLoop_inv hn exist batch rest (i + 1) (R ++ [r]) _ st' (h.skip r false) e
      · rw [if_neg h2] at e
        cases hu : fUse c batch i { st with skip := false } r with
        | none => rw [hu] at e; cases e
        | some s1 =>
          rw [hu] at e
          refine fLoop_inv hn exist batch rest (i + 1) (R ++ [r]) s1 st' ?_ e
          exact fUse_inv hn batch i r (st := { st with skip := false }) h hu

theorem fBatches_inv {c : FCfg} (hn : 0 < c.len) (exist : Option (Int → Bool)) :
    ∀ (batches : List (List (FRow G K))) (R : List (FRow G K)) (st st' : FState G), FInv c R st →
    batches.foldlM (fBatch c exist) st = some st' → FInv c (R ++ batches.flatten) st'
  | [], R, st, st', h, e => by cases e; simpa using h
  | b :: bs, R, st, st', h, e => by
    rw [List.foldlM_cons] at e
    cases hb : fBatch c exist st b with
    | none => rw [hb] at e; cases e
    | some s1 =>
      rw [hb] at e
      have h1 : FInv c (R ++ b) s1 := by
        unfold fBatch at hb
        cases hbb : b with
        | nil => rw [hbb] at hb; cases hb
        | cons r l =>
          rw [hbb] at hb
          dsimp only at hb
          split at hb
          · cases hb
          · exact fLoop_inv hn exist (r :: l) (r :: l) 0 R st s1 h hb
      have := fBatches_inv hn exist bs (R ++ b) s1 st' h1 e
      rw [List.flatten_cons, ← List.append_assoc]; exact this

end
end OptiPrism.Query
