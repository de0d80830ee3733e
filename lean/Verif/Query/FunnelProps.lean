import Verif.Query.FunnelLemmas

/-! Properties C55, C56 (funnel counts). -/

namespace OptiPrism.Query

variable {G K : Type} [DecidableEq G] [DecidableEq K]

/-- The reported counters describe a list of valid attempts over disjoint parts of the input. -/
theorem funnel_attempts (c : FCfg) (hn : 0 < c.len) (exist : Option (Int → Bool))
    (batches : List (List (FRow G K))) (f : G → Int → Option (Nat → StepResult))
    (h : funnel c exist batches = some f) (g : G) :
    ∃ A : List (Attempt G K), (∀ a ∈ A, a.Valid c) ∧
      ((A.map Attempt.span).flatten).Sublist (batches.flatten.filter fun r => r.group = g) ∧
      (∀ k b, f g k = some b → k ∈ c.buckets ∧ Counts c A k b) ∧
      ∀ k, k ∈ c.buckets → f g k = none → reached c A k 0 = [] := by
  unfold funnel fBatches at h
  cases hb : batches.foldlM (fBatch c exist) (⟨false, 0, fun _ => none⟩ : FState G) with
  | none => rw [hb] at h; cases h
  | some st =>
    rw [hb] at h
    cases h
    have hi := fBatches_inv hn exist batches [] _ st (by intro g gr hg; cases hg) hb
    rw [List.nil_append] at hi
    unfold fFinish
    cases hg : st.groups g with
    | none =>
      refine ⟨[], by simp, by simp, ?_, ?_⟩
      · intro k b hk; cases hk
      · intro k _ _; rfl
    | some gr =>
      obtain ⟨P, A, o, i0, f0, s0, gp⟩ := hi g gr hg
      obtain ⟨p1, p2, p3, p4, _⟩ := i0.pushed
      refine ⟨closeOpen A o, p3, ?_, ?_, ?_⟩
      · refine p4.trans ?_
        have : P = P.filter fun r => decide (r.group = g) := by
          rw [List.filter_eq_self.mpr]
          intro r hr; simp [gp r hr]
        rw [this]
        exact s0.filter _
      · intro k b hk
        dsimp only at hk
        cases hp : (gr.pushed c).buckets k with
        | none => rw [hp] at hk; cases hk
        | some b0 =>
          rw [hp] at hk
          dsimp only at hk
          split at hk
          · cases hk
            refine ⟨?_, p2 k b hp⟩
            have := p1 k
            rw [hp] at this
            simpa using this.symm
          · cases hk
      · intro k hk hf
        dsimp only at hf
        cases hp : (gr.pushed c).buckets k with
        | none =>
          have := p1 k
          rw [hp] at this
          simp [hk] at this
        | some b0 =>
          rw [hp] at hf
          dsimp only at hf
          split at hf
          · cases hf
          · next ht =>
            have h0 := (p2 k b0 hp).total 0
            have : (b0 0).total = 0 := by omega
            rw [this] at h0
            exact List.length_eq_zero_iff.mp (by omega)

theorem reached_succ (c : FCfg) (A : List (Attempt G K)) (k : Int) (i : Nat) :
    (reached c A k (i + 1)).length ≤ (reached c A k i).length := by
  unfold reached
  rw [← List.countP_eq_length_filter, ← List.countP_eq_length_filter]
  refine List.countP_mono_left ?_
  intro a _ h
  simp only [Bool.and_eq_true, decide_eq_true_eq] at h ⊢
  exact ⟨h.1, by omega⟩

/-- C55: in every group and bucket the steps are monotone and the drop-off is the difference, for
every set of batches, every option and every user filter. -/
theorem C55_funnel_monotone (c : FCfg) (exist : Option (Int → Bool))
    (batches : List (List (FRow G K))) (f : G → Int → Option (Nat → StepResult))
    (h : funnel c exist batches = some f) (g : G) (k : Int) (b : Nat → StepResult)
    (hb : f g k = some b) (i : Nat) (hi : i + 1 < c.len) :
    0 ≤ (b (i + 1)).total ∧ (b (i + 1)).total ≤ (b i).total ∧
    (b (i + 1)).dropped = (b i).total - (b (i + 1)).total := by
  obtain ⟨A, _, _, hc, _⟩ := funnel_attempts c (by omega) exist batches f h g
  obtain ⟨_, hc⟩ := hc k b hb
  have := reached_succ c A k i
  refine ⟨?_, ?_, hc.dropped i hi⟩
  · rw [hc.total]; omega
  · rw [hc.total, hc.total]; omega

/-- C55 for the final stage: the sums over the workers that report a group and bucket. -/
theorem C55_funnel_final (c : FCfg) (parts : List (Nat → StepResult))
    (h : ∀ b ∈ parts, ∃ exist, ∃ batches : List (List (FRow G K)), ∃ f g k,
      funnel c exist batches = some f ∧ f g k = some b)
    (i : Nat) (hi : i + 1 < c.len) :
    finalTotal parts (i + 1) ≤ finalTotal parts i ∧
    finalDropped parts (i + 1) = finalTotal parts i - finalTotal parts (i + 1) := by
  unfold finalTotal finalDropped
  induction parts with
  | nil => simp
  | cons b bs ih =>
    obtain ⟨i1, i2⟩ := ih (fun x hx => h x (List.mem_cons_of_mem _ hx))
    obtain ⟨ex, ba, f, g, k, h1, h2⟩ := h b (by simp)
    obtain ⟨_, m1, m2⟩ := C55_funnel_monotone c ex ba f h1 g k b h2 i hi
    simp only [List.map_cons, List.sum_cons]
    constructor <;> omega

/-- Specification: events completing the first steps of the funnel, in order, by one user, within
the window of the first. -/
structure Conversion (c : FCfg) (es : List (FRow G K)) : Prop where
  nonempty : es ≠ []
  accepts : ∀ j r, es[j]? = some r → Accepts c j r
  user : ∀ r ∈ es, ∀ q ∈ es, r.user = q.user
  order : es.Pairwise fun a b => a.ts ≤ b.ts
  window : ∀ f r, es.head? = some f → r ∈ es.tail → r.ts - f.ts ≤ c.window

/-- The bucket of a conversion. -/
def bucketOf (c : FCfg) (es : List (FRow G K)) : Option Int := es.head?.map fun r => c.key r.ts

/-- C56: in a stream sorted by user and time every number reported for a step counts conversions
that reach this step, made of different rows of the group. The times are theirs. -/
theorem C56_funnel_sound (c : FCfg) (hn : 0 < c.len) (exist : Option (Int → Bool))
    (batches : List (List (FRow G K)))
    (hs : batches.flatten.Pairwise fun a b => a.user = b.user → a.ts ≤ b.ts)
    (f : G → Int → Option (Nat → StepResult))
    (h : funnel c exist batches = some f) (g : G) :
    ∃ E : List (List (FRow G K)), (∀ es ∈ E, Conversion c es ∧ es.length ≤ c.len) ∧
      E.flatten.Sublist (batches.flatten.filter fun r => r.group = g) ∧
      ∀ k b, f g k = some b → ∀ i,
        (b i).total = ((E.filter fun es => bucketOf c es == some k && decide (i < es.length)).length : Int) ∧
        (0 < i → (b i).fromStart = ((E.filter fun es =>
          bucketOf c es == some k && decide (i < es.length)).map fun es =>
            (es[i]?.map FRow.ts).getD 0 - (es[0]?.map FRow.ts).getD 0).sum) := by
  obtain ⟨A, hv, hsub, hc, _⟩ := funnel_attempts c hn exist batches f h g
  have hes : ∀ a ∈ A, (Attempt.events a).Sublist batches.flatten := by
    intro a ha
    refine (hv a ha).sub.trans (List.Sublist.trans ?_ (hsub.trans List.filter_sublist))
    exact List.sublist_flatten_of_mem (List.mem_map_of_mem ha)
  have hflat : ∀ l : List (Attempt G K), (∀ a ∈ l, a.Valid c) →
      ((l.map Attempt.events).flatten).Sublist ((l.map Attempt.span).flatten) := by
    intro l
    induction l with
    | nil => intro _; exact List.Sublist.refl _
    | cons a l ih =>
      intro hl
      simp only [List.map_cons, List.flatten_cons]
      exact (hl a (by simp)).sub.append (ih fun x hx => hl x (List.mem_cons_of_mem _ hx))
  have hbk : ∀ a ∈ A, bucketOf c a.events = some (c.key (a.at 0)) := by
    intro a ha
    have := (hv a ha).nonempty
    unfold bucketOf Attempt.at
    cases e : a.events with
    | nil => exact absurd e this
    | cons x l => rfl
  have hfil : ∀ k i, (A.map Attempt.events).filter
      (fun es => bucketOf c es == some k && decide (i < es.length)) =
      (reached c A k i).map Attempt.events := by
    intro k i
    unfold reached
    rw [List.filter_map]
    congr 1
    refine List.filter_congr ?_
    intro a ha
    simp [hbk a ha]
  refine ⟨A.map Attempt.events, ?_, (hflat A hv).trans hsub, ?_⟩
  · intro es he
    obtain ⟨a, ha, rfl⟩ := List.mem_map.mp he
    have v := hv a ha
    have huser : ∀ r ∈ a.events, ∀ q ∈ a.events, r.user = q.user := by
      intro r hr q hq
      have hr' := v.sub.subset hr
      have hq' := v.sub.subset hq
      cases hh : a.span with
      | nil => rw [hh] at hr'; cases hr'
      | cons f sp =>
        have hu := v.user f (by rw [hh]; rfl)
        rw [hu r hr', hu q hq']
    refine ⟨⟨v.nonempty, v.accepts, huser, ?_, ?_⟩, v.len⟩
    · have := hs.sublist (hes a ha)
      exact this.imp_of_mem fun {x y} hx hy hxy => hxy (huser x hx y hy)
    · intro f r hf hr
      have hhead := v.head
      rw [hf] at hhead
      refine v.window f hhead r ?_
      -- the tail of the events lies in the tail of the span
      have hsub := v.sub
      cases hsp : a.span with
      | nil => rw [hsp] at hhead; cases hhead
      | cons x sp =>
        cases hev : a.events with
        | nil => rw [hev] at hf; cases hf
        | cons y ev =>
          rw [hsp, hev] at hsub
          rw [hev] at hr
          exact (hsub.tail).subset hr
  · intro k b hk i
    obtain ⟨_, hc⟩ := hc k b hk
    rw [hfil]
    refine ⟨by rw [hc.total i, List.length_map], fun h0 => ?_⟩
    rw [hc.fromStart i h0, List.map_map]
    congr 1
    refine List.map_congr_left ?_
    intro a _
    have : ∀ j, a.at j = (a.events[j]?.map FRow.ts).getD 0 := by
      intro j; unfold Attempt.at; cases a.events[j]? <;> rfl
    simp only [Function.comp, this]

/-! ### A concrete funnel -/

/-- A row with the number of the step it completes. -/
def exRow (u t : Int) (s : Nat) : FRow Unit Unit := ⟨u, t, fun i => i == s, fun _ => false, (), ()⟩
/-- Two steps within ten milliseconds, one bucket. -/
def exCfg : FCfg := ⟨[.exact, .exact], [], false, false, none, 10, fun _ => 0, [0]⟩

/-- The counters of a two step funnel. -/
def totals2 {G : Type} (g : G) (o : Option (G → Int → Option (Nat → StepResult))) :
    Option (Int × Int) :=
  (o.bind fun f => f g 0).map fun b => ((b 0).total, (b 1).total)

example : totals2 () (funnel exCfg none [[exRow 1 0 0, exRow 1 5 1], [exRow 2 0 0, exRow 2 50 1]]) =
    some (2, 1) := by decide

end OptiPrism.Query
